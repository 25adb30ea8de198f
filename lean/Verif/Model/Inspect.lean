import Verif.Model.Printer
import Verif.Proofs.Conv
/-!
# The inspector (inspect.c)

`?x` at the REPL: `eval_inspect` (evaluate.c:1009-1016) looks `x` up and calls `inspect`.
-/

namespace Bic.Inspect

open Bic.Lexer (Str bytes)
open Bic.Printer (Floats Prints decimal)

/-- a position in the source, `struct tree_locus` (tree.h:64-68) without the column -/
structure Locus where
  file : Str
  line : Nat

/-- the descriptions of the C types (c.lang:255-269), with the `signed short` of line 261 for
`unsigned short` -/
def ctypeText : CT → String
  | .char => "signed char"
  | .short => "signed short"
  | .int => "signed integer"
  | .long => "signed long"
  | .longlong => "signed long long"
  | .uchar => "unsigned char"
  | .ushort => "signed short"
  | .uint => "unsigned integer"
  | .ulong => "unsigned long"
  | .ulonglong => "unsigned long long"
  | .float => "float"
  | .double => "double"
  | .longdouble => "long double"
  | .ptr => "pointer"

/-- `tree_description_string` (tree.h:83-100, c.lang) of the objects that names denote: variables,
structures, functions, types, enumerators; the descriptions of other objects are opaque (`other`) -/
def description (other : Node → Str) : Node → Str
  | .ctype c _ => bytes (ctypeText c)
  | .integer _ => bytes "Constant integer"
  | .lcomp _ _ _ => bytes "Live Compound"
  | .lv _ _ _ _ => bytes "Live Variable"
  | .fn _ _ _ _ => bytes "Function"
  | .extFunc _ => bytes "External function"
  | .builtin _ => bytes "Builtin function handler"
  | .void => bytes "Void type"
  | .enumr _ _ => bytes "Enumerator"
  | .incomp => bytes "Incompletel type"
  | n => other n

/-- `TypeText oth s t out`: what `handle_pointer_type` (29-37) and the rest of `print_object_type` (54-62) print
for a type.  There is no result for a structure without a tag, whose name is read through a null
pointer (57), and for a pointer to nothing. -/
inductive TypeText (oth : Node → Str) (s : St) : TId → Str → Prop
  | ptr {t e out} : s.nodes t = some (.ctype .ptr (some e)) → TypeText oth s e out → TypeText oth s t (bytes "pointer to a " ++ out)
  | comp {t i n ds sz x b} : s.nodes t = some (.compound (some i) ds sz x b) → s.nodes i = some (.ident n) → TypeText oth s t (bytes n)
  | other {t n} : s.nodes t = some n → (∀ e, n ≠ .ctype .ptr e) → (∀ i ds sz x b, n ≠ .compound i ds sz x b) →
      TypeText oth s t (description oth n)

/-- the locus of an object (`tLOCUS`): `loc` has those that the parser has set for identifiers and functions and that
`make_and_map_live_var` (evaluate.c:603) and `handle_extern_decl` (970) have copied to variables;
`instantiate_array` (evaluate.c:624-646) sets none.  Objects of the model have no loci, therefore they are a parameter. -/
def locusOf (loc : TId → Option Locus) (s : St) (t : TId) : Option Locus :=
  match s.nodes t with
  | some (.lv _ _ true _) => none
  | _ => loc t

/-- how an inspection ends: with the text and the state after it, or with a null pointer being read
after the text -/
inductive Result where
  | shows (out : Str) (s : St)
  | crash (out : Str)

/-- `print_object_locus` (65-70) after `out` -/
def locusLine (x : Str) (l : Option Locus) (out : Str) (s : St) : Result :=
  match l with
  | some l => .shows (out ++ x ++ bytes " was declared at: " ++ l.file ++ bytes ":" ++ decimal l.line ++ bytes "\n") s
  | none => .crash out

/-- `inspect(inspect_id, resolved_object)` (89-107) with the functions it calls.  The object T_SIZEOF that
`print_object_type` makes (43) is left out. -/
inductive Inspects (E : Env) (oth : Node → Str) (fl : Floats) (loc : TId → Option Locus) (s : St) (x : Str) : Ref → Result → Prop
  | none : Inspects E oth fl loc s x none (.shows (bytes "Object not found\n") s)
  | var {o ty a i n tt vt r st s'} : s.nodes o = some (.lv (some ty) a i n) → TypeText oth s ty tt → Prints fl s o vt →
      Conv E (fun R => do let z ← mk (.sizeof (some o)); R.ev (some z)) s (.ok (some r) s') → Prints fl s' r st →
      Inspects E oth fl loc s x (some o) (locusLine x (locusOf loc s o)
        (x ++ bytes " is a " ++ tt ++ bytes ".\n" ++ bytes "value of " ++ x ++ bytes " is " ++ vt ++ bytes "\n" ++
          bytes "sizeof(" ++ x ++ bytes ") = " ++ st ++ bytes " bytes.\n") s')
  | fn {o d as rt ss} : s.nodes o = some (.fn d as rt ss) →
      Inspects E oth fl loc s x (some o) (locusLine x (locusOf loc s o) (x ++ bytes " is a " ++ bytes "Function" ++ bytes ".\n") s)
  | ext {o f} : s.nodes o = some (.extFunc (some f)) →
      Inspects E oth fl loc s x (some o) (locusLine x (locusOf loc s f) (x ++ bytes " is a " ++ bytes "External function" ++ bytes ".\n") s)
  | other {o n tt} : s.nodes o = some n → (∀ ty a i m, n ≠ .lv ty a i m) → (∀ d as rt ss, n ≠ .fn d as rt ss) → (∀ f, n ≠ .extFunc f) →
      TypeText oth s o tt → Inspects E oth fl loc s x (some o) (.shows (x ++ bytes " is a " ++ tt ++ bytes ".\n") s)

/-- `eval_inspect` (evaluate.c:1009-1016) -/
def EvalInspect (E : Env) (oth : Node → Str) (fl : Floats) (loc : TId → Option Locus) (s : St) (x : String) (r : Result) : Prop :=
  Inspects E oth fl loc s (bytes x) (resolveGlobal x .normal s) r

end Bic.Inspect
