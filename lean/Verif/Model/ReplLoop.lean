import Verif.Model.Repl
import Verif.Model.Yylex
import Verif.Model.Heap
import Verif.Model.Printer
import Verif.Proofs.Conv
/-!
# The REPL (repl.c:371-485)

One line after the other is parsed as it was typed, preprocessed, parsed again, evaluated and printed.
The lexer's start condition and the type names are static variables of the generated lexer and of
typename.c: they stay from line to line.  Not modelled: readline and its history, the startup file (Verif.Model.Startup), the
evaluation of `#include` (Verif.Model.Include), the tree objects the parser has made for a line it rejects,
which nothing refers to, and type names that a line uses after a typedef on the same line.
-/

namespace Bic.Repl
open Lexer (Target LSt Tok)
open _root_.Bic.Parser (PT N Der T ofTok build)
open Printer (Floats Prints)

/-- the tokens of a text and the state the lexer is in at its end -/
inductive LexTo (tg : Target) (ty : Str → Bool) : LSt → Str → List Tok → LSt → Prop
  | eof {st s} : Lexer.next tg ty st s = .eof → LexTo tg ty st s [] st
  | tok {st s t st' rest ts e} : Lexer.next tg ty st s = .tok t st' rest → LexTo tg ty st' rest ts e → LexTo tg ty st s (t :: ts) e
  | skip {st s st' rest ts e} : Lexer.next tg ty st s = .skip st' rest → LexTo tg ty st' rest ts e → LexTo tg ty st s ts e

/-- the first tokens of a text and the state the lexer is in after the last of them -/
inductive LexSome (tg : Target) (ty : Str → Bool) : LSt → Str → List Tok → LSt → Prop
  | nil {st s} : LexSome tg ty st s [] st
  | tok {st s t st' rest ts e} : Lexer.next tg ty st s = .tok t st' rest → LexSome tg ty st' rest ts e → LexSome tg ty st s (t :: ts) e
  | skip {st s st' rest t ts e} : Lexer.next tg ty st s = .skip st' rest → LexSome tg ty st' rest (t :: ts) e →
      LexSome tg ty st s (t :: ts) e

/-- the lexer, the type names and the evaluator between two lines -/
structure RSt where
  lx : LSt
  ty : Str → Bool
  st : St

/-- the tokens begin an input -/
def Viable (toks : List Tok) : Prop := ∃ i j t, toks.map ofTok = i.map some ∧ Der .replUnit (i ++ j) t []

/-- `replparse` accepts the line with this tree -/
def Accepts (ty : Str → Bool) (lx : LSt) (line : Str) (t : PT) (lx' : LSt) : Prop :=
  ∃ toks i, LexTo .repl ty lx line toks lx' ∧ toks.map ofTok = i.map some ∧ Der .replUnit i t []

/-- `find_ids_to_map_to_typenames` (parser.m4:34-53) and `add_typename` (typename.c:18-27) on a
declarator: the name it declares -/
def declNames : PT → List Str
  | .ident s => [s]
  | .pointer _ e => declNames e
  | .fn d _ _ => declNames d
  | .array d _ _ => declNames d
  | _ => []

/-- `chain_has_T_TYPEDEF` (tree.h:183-199) -/
def hasTypedef : PT → Bool
  | .chain ts => ts.any fun t => match t with | .kw .typedef => true | _ => false
  | _ => false

/-- `maybe_add_typenames` (parser.m4:55-59), called for declarations with declarators (622-630): the
names that become names of types when the statement is parsed -/
def typedefNames : PT → List Str
  | .decl specs (.chain ds) => if hasTypedef specs then ds.flatMap declNames else []
  | _ => []

/-- the names of types after a statement has been parsed -/
def addNames (t : PT) (ty : Str → Bool) : Str → Bool := fun x => ty x || decide (x ∈ typedefNames t)

/-- `replparse` rejects the line: at the first token that does not belong to any input, or at the end;
`toks` are the tokens before -/
inductive Rejects (ty : Str → Bool) (lx : LSt) (line : Str) : List Tok → LSt → Prop
  | token {toks t lx'} : LexSome .repl ty lx line (toks ++ [t]) lx' → Viable toks → ¬ Viable (toks ++ [t]) → Rejects ty lx line toks lx'
  | early {toks lx'} : LexTo .repl ty lx line toks lx' → Viable toks →
      (∀ i t, toks.map ofTok = i.map some → ¬ Der .replUnit i t []) → Rejects ty lx line toks lx'

/-- the names that become names of types although the line is rejected: those of the statements that are
complete (their declarations have been reduced, parser.m4:622-630) -/
def Added (toks : List Tok) (x : Str) : Prop :=
  ∃ i j ts t, toks.map ofTok = (i ++ j).map some ∧ Der .replUnit i (.chain ts) [] ∧ t ∈ ts ∧ x ∈ typedefNames t

/-- `repl_do_parse` (371-397) when it returns: the statement of the line, or NULL.  With more than one
statement on the line bic exits. -/
inductive DoParse (F : Str → Nat) (r : RSt) (line : Str) : Ref → RSt → Prop
  | one {t lx' x y s'} : Accepts r.ty r.lx line (.chain [t]) lx' → build F (.chain [t]) r.st = .ok (some x) s' →
      s'.nodes x = some (.chain [y]) → DoParse F r line (some y) ⟨lx', addNames t r.ty, s'⟩
  | rejected {toks lx' ty'} : Rejects r.ty r.lx line toks lx' → (∀ x, ty' x = true ↔ r.ty x = true ∨ Added toks x) →
      DoParse F r line none ⟨lx', ty', r.st⟩

/-- `repl_parse_line` (399-431); `cpp` is what `run_cpp` gives for the line with the collected headers
before it -/
inductive ParseLine (F : Str → Nat) (cpp : List String → Str → Str) (r : RSt) (line : Str) : Ref → RSt → Prop
  | rejected {r'} : DoParse F r line none r' → ParseLine F cpp r line none r'
  | header {y r' h} : DoParse F r line (some y) r' → r'.st.nodes y = some (.cppInclude h) → ParseLine F cpp r line (some y) r'
  | line {y n r' line' z r''} : DoParse F r line (some y) r' → r'.st.nodes y = some n → (∀ h, n ≠ .cppInclude h) →
      runCppOnLine (cpp r'.st.includes line) = some line' → DoParse F r' line' z r'' → ParseLine F cpp r line z r''

/-- how the REPL ends the handling of a line: with output, or with the end of the process -/
inductive Answer where
  | shows (out : Str)
  | ends (w : Stop)

/-- the body of the loop of `bic_repl` (463-484) -/
inductive Line (E : Env) (fl : Floats) (F : Str → Nat) (cpp : List String → Str → Str) (r : RSt) (line : Str) : Answer → RSt → Prop
  | rejected {r'} : ParseLine F cpp r line none r' → Line E fl F cpp r line (.shows []) r'
  | value {y r' v s' out} : ParseLine F cpp r line (some y) r' → Conv E (fun R => R.ev (some y)) r'.st (.ok (some v) s') →
      Prints fl s' v out → Line E fl F cpp r line (.shows (out ++ [newline])) ⟨r'.lx, r'.ty, s'⟩
  | nothing {y r' s'} : ParseLine F cpp r line (some y) r' → Conv E (fun R => R.ev (some y)) r'.st (.ok none s') →
      Line E fl F cpp r line (.shows []) ⟨r'.lx, r'.ty, s'⟩
  | ends {y r' w s'} : ParseLine F cpp r line (some y) r' → Conv E (fun R => R.ev (some y)) r'.st (.stop w s') →
      Line E fl F cpp r line (.ends w) ⟨r'.lx, r'.ty, s'⟩

/-- the lines typed one after the other, what is printed, and how the process ends, if it does -/
inductive Session (E : Env) (fl : Floats) (F : Str → Nat) (cpp : List String → Str → Str) :
    RSt → List Str → List Str → Option Stop → RSt → Prop
  | nil {r} : Session E fl F cpp r [] [] none r
  | cons {r l o r1 ls os w r2} : Line E fl F cpp r l (.shows o) r1 → Session E fl F cpp r1 ls os w r2 →
      Session E fl F cpp r (l :: ls) (o :: os) w r2
  | ends {r l w r1 ls} : Line E fl F cpp r l (.ends w) r1 → Session E fl F cpp r (l :: ls) [] (some w) r1

end Bic.Repl
