import Verif.Spec.LangDesc
import Verif.Spec.Layout
/-!
# Reading generated C

What the C compiler makes of the generated texts, as far as it matters for the tables: the tokens of a text, the cases of a
`switch`, the arguments of a macro.
-/

namespace Bic.LangGen.Spec

/-- tokens of C: words (identifiers, keywords, numbers), string literals (the text between the quotes), other characters -/
inductive CTok where
  | word (w : List Char)
  | str (s : List Char)
  | punct (c : Char)
  /-- an unfinished string or comment -/
  | bad
deriving DecidableEq, Repr

/-- where the reader is: between tokens, in a word, in a string, behind a backslash in a string, behind `/`, in a comment, behind `*` in a
comment, in a line that starts with `#` -/
inductive CSt where
  | start | word (w : List Char) | str (s : List Char) | esc (s : List Char) | slash | comment | star | directive
deriving DecidableEq, Repr

def isWordChar (c : Char) : Bool :=
  ('a' ≤ c && c ≤ 'z') || ('A' ≤ c && c ≤ 'Z') || c == '_' || ('0' ≤ c && c ≤ '9')

def isBlank (c : Char) : Bool := c == ' ' || c == '\n' || c == '\t'

/-- a character between two tokens -/
def first (c : Char) : CSt × List CTok :=
  if isWordChar c then (.word [c], [])
  else if isBlank c then (.start, [])
  else if c = '"' then (.str [], [])
  else if c = '/' then (.slash, [])
  else if c = '#' then (.directive, [])
  else (.start, [.punct c])

/-- one character: the new state and the tokens it ends -/
def step : CSt → Char → CSt × List CTok
  | .start, c => first c
  | .word w, c => if isWordChar c then (.word (w ++ [c]), []) else ((first c).1, .word w :: (first c).2)
  | .str s, c =>
    if c = '"' then (.start, [.str s])
    else if c = '\\' then (.esc s, [])
    else if c = '\n' then (.start, [.bad])
    else (.str (s ++ [c]), [])
  | .esc s, c => if c = '\n' then (.start, [.bad]) else (.str (s ++ ['\\', c]), [])
  | .slash, c => if c = '*' then (.comment, []) else ((first c).1, .punct '/' :: (first c).2)
  | .comment, c => (if c = '*' then .star else .comment, [])
  | .star, c => (if c = '/' then .start else if c = '*' then .star else .comment, [])
  | .directive, c => (if c = '\n' then .start else .directive, [])

/-- what the end of the text ends -/
def flush : CSt → List CTok
  | .word w => [.word w]
  | .slash => [.punct '/']
  | .start | .directive => []
  | _ => [.bad]

def toksFrom : CSt → List Char → List CTok
  | st, [] => flush st
  | st, c :: cs => (step st c).2 ++ toksFrom (step st c).1 cs

/-- the tokens of a text -/
def ctoks (text : List Char) : List CTok := toksFrom .start text

/-! ## `switch` -/

/-- behind `switch (ctype) {` -/
def switchBody : List CTok → Option (List CTok)
  | [] => none
  | t :: ts =>
    match t :: ts with
    | .word w :: .punct '(' :: .word v :: .punct ')' :: .punct '{' :: ts' =>
      if w = "switch".toList ∧ v = "ctype".toList then some ts' else switchBody ts
    | _ => switchBody ts

/-- the cases `case x: return &y;` up to `default` -/
def cases : List CTok → Option (List (List Char × List Char))
  | .word a :: .word x :: .punct ':' :: .word b :: .punct '&' :: .word y :: .punct ';' :: ts =>
    if a = "case".toList ∧ b = "return".toList then (cases ts).map ((x, y) :: ·) else none
  | .word a :: .punct ':' :: _ => if a = "default".toList then some [] else none
  | _ => none

/-- what the function `get_ffi_type` written in `text` returns for the type `x`: the address of which object -/
def selected (text : List Char) (x : String) : Option (List Char) :=
  ((switchBody (ctoks text)).bind cases).bind fun l => l.lookup x.toList

/-! ## Macro arguments -/

inductive MSt where
  /-- between two invocations -/
  | out
  /-- behind the name of the macro -/
  | name
  /-- in the arguments: the number of open parentheses, the argument so far, those before it -/
  | args (depth : Nat) (cur : List CTok) (done : List (List CTok))

/-- the arguments of the invocations of `DEFCTYPE` in a text that consists of those, one list for each: arguments are separated by commas
that are not in parentheses -/
def invocations : MSt → List CTok → Option (List (List (List CTok)))
  | .out, [] => some []
  | .out, t :: ts => if t = .word "DEFCTYPE".toList then invocations .name ts else none
  | .name, t :: ts => if t = .punct '(' then invocations (.args 0 [] []) ts else none
  | .name, [] => none
  | .args _ _ _, [] => none
  | .args d cur done, t :: ts =>
    if t = .bad then none
    else if t = .punct '(' then invocations (.args (d + 1) (cur ++ [t]) done) ts
    else if t = .punct ')' then
      match d with
      | 0 => (invocations .out ts).map ((done ++ [cur]) :: ·)
      | d + 1 => invocations (.args d (cur ++ [t]) done) ts
    else if t = .punct ',' ∧ d = 0 then invocations (.args 0 [] (done ++ [cur])) ts
    else invocations (.args d (cur ++ [t]) done) ts

/-! ## What the description says -/

/-- a C type of a description -/
structure CDecl where
  name : String
  friendly : String
  ctype : String
  format : String
  member : String
  ffi : String
deriving DecidableEq, Repr

/-- the C types a description declares, in order -/
def ctypes (d : List Form) : List CDecl :=
  d.filterMap fun f => match f with
    | .ctype n fr c fmt mem ffi _ => some ⟨n, fr, c, fmt, mem, ffi⟩
    | _ => none

/-- the arguments its line should have: the name, the friendly name as a string, and the tokens of the rest -/
def CDecl.row (c : CDecl) : List (List CTok) :=
  [[.word c.name.toList], [.str c.friendly.toList], ctoks c.ctype.toList, ctoks c.format.toList, ctoks c.member.toList]

/-! ## libffi on x86-64 Linux -/

inductive FKind where
  | signed | unsigned | float | pointer
deriving DecidableEq, Repr

/-- size and kind of the types libffi declares (ffi.h, types.c) -/
def ffiInfo (x : List Char) : Option (Nat × FKind) :=
  [("ffi_type_uchar", 1, FKind.unsigned), ("ffi_type_schar", 1, .signed), ("ffi_type_ushort", 2, .unsigned), ("ffi_type_sshort", 2, .signed),
   ("ffi_type_uint", 4, .unsigned), ("ffi_type_sint", 4, .signed), ("ffi_type_ulong", 8, .unsigned), ("ffi_type_slong", 8, .signed),
   ("ffi_type_uint8", 1, .unsigned), ("ffi_type_sint8", 1, .signed), ("ffi_type_uint16", 2, .unsigned), ("ffi_type_sint16", 2, .signed),
   ("ffi_type_uint32", 4, .unsigned), ("ffi_type_sint32", 4, .signed), ("ffi_type_uint64", 8, .unsigned), ("ffi_type_sint64", 8, .signed),
   ("ffi_type_float", 4, .float), ("ffi_type_double", 8, .float), ("ffi_type_longdouble", 16, .float),
   ("ffi_type_pointer", 8, .pointer)].lookup (String.ofList x)

/-- the kinds of the C types -/
def kindOfCT : CT → FKind
  | .char | .short | .int | .long | .longlong => .signed
  | .uchar | .ushort | .uint | .ulong | .ulonglong => .unsigned
  | .float | .double | .longdouble => .float
  | .ptr => .pointer

/-- the names of the C types as tree types -/
def treeName : CT → String
  | .char => "D_T_CHAR" | .short => "D_T_SHORT" | .int => "D_T_INT" | .long => "D_T_LONG" | .longlong => "D_T_LONGLONG"
  | .uchar => "D_T_UCHAR" | .ushort => "D_T_USHORT" | .uint => "D_T_UINT" | .ulong => "D_T_ULONG" | .ulonglong => "D_T_ULONGLONG"
  | .float => "D_T_FLOAT" | .double => "D_T_DOUBLE" | .longdouble => "D_T_LONGDOUBLE" | .ptr => "D_T_PTR"

end Bic.LangGen.Spec
