import Verif.Spec.Literal
import Verif.Model.Parser
/-!
# How C spells its tokens (C11 6.4)

Independent of the lexer.  `Spells` says which bytes spell a token, `Extends` which byte may not follow
the spelling because a longer token would be read, and `Text` which bytes are a text of given tokens.
Only the type of tokens is the parser's.
-/

namespace Bic.CText
open Parser (T K)
open Spec (Piece Literal)

abbrev Str := List UInt8

def ascii (s : String) : Str := s.toList.map fun c => UInt8.ofNat c.toNat

def isLetter (c : UInt8) : Bool := (97 ≤ c && c ≤ 122) || (65 ≤ c && c ≤ 90) || c == 95
def isDigit (c : UInt8) : Bool := 48 ≤ c && c ≤ 57
/-- what an identifier consists of -/
def isWord (c : UInt8) : Bool := isLetter c || isDigit c
/-- space, horizontal tab, new line, vertical tab, form feed, carriage return -/
def isSpace (c : UInt8) : Bool := c == 32 || c == 9 || c == 10 || c == 11 || c == 12 || c == 13

/-- the keywords (6.4.1) -/
def keywords : List String :=
  ["auto", "break", "case", "char", "const", "continue", "default", "do", "double", "else", "enum", "extern", "float", "for", "goto",
   "if", "inline", "int", "long", "register", "restrict", "return", "short", "signed", "sizeof", "static", "struct", "switch",
   "typedef", "union", "unsigned", "void", "volatile", "while", "_Alignas", "_Alignof", "_Atomic", "_Bool", "_Complex", "_Generic",
   "_Imaginary", "_Noreturn", "_Static_assert", "_Thread_local"]

/-- the punctuators (6.4.6) -/
def punctuators : List String :=
  ["[", "]", "(", ")", "{", "}", ".", "->", "++", "--", "&", "*", "+", "-", "~", "!", "/", "%", "<<", ">>", "<", ">", "<=", ">=", "==",
   "!=", "^", "|", "&&", "||", "?", ":", ";", "...", "=", "*=", "/=", "%=", "+=", "-=", "<<=", ">>=", "&=", "^=", "|=", ",", "#", "##",
   "<:", ":>", "<%", "%>", "%:", "%:%:"]

/-- keywords and punctuators; `repl` is no token of C -/
def spell : K → Option String
  | .lparen => some "(" | .rparen => some ")" | .lbrack => some "[" | .rbrack => some "]" | .lbrace => some "{" | .rbrace => some "}"
  | .dot => some "." | .arrow => some "->" | .incr => some "++" | .decr => some "--" | .bang => some "!" | .amp => some "&"
  | .star => some "*" | .tilde => some "~" | .slash => some "/" | .percent => some "%" | .plus => some "+" | .minus => some "-"
  | .shl => some "<<" | .shr => some ">>" | .lt => some "<" | .gt => some ">" | .le => some "<=" | .ge => some ">="
  | .eqeq => some "==" | .ne => some "!=" | .caret => some "^" | .bar => some "|" | .andand => some "&&" | .oror => some "||"
  | .question => some "?" | .colon => some ":" | .assign => some "=" | .addA => some "+=" | .subA => some "-=" | .divA => some "/="
  | .shlA => some "<<=" | .shrA => some ">>=" | .xorA => some "^=" | .comma => some "," | .semi => some ";" | .ellipsis => some "..."
  | .sizeof => some "sizeof" | .typedef => some "typedef" | .extern => some "extern" | .static => some "static"
  | .auto => some "auto" | .register => some "register" | .void => some "void" | .char => some "char" | .short => some "short"
  | .int => some "int" | .long => some "long" | .float => some "float" | .double => some "double" | .signed => some "signed"
  | .unsigned => some "unsigned" | .bool => some "_Bool" | .struct => some "struct" | .union => some "union" | .enum => some "enum"
  | .const => some "const" | .restrict => some "restrict" | .volatile => some "volatile" | .inline => some "inline"
  | .if_ => some "if" | .else_ => some "else" | .while_ => some "while" | .for_ => some "for" | .return_ => some "return"
  | .break_ => some "break" | .case => some "case" | .continue => some "continue" | .default => some "default" | .do_ => some "do"
  | .goto => some "goto" | .switch => some "switch" | .repl => none

/-- an identifier a program may use: no keyword, and not reserved (7.1.3: two underscores or an
underscore and a capital letter) -/
structure IsName (x : Str) : Prop where
  shape : ∃ c u, x = c :: u ∧ isLetter c = true ∧ ∀ d ∈ u, isWord d = true
  free : x ∉ keywords.map ascii
  unreserved : ∀ u, x ≠ 95 :: 95 :: u
  unreserved' : ∀ c u, x = 95 :: c :: u → ¬ (65 ≤ c ∧ c ≤ 90)

def Digits (ds : Str) : Prop := ds ≠ [] ∧ ∀ c ∈ ds, isDigit c = true

def decVal (ds : Str) : Nat := ds.foldl (fun n c => 10 * n + (c.toNat - 48)) 0

/-- `u`, `l` and `ll` in any case and order (6.4.4.1) -/
def suffixes : List String :=
  ["", "u", "U", "l", "L", "ll", "LL", "ul", "uL", "Ul", "UL", "ull", "uLL", "Ull", "ULL", "lu", "lU", "Lu", "LU", "llu", "llU", "LLu", "LLU"]

/-- integer constants (6.4.4.1) with their value; the 0 is octal -/
inductive IntConst : Str → Nat → Prop
  | dec {ds x} : Digits ds → ds.head? ≠ some 48 → x ∈ suffixes → IntConst (ds ++ ascii x) (decVal ds)
  | oct {ds x} : (∀ c ∈ ds, Spec.isOctDigit c = true) → x ∈ suffixes → IntConst (48 :: ds ++ ascii x) (Spec.octVal ds)
  | hex {p ds x} : p = 120 ∨ p = 88 → ds ≠ [] → (∀ c ∈ ds, Spec.isHexDigit c = true) → x ∈ suffixes →
      IntConst (48 :: p :: ds ++ ascii x) (Spec.hexVal ds)

/-- the spellings of a token; `ty` says which names are those of types.  Of the floating constants
only those with digits on both sides of the point, without exponent and suffix. -/
inductive Spells (ty : Str → Bool) : T → Str → Prop
  | word {k s} : spell k = some s → Spells ty (.p k) (ascii s)
  | ident {x} : IsName x → ty x = false → Spells ty (.ident x) x
  | typeName {x} : IsName x → ty x = true → Spells ty (.typeName x) x
  | int {s n} : IntConst s n → Spells ty (.integer n) s
  | char {p : Piece} : p.Ok 39 → Spells ty (.integer (Int.bmod p.val.toNat 256)) ([39] ++ p.text ++ [39])
  | float {a b} : Digits a → Digits b → Spells ty (.floatCst (a ++ [46] ++ b)) (a ++ [46] ++ b)
  | string {ps} : Literal 34 ps → Spells ty (.string (Spec.vals ps)) ([34] ++ Spec.text ps ++ [34])

/-- the byte after a spelling would be read as a part of the token (6.4: the longest sequence is
the next token); `/` and `/` or `*` begin a comment, a point and a digit a number, and a prefix and a
quote a character or a string -/
def Extends (w : Str) (c : UInt8) : Prop :=
  match w.head? with
  | none => False
  | some d =>
    if isLetter d then isWord c = true ∨ (w ∈ ["L", "u", "U", "u8"].map ascii ∧ (c = 34 ∨ c = 39))
    else if isDigit d then isWord c = true ∨ c = 46 ∨ ((c = 43 ∨ c = 45) ∧ ∃ e ∈ [101, 69, 112, 80], w.getLast? = some e)
    else if d = 34 ∨ d = 39 then False
    else (∃ p ∈ punctuators, w ++ [c] <+: ascii p) ∨ (w = [46] ∧ isDigit c = true) ∨ (w = [47] ∧ (c = 47 ∨ c = 42))

instance (w : Str) (c : UInt8) : Decidable (Extends w c) := by
  unfold Extends
  cases w.head? with
  | none => exact inferInstanceAs (Decidable False)
  | some d => dsimp only; infer_instance

/-- `struct` or `union` -/
def isTag : T → Bool
  | .p .struct => true | .p .union => true | _ => false

/-- texts, for spellings `S` and an `X` saying which byte may not follow.  The name after `struct` or
`union` is a tag and not the name of a type. -/
inductive Text (S : T → Str → Prop) (X : T → Str → UInt8 → Prop) : List T → Str → Prop
  | nil : Text S X [] []
  | space {c ts s} : isSpace c = true → Text S X ts s → Text S X ts (c :: s)
  | tok {t w ts s} : isTag t = false → S t w → (∀ c, s.head? = some c → ¬ X t w c) → Text S X ts s →
      Text S X (t :: ts) (w ++ s)
  | tag {k w sp x ts s} : isTag (.p k) = true → spell k = some w → sp ≠ [] → (∀ c ∈ sp, isSpace c = true) → IsName x →
      (∀ c, s.head? = some c → ¬ Extends x c) → Text S X ts s →
      Text S X (.p k :: .ident x :: ts) (ascii w ++ sp ++ x ++ s)
  | anonymous {k w sp ts s} : isTag (.p k) = true → spell k = some w → (∀ c ∈ sp, isSpace c = true) → Text S X ts s →
      Text S X (.p k :: .p .lbrace :: ts) (ascii w ++ sp ++ [123] ++ s)

/-- the texts of C -/
def CText (ty : Str → Bool) : List T → Str → Prop := Text (Spells ty) fun _ => Extends

end Bic.CText
