import Verif.Model.Parser
/-!
# What a declarator declares

C11 6.7.6: a declarator turns the type of the specifiers into the type of the declared name.  Only
the tokens and the shape of trees are taken from the model.
-/

namespace Bic.CSyn
open Parser (T K PT)
open Lexer (Str)

/-- derived types; sizes and parameters are kept as trees -/
inductive CTy where
  | base
  | ptr (t : CTy)
  | arr (n : Option PT) (t : CTy)
  | fn (args : PT) (t : CTy)

section
variable (E : List T → PT → List T → Prop) (Q : List T → List T → Prop)

/-- what may stand behind `[`, the `]` included (6.7.6.2); `E` are the assignment expressions and `Q`
the lists of type qualifiers -/
inductive CBrk : List T → (CTy → CTy) → List T → Prop
  | none {r} : CBrk (.p .rbrack :: r) (.arr none) r
  | size {i e r} : E i e (.p .rbrack :: r) → CBrk i (.arr (some e)) r
  | q {i r} : Q i (.p .rbrack :: r) → CBrk i (.arr none) r
  | qSize {i j e r} : Q i j → E j e (.p .rbrack :: r) → CBrk i (.arr (some e)) r
  | static {i e r} : E i e (.p .rbrack :: r) → CBrk (.p .static :: i) (.arr (some e)) r
  | staticQ {i j e r} : Q i j → E j e (.p .rbrack :: r) → CBrk (.p .static :: i) (.arr (some e)) r
  | qStatic {i j e r} : Q i (.p .static :: j) → E j e (.p .rbrack :: r) → CBrk i (.arr (some e)) r
  | star {r} : CBrk (.p .star :: .p .rbrack :: r) (.arr none) r
  | qStar {i r} : Q i (.p .star :: .p .rbrack :: r) → CBrk i (.arr none) r

/-- the brackets of `CBrk` with a size and without `static` alone -/
inductive SBrk : List T → (CTy → CTy) → List T → Prop
  | size {i e r} : E i e (.p .rbrack :: r) → SBrk i (.arr (some e)) r
  | q {i r} : Q i (.p .rbrack :: r) → SBrk i (.arr none) r
  | qSize {i j e r} : Q i j → E j e (.p .rbrack :: r) → SBrk i (.arr (some e)) r
  | staticQ {i j e r} : Q i j → E j e (.p .rbrack :: r) → SBrk (.p .static :: i) (.arr (some e)) r
  | qStatic {i j e r} : Q i (.p .static :: j) → E j e (.p .rbrack :: r) → SBrk i (.arr (some e)) r
  | qStar {i r} : Q i (.p .star :: .p .rbrack :: r) → SBrk i (.arr none) r

/-- `Dec d x f i r`: the tokens of `i` before `r` are a declarator (a direct one if `d`) that declares
`x` with the type `f t` when the specifiers say `t`.  `B` are the brackets, `F` what may stand behind
`(` of a function, the `)` included -/
inductive Dec (B : List T → (CTy → CTy) → List T → Prop) (F : List T → PT → List T → Prop) :
    Bool → Str → (CTy → CTy) → List T → List T → Prop
  | name {x r} : Dec B F true x (fun t => t) (.ident x :: r) r
  | paren {x f i r} : Dec B F false x f i (.p .rparen :: r) → Dec B F true x f (.p .lparen :: i) r
  | array {x f g i j r} : Dec B F true x f i (.p .lbrack :: j) → B j g r → Dec B F true x (fun t => f (g t)) i r
  | func {x f a i j r} : Dec B F true x f i (.p .lparen :: j) → F j a r → Dec B F true x (fun t => f (.fn a t)) i r
  | direct {x f i r} : Dec B F true x f i r → Dec B F false x f i r
  | ptr {x f i r} : Dec B F false x f i r → Dec B F false x (fun t => f (.ptr t)) (.p .star :: i) r
  | ptrQ {x f i j r} : Q i j → Dec B F false x f j r → Dec B F false x (fun t => f (.ptr t)) (.p .star :: i) r

end

/-- what the tree of a declarator says, read from the outside to the name -/
def readD : PT → CTy → Option (Str × CTy)
  | .ident x, t => some (x, t)
  | .pointer _ e, t => readD e (.ptr t)
  | .array d _ .null, t => readD d (.arr none t)
  | .array d _ e, t => readD d (.arr (some e) t)
  | .fn d a _, t => readD d (.fn a t)
  | _, _ => none

end Bic.CSyn
