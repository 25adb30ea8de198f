import Verif.Spec.Declarator
/-!
# What a type name names

C99 6.7.6: an abstract declarator is a declarator without the name.  It turns the type of the specifiers into the type the type name
stands for.  Only the tokens and the shape of trees are taken from the model.
-/

namespace Bic.CSyn
open Parser (T K PT)

section
variable (E : List T → PT → List T → Prop) (Q : List T → List T → Prop)

/-- what may stand behind `[` in an abstract declarator, the `]` included; `E` are the assignment expressions -/
inductive ABrk : List T → (CTy → CTy) → List T → Prop
  | none {r} : ABrk (.p .rbrack :: r) (.arr none) r
  | star {r} : ABrk (.p .star :: .p .rbrack :: r) (.arr none) r
  | size {i e r} : E i e (.p .rbrack :: r) → ABrk i (.arr (some e)) r

/-- `Abs d f i r`: the tokens of `i` before `r` are an abstract declarator (a direct one if `d`) that makes the type `f t` of `t`.
`B` are the brackets, `F` what may stand behind `(` of a function, the `)` included, and `Q` the lists of qualifiers -/
inductive Abs (B : List T → (CTy → CTy) → List T → Prop) (F : List T → PT → List T → Prop) :
    Bool → (CTy → CTy) → List T → List T → Prop
  | paren {f i r} : Abs B F false f i (.p .rparen :: r) → Abs B F true f (.p .lparen :: i) r
  | array0 {g j r} : B j g r → Abs B F true g (.p .lbrack :: j) r
  | array {f g i j r} : Abs B F true f i (.p .lbrack :: j) → B j g r → Abs B F true (fun t => f (g t)) i r
  | func0 {a j r} : F j a r → Abs B F true (.fn a) (.p .lparen :: j) r
  | func {f a i j r} : Abs B F true f i (.p .lparen :: j) → F j a r → Abs B F true (fun t => f (.fn a t)) i r
  | direct {f i r} : Abs B F true f i r → Abs B F false f i r
  | star {r} : Abs B F false .ptr (.p .star :: r) r
  | starQ {i r} : Q i r → Abs B F false .ptr (.p .star :: i) r
  | ptr {f i r} : Abs B F false f i r → Abs B F false (fun t => f (.ptr t)) (.p .star :: i) r
  | ptrQ {f i j r} : Q i j → Abs B F false f j r → Abs B F false (fun t => f (.ptr t)) (.p .star :: i) r

end

/-- what the tree of an abstract declarator says, read from the outside in -/
def readA : PT → CTy → Option CTy
  | .null, t => some t
  | .pointer _ e, t => readA e (.ptr t)
  | .array d _ .null, t => readA d (.arr none t)
  | .array d _ e, t => readA d (.arr (some e) t)
  | .fn d a _, t => readA d (.fn a t)
  | _, _ => none

end Bic.CSyn
