import Verif.Spec.Expr
/-!
# Enumerations (specification)
-/

namespace Bic.Spec

/-- the names known after `x` got the value `v` -/
def hide (ρ : String → Int → Prop) (x : String) (v : Int) : String → Int → Prop :=
  fun y w => if y = x then w = v else ρ y w

/-- `Enumerate val ok ρ n es vs`: where names have the values given by `ρ` and the next
enumerator without value gets `n`, the enumerators `es` (names, perhaps with an
expression) get the values `vs`.  An expression may use the enumerators before it.
`ok` says which values an enumerator may have. -/
inductive Enumerate (val : (String → Int → Prop) → Expr → Int → Prop) (ok : Int → Prop) :
    (String → Int → Prop) → Int → List (String × Option Expr) → List (String × Int) → Prop
  | nil {ρ n} : Enumerate val ok ρ n [] []
  | next {ρ n x es vs} : ok n → Enumerate val ok (hide ρ x n) (n + 1) es vs →
      Enumerate val ok ρ n ((x, none) :: es) ((x, n) :: vs)
  | explicit {ρ n x e v es vs} : val ρ e v → ok v → Enumerate val ok (hide ρ x v) (v + 1) es vs →
      Enumerate val ok ρ n ((x, some e) :: es) ((x, v) :: vs)

end Bic.Spec
