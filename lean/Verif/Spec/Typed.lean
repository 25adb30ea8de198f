import Verif.Spec.Expr
/-!
# Integer expressions with their types (specification)

C's rules for the types of expressions (6.3.1.1, 6.3.1.8, 6.5) on an LP64 machine: the integer promotions, the usual arithmetic conversions,
arithmetic modulo `2^width` for unsigned types, no value where the result of a signed operation is out of range.
-/

namespace Bic.Spec

/-- the integer promotions (6.3.1.1p2) -/
def promote : CT → CT
  | .char | .uchar | .short | .ushort | .int => .int
  | c => c

/-- conversion rank of the promoted types (6.3.1.1p1) -/
def rank : CT → Nat
  | .int | .uint => 1
  | .long | .ulong => 2
  | .longlong | .ulonglong => 3
  | _ => 0

/-- the unsigned type of the same rank -/
def unsignedOf : CT → CT
  | .int => .uint
  | .long => .ulong
  | .longlong => .ulonglong
  | c => c

/-- the type both operands are converted to, for two promoted types (6.3.1.8p1) -/
def common' (c d : CT) : CT :=
  if signed c ↔ signed d then (if rank c < rank d then d else c)
  else
    let u := if signed c then d else c
    let g := if signed c then c else d
    if rank g ≤ rank u then u else if width u < width g then g else unsignedOf g

/-- the usual arithmetic conversions -/
def common (c d : CT) : CT := common' (promote c) (promote d)

/-- how the operands of an operator are treated: both converted to their common type, which is also the type of the result; each promoted, the
type of the left one being that of the result; both converted, and an `int` as result -/
inductive OpKind where
  | arith | shift | compare
deriving DecidableEq

def opKind : BOp → OpKind
  | .add | .sub | .mul | .div | .mod | .and | .or | .xor => .arith
  | .shl | .shr => .shift
  | .lt | .gt | .le | .ge | .eq | .ne => .compare

/-- the type of a decimal constant (6.4.4.1p5) -/
def LitType (z : Int) (c : CT) : Prop := (c = .int ∧ InRange .int z) ∨ (c = .long ∧ ¬ InRange .int z ∧ InRange .long z)

/-- `v` is the value of type `c` an operation has whose mathematical result is `z`: out of range is undefined for signed types -/
def TResult (cv : CT → Int → Int → Prop) (c : CT) (z v : Int) : Prop := if signed c then v = z ∧ InRange c z else cv c z v

/-- the expression `e` has the type `c`; `ρ x c v`: the variable `x` has the type `c` and the value `v` -/
inductive ExprType (ρ : String → CT → Int → Prop) : Expr → CT → Prop
  | lit {z c} : LitType z c → ExprType ρ (.lit z) c
  | var {x c v} : ρ x c v → ExprType ρ (.var x) c
  | arith {o a b c d} : opKind o = .arith → ExprType ρ a c → ExprType ρ b d → ExprType ρ (.bin o a b) (common c d)
  | shift {o a b c d} : opKind o = .shift → ExprType ρ a c → ExprType ρ b d → ExprType ρ (.bin o a b) (promote c)
  | compare {o a b c d} : opKind o = .compare → ExprType ρ a c → ExprType ρ b d → ExprType ρ (.bin o a b) .int
  | compl {a c} : ExprType ρ a c → ExprType ρ (.compl a) (promote c)
  | lnot {a c} : ExprType ρ a c → ExprType ρ (.lnot a) .int
  | land {a b c d} : ExprType ρ a c → ExprType ρ b d → ExprType ρ (.land a b) .int
  | lor {a b c d} : ExprType ρ a c → ExprType ρ b d → ExprType ρ (.lor a b) .int
  | cond {a b e c d k} : ExprType ρ e k → ExprType ρ a c → ExprType ρ b d → ExprType ρ (.cond e a b) (common c d)
  | comma {a b c d} : ExprType ρ a c → ExprType ρ b d → ExprType ρ (.comma a b) d

/-- `TVal ok cv truth ρ e c v`: the expression `e` has the type `c` and the value `v`. Like `Val`, with parameters for the operands allowed,
for conversions and for conditions, to be read with C's meaning (`CTVal`) and with restricted ones. -/
inductive TVal (ok : BOp → Int → Int → Prop) (cv : CT → Int → Int → Prop) (truth : Int → Bool → Prop) (ρ : String → CT → Int → Prop) :
    Expr → CT → Int → Prop
  | lit {z c} : LitType z c → TVal ok cv truth ρ (.lit z) c z
  | var {x c v} : ρ x c v → TVal ok cv truth ρ (.var x) c v
  | arith {o a b c d x y x' y' z v} : opKind o = .arith → TVal ok cv truth ρ a c x → TVal ok cv truth ρ b d y → cv (common c d) x x' →
      cv (common c d) y y' → ok o x' y' → cOp o x' y' z → TResult cv (common c d) z v → TVal ok cv truth ρ (.bin o a b) (common c d) v
  | shift {o a b c d x y x' z v} : opKind o = .shift → TVal ok cv truth ρ a c x → TVal ok cv truth ρ b d y → cv (promote c) x x' →
      0 ≤ y → y < width (promote c) → (o = .shl → signed (promote c) → 0 ≤ x') → ok o x' y → cOp o x' y z → TResult cv (promote c) z v →
      TVal ok cv truth ρ (.bin o a b) (promote c) v
  | compare {o a b c d x y x' y' v} : opKind o = .compare → TVal ok cv truth ρ a c x → TVal ok cv truth ρ b d y → cv (common c d) x x' →
      cv (common c d) y y' → cOp o x' y' v → TVal ok cv truth ρ (.bin o a b) .int v
  | compl {a c x x' z v} : TVal ok cv truth ρ a c x → cv (promote c) x x' → (∀ i, bit z i ↔ ¬ bit x' i) → TResult cv (promote c) z v →
      TVal ok cv truth ρ (.compl a) (promote c) v
  | lnot {a c x v} : TVal ok cv truth ρ a c x → isTruth (x = 0) v → TVal ok cv truth ρ (.lnot a) .int v
  | land_false {a b c d} : TVal ok cv truth ρ a c 0 → ExprType ρ b d → TVal ok cv truth ρ (.land a b) .int 0
  | land_true {a b c d x y v} : TVal ok cv truth ρ a c x → x ≠ 0 → TVal ok cv truth ρ b d y → isTruth (y ≠ 0) v →
      TVal ok cv truth ρ (.land a b) .int v
  | lor_true {a b c d x} : TVal ok cv truth ρ a c x → x ≠ 0 → ExprType ρ b d → TVal ok cv truth ρ (.lor a b) .int 1
  | lor_false {a b c d y v} : TVal ok cv truth ρ a c 0 → TVal ok cv truth ρ b d y → isTruth (y ≠ 0) v → TVal ok cv truth ρ (.lor a b) .int v
  | cond_true {e a b k c d x y v} : TVal ok cv truth ρ e k x → truth x true → TVal ok cv truth ρ a c y → ExprType ρ b d → cv (common c d) y v →
      TVal ok cv truth ρ (.cond e a b) (common c d) v
  | cond_false {e a b k c d x y v} : TVal ok cv truth ρ e k x → truth x false → ExprType ρ a c → TVal ok cv truth ρ b d y → cv (common c d) y v →
      TVal ok cv truth ρ (.cond e a b) (common c d) v
  | comma {a b c d x v} : TVal ok cv truth ρ a c x → TVal ok cv truth ρ b d v → TVal ok cv truth ρ (.comma a b) d v

/-- the type and the value of an expression according to C -/
abbrev CTVal (ρ : String → CT → Int → Prop) : Expr → CT → Int → Prop := TVal (fun _ _ _ => True) Converts cTruth ρ

/-! ## The rules give one type and at most one value -/

theorem LitType.unique {z : Int} {c d : CT} (h : LitType z c) (h' : LitType z d) : c = d := by
  rcases h with ⟨rfl, h⟩ | ⟨rfl, h, _⟩ <;> rcases h' with ⟨rfl, h'⟩ | ⟨rfl, h', _⟩ <;> first | rfl | contradiction

theorem ExprType.unique {ρ : String → CT → Int → Prop} (hρ : ∀ x c d v w, ρ x c v → ρ x d w → c = d ∧ v = w) {e : Expr} {c d : CT}
    (h : ExprType ρ e c) (h' : ExprType ρ e d) : c = d := by
  induction h generalizing d with
  | lit h => cases h' with | lit h' => exact h.unique h'
  | var h => cases h' with | var h' => exact (hρ _ _ _ _ _ h h').1
  | arith ho _ _ h1 h2 =>
    cases h' with
    | arith _ a b => rw [h1 a, h2 b]
    | shift ho' => rw [ho] at ho'; cases ho'
    | compare ho' => rw [ho] at ho'; cases ho'
  | shift ho _ _ h1 h2 =>
    cases h' with
    | arith ho' => rw [ho] at ho'; cases ho'
    | shift _ a b => rw [h1 a]
    | compare ho' => rw [ho] at ho'; cases ho'
  | compare ho _ _ h1 h2 =>
    cases h' with
    | arith ho' => rw [ho] at ho'; cases ho'
    | shift ho' => rw [ho] at ho'; cases ho'
    | compare => rfl
  | compl _ h1 => cases h' with | compl a => rw [h1 a]
  | lnot => cases h'; rfl
  | land => cases h'; rfl
  | lor => cases h'; rfl
  | cond _ _ _ _ h1 h2 => cases h' with | cond _ a b => rw [h1 a, h2 b]
  | comma _ _ _ h => cases h' with | comma _ b => exact h b

/-- an expression with a value has its type -/
theorem TVal.type {ok : BOp → Int → Int → Prop} {cv : CT → Int → Int → Prop} {truth : Int → Bool → Prop} {ρ : String → CT → Int → Prop}
    {e : Expr} {c : CT} {v : Int} (h : TVal ok cv truth ρ e c v) : ExprType ρ e c := by
  induction h with
  | lit h => exact .lit h
  | var h => exact .var h
  | arith ho _ _ _ _ _ _ _ h1 h2 => exact .arith ho h1 h2
  | shift ho _ _ _ _ _ _ _ _ _ h1 h2 => exact .shift ho h1 h2
  | compare ho _ _ _ _ _ h1 h2 => exact .compare ho h1 h2
  | compl _ _ _ _ h => exact .compl h
  | lnot _ _ h => exact .lnot h
  | land_false _ hb h => exact .land h hb
  | land_true _ _ _ _ h1 h2 => exact .land h1 h2
  | lor_true _ _ hb h => exact .lor h hb
  | lor_false _ _ _ h1 h2 => exact .lor h1 h2
  | cond_true _ _ _ hb _ h0 h1 => exact .cond h0 h1 hb
  | cond_false _ _ ha _ _ h0 h1 => exact .cond h0 ha h1
  | comma _ _ h1 h2 => exact .comma h1 h2

theorem promote_integral {c : CT} (h : integral c) : integral (promote c) := by revert h; cases c <;> decide

theorem integral_common {c d : CT} (hc : integral c) (hd : integral d) : integral (common c d) := by
  revert hc hd; cases c <;> cases d <;> decide

theorem ExprType.integral {ρ : String → CT → Int → Prop} (hρ : ∀ x c v, ρ x c v → integral c) {e : Expr} {c : CT} (h : ExprType ρ e c) :
    Spec.integral c := by
  induction h with
  | lit h => rcases h with ⟨rfl, _⟩ | ⟨rfl, _⟩ <;> trivial
  | var h => exact hρ _ _ _ h
  | arith _ _ _ h1 h2 => exact integral_common h1 h2
  | shift _ _ _ h1 => exact promote_integral h1
  | compare => trivial
  | compl _ h1 => exact promote_integral h1
  | lnot => trivial
  | land => trivial
  | lor => trivial
  | cond _ _ _ _ h1 h2 => exact integral_common h1 h2
  | comma _ _ _ h => exact h

theorem TResult.unique {c : CT} (hc : integral c) {z v w : Int} (h : TResult Converts c z v) (h' : TResult Converts c z w) : v = w := by
  unfold TResult at h h'
  split at h
  · next hs => rw [if_pos hs] at h'; rw [h.1, h'.1]
  · next hs => rw [if_neg hs] at h'; exact h.unique (.inl hc) h'

/-- The typed value of an expression is unique, where the types and values of the variables are: the rules contradict themselves nowhere. -/
theorem CTVal.unique {ρ : String → CT → Int → Prop} (hi : ∀ x c v, ρ x c v → integral c) (hρ : ∀ x c d v w, ρ x c v → ρ x d w → c = d ∧ v = w)
    {e : Expr} {c d : CT} {v w : Int} (h : CTVal ρ e c v) (h' : CTVal ρ e d w) : v = w := by
  have ti : ∀ {e c v}, CTVal ρ e c v → integral c := fun h => ExprType.integral hi h.type
  have tu : ∀ {e c d v w}, CTVal ρ e c v → CTVal ρ e d w → c = d := fun h h' => ExprType.unique hρ h.type h'.type
  induction h generalizing d w with
  | lit h => cases h'; rfl
  | var h => cases h' with | var h' => exact (hρ _ _ _ _ _ h h').2
  | arith ho ha hb hx hy _ hz hv iha ihb =>
    have hk := integral_common (ti ha) (ti hb)
    cases h' with
    | arith _ a b hx' hy' _ hz' hv' =>
      cases iha a; cases ihb b; cases tu ha a; cases tu hb b
      cases hx.unique (.inl hk) hx'; cases hy.unique (.inl hk) hy'; cases cOp_unique hz hz'
      exact TResult.unique hk hv hv'
    | shift ho' => rw [ho] at ho'; cases ho'
    | compare ho' => rw [ho] at ho'; cases ho'
  | shift ho ha hb hx _ _ _ _ hz hv iha ihb =>
    have hk := promote_integral (ti ha)
    cases h' with
    | arith ho' => rw [ho] at ho'; cases ho'
    | shift _ a b hx' _ _ _ _ hz' hv' =>
      cases iha a; cases ihb b; cases tu ha a; cases tu hb b
      cases hx.unique (.inl hk) hx'; cases cOp_unique hz hz'
      exact TResult.unique hk hv hv'
    | compare ho' => rw [ho] at ho'; cases ho'
  | compare ho ha hb hx hy hz iha ihb =>
    have hk := integral_common (ti ha) (ti hb)
    cases h' with
    | arith ho' => rw [ho] at ho'; cases ho'
    | shift ho' => rw [ho] at ho'; cases ho'
    | compare _ a b hx' hy' hz' =>
      cases iha a; cases ihb b; cases tu ha a; cases tu hb b
      cases hx.unique (.inl hk) hx'; cases hy.unique (.inl hk) hy'
      exact cOp_unique hz hz'
  | compl ha hx hz hv ih =>
    have hk := promote_integral (ti ha)
    cases h' with
    | compl a hx' hz' hv' =>
      cases ih a; cases tu ha a; cases hx.unique (.inl hk) hx'
      cases bit_ext fun i => (hz i).trans (hz' i).symm
      exact TResult.unique hk hv hv'
  | lnot _ h ih => cases h' with | lnot a h' => cases ih a; exact isTruth_unique h h'
  | land_false _ _ ih =>
    cases h' with
    | land_false => rfl
    | land_true a hx => exact absurd (ih a).symm hx
  | land_true _ hx _ hv iha ihb =>
    cases h' with
    | land_false a => exact absurd (iha a) hx
    | land_true _ _ b hv' => cases ihb b; exact isTruth_unique hv hv'
  | lor_true _ hx _ ih =>
    cases h' with
    | lor_true => rfl
    | lor_false a => exact absurd (ih a) hx
  | lor_false _ _ hv iha ihb =>
    cases h' with
    | lor_true a hx => exact absurd (iha a).symm hx
    | lor_false _ b hv' => cases ihb b; exact isTruth_unique hv hv'
  | cond_true he hx ha hb hv ihe iha =>
    have hk := integral_common (ti ha) (ExprType.integral hi hb)
    cases h' with
    | cond_true _ _ a b hv' =>
      cases iha a; cases tu ha a; cases ExprType.unique hρ hb b
      exact hv.unique (.inl hk) hv'
    | cond_false e' hx' => cases ihe e'; simp [cTruth] at hx hx'; exact absurd hx' hx
  | cond_false he hx ha hb hv ihe ihb =>
    have hk := integral_common (ExprType.integral hi ha) (ti hb)
    cases h' with
    | cond_true e' hx' => cases ihe e'; simp [cTruth] at hx hx'; exact absurd hx hx'
    | cond_false _ _ a b hv' =>
      cases ihb b; cases tu hb b; cases ExprType.unique hρ ha a
      exact hv.unique (.inl hk) hv'
  | comma _ _ _ ihb => cases h' with | comma _ b => exact ihb b

end Bic.Spec
