import Verif.Spec.Bits
import Verif.Spec.CInt
/-!
# Integer expressions and their values (specification)

Written without reference to the evaluator.  `Val` is parametrised by the meaning
of the binary operators and of conditions so that the same rules can be read
with C's meaning (`CVal`) and with a restricted meaning.
-/

namespace Bic.Spec

/-- binary operators that evaluate both operands -/
inductive BOp where
  | add | sub | mul | div | mod | shl | shr | and | or | xor
  | lt | gt | le | ge | eq | ne
deriving DecidableEq, Repr

/-- expressions without side effects -/
inductive Expr where
  | lit (z : Int)
  | var (x : String)
  | bin (op : BOp) (a b : Expr)
  | compl (a : Expr)
  | lnot (a : Expr)
  | land (a b : Expr)
  | lor (a b : Expr)
  | cond (c a b : Expr)
  | comma (a b : Expr)
deriving DecidableEq, Repr

/-- `q` and `r` are quotient and remainder of C's truncating division -/
def TruncDiv (a b q r : Int) : Prop :=
  a = q * b + r ∧ r.natAbs < b.natAbs ∧ (0 ≤ a → 0 ≤ r) ∧ (a ≤ 0 → r ≤ 0)

/-- truth value as an integer -/
def isTruth (p : Prop) (v : Int) : Prop := (p ∧ v = 1) ∨ (¬ p ∧ v = 0)

/-- What C (on unbounded integers) says about `v = a op b`. -/
def cOp : BOp → Int → Int → Int → Prop
  | .add, a, b, v => v = a + b
  | .sub, a, b, v => v = a - b
  | .mul, a, b, v => v = a * b
  | .div, a, b, v => ∃ r, TruncDiv a b v r
  | .mod, a, b, v => ∃ q, TruncDiv a b q v
  | .shl, a, b, v => ∃ n : Nat, b = n ∧ v = a * 2 ^ n
  | .shr, a, b, v => ∃ n : Nat, b = n ∧ v * 2 ^ n ≤ a ∧ a < (v + 1) * 2 ^ n
  | .and, a, b, v => ∀ i, bit v i ↔ bit a i ∧ bit b i
  | .or, a, b, v => ∀ i, bit v i ↔ bit a i ∨ bit b i
  | .xor, a, b, v => ∀ i, bit v i ↔ ¬ (bit a i ↔ bit b i)
  | .lt, a, b, v => isTruth (a < b) v
  | .gt, a, b, v => isTruth (b < a) v
  | .le, a, b, v => isTruth (a ≤ b) v
  | .ge, a, b, v => isTruth (b ≤ a) v
  | .eq, a, b, v => isTruth (a = b) v
  | .ne, a, b, v => isTruth (a ≠ b) v

/-- in C a condition holds iff it is not zero -/
def cTruth (x : Int) (b : Bool) : Prop := b = true ↔ x ≠ 0

/-- `Val op truth ρ e v`: the expression `e` has the value `v` when its variables
have the values given by `ρ`.  Operands that C does not evaluate need not have a
value. -/
inductive Val (op : BOp → Int → Int → Int → Prop) (truth : Int → Bool → Prop)
    (ρ : String → Int → Prop) : Expr → Int → Prop
  | lit (z) : Val op truth ρ (.lit z) z
  | var {x v} : ρ x v → Val op truth ρ (.var x) v
  | bin {o a b x y v} : Val op truth ρ a x → Val op truth ρ b y → op o x y v →
      Val op truth ρ (.bin o a b) v
  | compl {a x v} : Val op truth ρ a x → (∀ i, bit v i ↔ ¬ bit x i) → Val op truth ρ (.compl a) v
  | lnot {a x v} : Val op truth ρ a x → isTruth (x = 0) v → Val op truth ρ (.lnot a) v
  | land_false {a b} : Val op truth ρ a 0 → Val op truth ρ (.land a b) 0
  | land_true {a b x y v} : Val op truth ρ a x → x ≠ 0 → Val op truth ρ b y → isTruth (y ≠ 0) v →
      Val op truth ρ (.land a b) v
  | lor_true {a b x} : Val op truth ρ a x → x ≠ 0 → Val op truth ρ (.lor a b) 1
  | lor_false {a b y v} : Val op truth ρ a 0 → Val op truth ρ b y → isTruth (y ≠ 0) v →
      Val op truth ρ (.lor a b) v
  | cond_true {c a b x v} : Val op truth ρ c x → truth x true → Val op truth ρ a v →
      Val op truth ρ (.cond c a b) v
  | cond_false {c a b x v} : Val op truth ρ c x → truth x false → Val op truth ρ b v →
      Val op truth ρ (.cond c a b) v
  | comma {a b x v} : Val op truth ρ a x → Val op truth ρ b v → Val op truth ρ (.comma a b) v

/-- the value of an expression according to C, on unbounded integers -/
abbrev CVal (ρ : String → Int → Prop) : Expr → Int → Prop := Val cOp cTruth ρ

/-- a weaker reading of operators and conditions gives more values -/
theorem Val.mono {op op' : BOp → Int → Int → Int → Prop} {tr tr' : Int → Bool → Prop}
    {ρ ρ' : String → Int → Prop} (ho : ∀ o a b v, op o a b v → op' o a b v)
    (ht : ∀ x b, tr x b → tr' x b) (hr : ∀ x v, ρ x v → ρ' x v) {e v}
    (h : Val op tr ρ e v) : Val op' tr' ρ' e v := by
  induction h with
  | lit z => exact .lit z
  | var h => exact .var (hr _ _ h)
  | bin _ _ h iha ihb => exact .bin iha ihb (ho _ _ _ _ h)
  | compl _ h ih => exact .compl ih h
  | lnot _ h ih => exact .lnot ih h
  | land_false _ ih => exact .land_false ih
  | land_true _ hx _ hv iha ihb => exact .land_true iha hx ihb hv
  | lor_true _ hx ih => exact .lor_true ih hx
  | lor_false _ _ hv iha ihb => exact .lor_false iha ihb hv
  | cond_true _ hx _ ihc iha => exact .cond_true ihc (ht _ _ hx) iha
  | cond_false _ hx _ ihc iha => exact .cond_false ihc (ht _ _ hx) iha
  | comma _ _ iha ihb => exact .comma iha ihb

/-- The operands on which bic's operators agree with C's.  Shift counts are
limited to machine words; `>>` and `/` are only right where rounding down and
rounding toward zero coincide. -/
def side : BOp → Int → Int → Prop
  | .shl, _, b => b < 2 ^ 64
  | .shr, a, b => b < 2 ^ 64 ∧ (0 ≤ a ∨ ∃ k, a = k * 2 ^ b.toNat)
  | .div, a, b => (∃ k, a = k * b) ∨ (0 ≤ a ∧ 0 < b) ∨ (a ≤ 0 ∧ b < 0)
  | _, _, _ => True

/-- C's meaning where bic implements it -/
def okOp (o : BOp) (a b v : Int) : Prop := cOp o a b v ∧ side o a b

/-- C's truth where bic's conditional operator implements it: positive multiples
of 2^63 are mistaken for 0 -/
def okTruth (x : Int) (b : Bool) : Prop := cTruth x b ∧ (0 < x → x % 2 ^ 63 ≠ 0)

theorem TruncDiv.ne_zero {a b q r : Int} (h : TruncDiv a b q r) : b ≠ 0 := by
  have := h.2.1; omega

/-- there is one quotient and one remainder -/
theorem TruncDiv.tdiv {a b q r : Int} (h : TruncDiv a b q r) : a.tdiv b = q ∧ a.tmod b = r := by
  have hb := h.ne_zero
  obtain ⟨h1, h2, h3, h4⟩ := h
  have h5 : r + b * q = a := by rw [Int.mul_comm]; omega
  rcases Int.le_total 0 a with h | h
  · exact (Int.tdiv_tmod_unique h hb).mpr ⟨h5, h3 h, by have := h3 h; omega⟩
  · exact (Int.tdiv_tmod_unique' h hb).mpr ⟨h5, by have := h4 h; omega, h4 h⟩

theorem truncDiv_tdiv (a : Int) {b : Int} (hb : b ≠ 0) : TruncDiv a b (a.tdiv b) (a.tmod b) := by
  rcases Int.le_total 0 a with h | h
  · obtain ⟨h1, h2, h3⟩ := (Int.tdiv_tmod_unique h hb).mp ⟨rfl, rfl⟩
    refine ⟨by rw [Int.mul_comm]; omega, by omega, fun _ => h2, fun h0 => ?_⟩
    have : a = 0 := by omega
    subst this; simp
  · obtain ⟨h1, h2, h3⟩ := (Int.tdiv_tmod_unique' h hb).mp ⟨rfl, rfl⟩
    refine ⟨by rw [Int.mul_comm]; omega, by omega, fun h0 => ?_, fun _ => h3⟩
    have : a = 0 := by omega
    subst this; simp

/-- Specifications are functional: an operator has at most one result. -/
theorem cOp_unique {o a b v w} (h : cOp o a b v) (h' : cOp o a b w) : v = w := by
  cases o <;> simp only [cOp, isTruth] at h h'
  case add | sub | mul => omega
  case div =>
    obtain ⟨r, h⟩ := h
    obtain ⟨r', h'⟩ := h'
    exact h.tdiv.1.symm.trans h'.tdiv.1
  case mod =>
    obtain ⟨q, h⟩ := h
    obtain ⟨q', h'⟩ := h'
    exact h.tdiv.2.symm.trans h'.tdiv.2
  case shl =>
    obtain ⟨n, rfl, rfl⟩ := h
    obtain ⟨m, hm, rfl⟩ := h'
    have : n = m := by omega
    subst this; rfl
  case shr =>
    obtain ⟨n, rfl, h1, h2⟩ := h
    obtain ⟨m, hm, h3, h4⟩ := h'
    have : n = m := by omega
    subst this
    have hp : (0 : Int) < 2 ^ n := Int.pow_pos (by decide)
    have h5 : v < w + 1 := Int.lt_of_mul_lt_mul_right (Int.lt_of_le_of_lt h1 h4) (by omega)
    have h6 : w < v + 1 := Int.lt_of_mul_lt_mul_right (Int.lt_of_le_of_lt h3 h2) (by omega)
    omega
  case and | or | xor => exact bit_ext fun i => (h i).trans (h' i).symm
  all_goals omega

theorem isTruth_unique {p : Prop} {v w : Int} (h : isTruth p v) (h' : isTruth p w) : v = w := by
  unfold isTruth at *; rcases h with ⟨h1, rfl⟩ | ⟨h1, rfl⟩ <;>
    rcases h' with ⟨h2, rfl⟩ | ⟨h2, rfl⟩ <;> first | rfl | contradiction

/-- C gives an expression at most one value. -/
theorem CVal.unique {ρ : String → Int → Prop} (hr : ∀ x v w, ρ x v → ρ x w → v = w) {e v w}
    (h : CVal ρ e v) (h' : CVal ρ e w) : v = w := by
  induction h generalizing w with
  | lit z => cases h'; rfl
  | var h => cases h' with | var h' => exact hr _ _ _ h h'
  | bin _ _ h iha ihb =>
    cases h' with
    | bin ha hb h' => cases iha ha; cases ihb hb; exact cOp_unique h h'
  | compl _ h ih =>
    cases h' with
    | compl ha h' => cases ih ha; exact bit_ext fun i => (h i).trans (h' i).symm
  | lnot _ h ih =>
    cases h' with
    | lnot ha h' => cases ih ha; exact isTruth_unique h h'
  | land_false _ ih =>
    cases h' with
    | land_false _ => rfl
    | land_true ha hx _ _ => exact absurd (ih ha).symm hx
  | land_true _ hx _ hv iha ihb =>
    cases h' with
    | land_false ha => exact absurd (iha ha) hx
    | land_true ha _ hb hv' => cases ihb hb; exact isTruth_unique hv hv'
  | lor_true _ hx ih =>
    cases h' with
    | lor_true _ _ => rfl
    | lor_false ha _ _ => exact absurd (ih ha) hx
  | lor_false _ _ hv iha ihb =>
    cases h' with
    | lor_true ha hx => exact absurd (iha ha).symm hx
    | lor_false _ hb hv' => cases ihb hb; exact isTruth_unique hv hv'
  | cond_true _ hx _ ihc iha =>
    cases h' with
    | cond_true _ _ ha => exact iha ha
    | cond_false hc hx' _ => cases ihc hc; simp [cTruth] at hx hx'; omega
  | cond_false _ hx _ ihc iha =>
    cases h' with
    | cond_true hc hx' _ => cases ihc hc; simp [cTruth] at hx hx'; omega
    | cond_false _ _ ha => exact iha ha
  | comma _ _ _ ihb => cases h' with | comma _ hb => exact ihb hb

end Bic.Spec
