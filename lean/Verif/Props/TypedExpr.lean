import Verif.Spec.Typed
import Verif.Props.Expr
/-!
# C141: expressions with the types of C
-/

namespace Bic
open Spec

/-- the variable `x` is visible, has the integer type `c` and holds `v`, or the enumeration constant `x`, an `int`, is `v` -/
def VarT (s : St) (x : String) (c : CT) (v : Int) : Prop :=
  ∃ t, resolveGlobal x .normal s = some t ∧ ((c = .int ∧ s.nodes t = some (.integer v) ∧ InRange .int v) ∨ (integral c ∧ Holds s t c v))

/-- C141: an expression evaluates to the value C gives it, with the types C gives its parts. -/
def C141_statement : Prop :=
  ∀ (E : Env) (s : St) (e : Expr) (c : CT) (v : Int) (t : TId), WF s → CTVal (VarT s) e c v → ERep s.nodes t e → EvalsTo E s t v

theorem VarT.unique {s : St} (x : String) (c d : CT) (v w : Int) (h : VarT s x c v) (h' : VarT s x d w) : c = d ∧ v = w := by
  obtain ⟨t, h1, h2⟩ := h
  obtain ⟨t', h1', h2'⟩ := h'
  rw [h1] at h1'
  cases h1'
  rcases h2 with ⟨rfl, h2, _⟩ | ⟨_, h2⟩ <;> rcases h2' with ⟨rfl, h2', _⟩ | ⟨_, h2'⟩
  · rw [h2] at h2'
    cases h2'
    exact ⟨rfl, rfl⟩
  · obtain ⟨_, _, hl, _⟩ := h2'
    obtain ⟨_, _, hl⟩ := hl.lv
    rw [h2] at hl
    cases hl
  · obtain ⟨_, _, hl, _⟩ := h2
    obtain ⟨_, _, hl⟩ := hl.lv
    rw [h2'] at hl
    cases hl
  · exact h2.unique h2'

/-- C141, the rules: in every state they give an expression one type and one value at most. -/
theorem C141_one_value (s : St) (e : Expr) (c d : CT) (v w : Int) (h : CTVal (VarT s) e c v) (h' : CTVal (VarT s) e d w) : c = d ∧ v = w :=
  ⟨ExprType.unique VarT.unique h.type h'.type,
    CTVal.unique (fun _ _ _ ⟨_, _, h⟩ => h.elim (fun h => h.1 ▸ trivial) (·.1)) VarT.unique h h'⟩

/-- operands on which rounding down and rounding toward zero coincide -/
def roundsSame : BOp → Int → Int → Prop
  | .shr, a, b => 0 ≤ a ∨ ∃ k, a = k * 2 ^ b.toNat
  | .div, a, b => (∃ k, a = k * b) ∨ (0 ≤ a ∧ 0 < b) ∨ (a ≤ 0 ∧ b < 0)
  | _, _, _ => True

/-- a conversion that does not change the value -/
def KeptConv (c : CT) (v w : Int) : Prop := Converts c v w ∧ w = v

theorem Spec.TResult.kept {c : CT} {z v : Int} (h : TResult KeptConv c z v) : v = z := by
  unfold TResult at h
  split at h
  · exact h.1
  · exact h.2

theorem width_le (c : CT) : width c ≤ 64 := by cases c <;> decide

/-- where no conversion changes a value, the typed value is the mathematical one -/
theorem Spec.TVal.toVal {ρ : String → CT → Int → Prop} {ρ' : String → Int → Prop} (hρ : ∀ x c v, ρ x c v → ρ' x v) {e : Expr} {c : CT} {v : Int}
    (h : TVal roundsSame KeptConv okTruth ρ e c v) : Val okOp okTruth ρ' e v := by
  induction h with
  | lit _ => exact .lit _
  | var h => exact .var (hρ _ _ _ h)
  | @arith o a b c d x y x' y' z v ho _ _ hx hy hok hz hv iha ihb =>
    cases hx.2; cases hy.2; cases (Spec.TResult.kept hv)
    refine .bin iha ihb ⟨hz, ?_⟩
    cases o <;> simp [opKind] at ho <;> first | trivial | exact hok
  | @shift o a b c d x y x' z v ho _ _ hx h0 hy _ hok hz hv iha ihb =>
    cases hx.2; cases (Spec.TResult.kept hv)
    have hw := width_le (promote c)
    have hy : y < 2 ^ 64 := by omega
    refine .bin iha ihb ⟨hz, ?_⟩
    cases o <;> simp [opKind] at ho
    · exact hy
    · exact ⟨hy, hok⟩
  | @compare o a b c d x y x' y' v ho _ _ hx hy hz iha ihb =>
    cases hx.2; cases hy.2
    refine .bin iha ihb ⟨hz, ?_⟩
    cases o <;> simp [opKind] at ho <;> trivial
  | compl _ hx hz hv ih => cases hx.2; cases (Spec.TResult.kept hv); exact .compl ih hz
  | lnot _ h ih => exact .lnot ih h
  | land_false _ _ ih => exact .land_false ih
  | land_true _ hx _ hv iha ihb => exact .land_true iha hx ihb hv
  | lor_true _ hx _ ih => exact .lor_true ih hx
  | lor_false _ _ hv iha ihb => exact .lor_false iha ihb hv
  | cond_true _ hx _ _ hv ihc iha => cases hv.2; exact .cond_true ihc hx iha
  | cond_false _ hx _ _ hv ihc iha => cases hv.2; exact .cond_false ihc hx iha
  | comma _ _ iha ihb => exact .comma iha ihb

/-- the variable has the type `c` and a value below 2^63 -/
def LongVar (s : St) (x : String) (c : CT) (v : Int) : Prop := VarT s x c v ∧ InRange .long v

/-- C141 for all expressions, of signed and unsigned types, in whose evaluation no conversion and no unsigned operation changes a value modulo
`2^width` (`KeptConv`), with the restrictions of C01 on `/`, `>>` and `?:`. Missing is arithmetic that wraps around: bic computes with
unbounded integers. -/
theorem C141_kept_partial (E : Env) (s : St) (e : Expr) (c : CT) (v : Int) (t : TId) (w : WF s)
    (h : TVal roundsSame KeptConv okTruth (LongVar s) e c v) (ht : ERep s.nodes t e) : EvalsTo E s t v :=
  C01_expressions_partial E s e v t w
    (TVal.toVal (fun _ _ _ ⟨⟨t, h1, h2⟩, h3⟩ => ⟨t, h1, h2.elim (fun h => .inl h.2.1) fun h => .inr ⟨_, h.2, h3⟩⟩) h) ht

/-- an integer type whose values all are values of a signed type after promotion: every one but `unsigned int`, `unsigned long` and
`unsigned long long` -/
def SignedLike (c : CT) : Prop := integral c ∧ signed (promote c)

/-- the variable has the type `c`, which is not one of the three unsigned types that promotion leaves unsigned -/
def SignedVar (s : St) (x : String) (c : CT) (v : Int) : Prop := VarT s x c v ∧ SignedLike c

theorem promote_like {c : CT} (h : SignedLike c) : SignedLike (promote c) ∧ lo (promote c) ≤ lo c ∧ hi c ≤ hi (promote c) := by
  revert h; unfold SignedLike; cases c <;> decide

theorem common_like {c d : CT} (hc : SignedLike c) (hd : SignedLike d) :
    SignedLike (common c d) ∧ signed (common c d) ∧ (lo (common c d) ≤ lo c ∧ hi c ≤ hi (common c d)) ∧
      (lo (common c d) ≤ lo d ∧ hi d ≤ hi (common c d)) := by
  revert hc hd; unfold SignedLike; cases c <;> cases d <;> decide

theorem long_like {c : CT} (hc : SignedLike c) : lo .long ≤ lo c ∧ hi c ≤ hi .long := by
  revert hc; unfold SignedLike; cases c <;> decide

theorem wider {c k : CT} (h : lo k ≤ lo c ∧ hi c ≤ hi k) {x : Int} (hx : InRange c x) : InRange k x := by
  have h1 := hx.1
  have h2 := hx.2
  exact ⟨by omega, by omega⟩

theorem Spec.Converts.kept {k : CT} (hk : SignedLike k) {x x' : Int} (hx : InRange k x) (h : Converts k x x') : KeptConv k x x' :=
  ⟨h, h.unique (.inl hk.1) (.self hx)⟩

theorem Spec.TResult.signed {k : CT} (hk : Spec.signed k) {z v : Int} (h : TResult Converts k z v) : TResult KeptConv k z v ∧ InRange k v := by
  unfold TResult at h ⊢
  rw [if_pos hk] at h ⊢
  exact ⟨h, by rw [h.1]; exact h.2⟩

theorem lit_like {z : Int} {c : CT} (h : LitType z c) : SignedLike c ∧ InRange c z := by
  rcases h with ⟨rfl, h⟩ | ⟨rfl, _, h⟩
  · exact ⟨⟨trivial, trivial⟩, h⟩
  · exact ⟨⟨trivial, trivial⟩, h⟩

theorem int_like : SignedLike .int := ⟨trivial, trivial⟩

theorem truth_inRange {p : Prop} {v : Int} (h : isTruth p v) : InRange .int v := by
  rcases h with ⟨_, rfl⟩ | ⟨_, rfl⟩ <;> decide

theorem compare_inRange {o : BOp} {x y v : Int} (ho : opKind o = .compare) (h : cOp o x y v) : InRange .int v := by
  cases o <;> simp [opKind] at ho <;> exact truth_inRange h

theorem Spec.ExprType.like {ρ : String → CT → Int → Prop} (hρ : ∀ x c v, ρ x c v → SignedLike c) {e : Expr} {c : CT} (h : ExprType ρ e c) : SignedLike c := by
  induction h with
  | lit h => exact (lit_like h).1
  | var h => exact hρ _ _ _ h
  | arith _ _ _ h1 h2 => exact (common_like h1 h2).1
  | shift _ _ _ h1 _ => exact (promote_like h1).1
  | compare => exact int_like
  | compl _ h1 => exact (promote_like h1).1
  | lnot => exact int_like
  | land => exact int_like
  | lor => exact int_like
  | cond _ _ _ _ h1 h2 => exact (common_like h1 h2).1
  | comma _ _ _ h => exact h

theorem okTruth_of {x : Int} {b : Bool} (h : cTruth x b) (hx : InRange .long x) : okTruth x b := by
  refine ⟨h, fun h0 => ?_⟩
  have h2 : x < 2 ^ 63 := hx.2
  rw [Int.emod_eq_of_lt (by omega) h2]
  omega

/-- with signed types only, C gives a value only where none is changed by a conversion -/
theorem Spec.TVal.signed {ρ : String → CT → Int → Prop} (hρ : ∀ x c v, ρ x c v → SignedLike c ∧ InRange c v) {ok : BOp → Int → Int → Prop}
    {e : Expr} {c : CT} {v : Int} (h : TVal ok Converts cTruth ρ e c v) : SignedLike c ∧ InRange c v ∧ TVal ok KeptConv okTruth ρ e c v := by
  have hT : ∀ {e c}, ExprType ρ e c → SignedLike c := fun h => ExprType.like (fun x c v h => (hρ x c v h).1) h
  induction h with
  | lit h => exact ⟨(lit_like h).1, (lit_like h).2, .lit h⟩
  | var h => exact ⟨(hρ _ _ _ h).1, (hρ _ _ _ h).2, .var h⟩
  | arith ho _ _ hx hy hok hz hv iha ihb =>
    obtain ⟨h1, h2, h3, h4⟩ := common_like iha.1 ihb.1
    exact ⟨h1, (Spec.TResult.signed h2 hv).2, .arith ho iha.2.2 ihb.2.2 (hx.kept h1 (wider h3 iha.2.1)) (hy.kept h1 (wider h4 ihb.2.1)) hok hz (Spec.TResult.signed h2 hv).1⟩
  | shift ho _ _ hx h0 hy hs hok hz hv iha ihb =>
    obtain ⟨h1, h2⟩ := promote_like iha.1
    have hp := iha.1.2
    exact ⟨h1, (Spec.TResult.signed hp hv).2, .shift ho iha.2.2 ihb.2.2 (hx.kept h1 (wider h2 iha.2.1)) h0 hy hs hok hz (Spec.TResult.signed hp hv).1⟩
  | compare ho _ _ hx hy hz iha ihb =>
    obtain ⟨h1, h2, h3, h4⟩ := common_like iha.1 ihb.1
    exact ⟨int_like, compare_inRange ho hz,
      .compare ho iha.2.2 ihb.2.2 (hx.kept h1 (wider h3 iha.2.1)) (hy.kept h1 (wider h4 ihb.2.1)) hz⟩
  | compl _ hx hz hv ih =>
    obtain ⟨h1, h2⟩ := promote_like ih.1
    exact ⟨h1, (Spec.TResult.signed ih.1.2 hv).2, .compl ih.2.2 (hx.kept h1 (wider h2 ih.2.1)) hz (Spec.TResult.signed ih.1.2 hv).1⟩
  | lnot _ h ih => exact ⟨int_like, truth_inRange h, .lnot ih.2.2 h⟩
  | land_false _ hb ih => exact ⟨int_like, by decide, .land_false ih.2.2 hb⟩
  | land_true _ hx _ hv iha ihb => exact ⟨int_like, truth_inRange hv, .land_true iha.2.2 hx ihb.2.2 hv⟩
  | lor_true _ hx hb ih => exact ⟨int_like, by decide, .lor_true ih.2.2 hx hb⟩
  | lor_false _ _ hv iha ihb => exact ⟨int_like, truth_inRange hv, .lor_false iha.2.2 ihb.2.2 hv⟩
  | cond_true _ hx _ hb hv ihc iha =>
    obtain ⟨h1, h2, h3, h4⟩ := common_like iha.1 (hT hb)
    exact ⟨h1, hv.1, .cond_true ihc.2.2 (okTruth_of hx (wider (long_like ihc.1) ihc.2.1)) iha.2.2 hb (hv.kept h1 (wider h3 iha.2.1))⟩
  | cond_false _ hx ha _ hv ihc iha =>
    obtain ⟨h1, h2, h3, h4⟩ := common_like (hT ha) iha.1
    exact ⟨h1, hv.1, .cond_false ihc.2.2 (okTruth_of hx (wider (long_like ihc.1) ihc.2.1)) ha iha.2.2 (hv.kept h1 (wider h4 iha.2.1))⟩
  | comma _ _ iha ihb => exact ⟨ihb.1, ihb.2.1, .comma iha.2.2 ihb.2.2⟩

theorem Spec.ExprType.mono {ρ ρ' : String → CT → Int → Prop} (hρ : ∀ x c v, ρ x c v → ρ' x c v) {e : Expr} {c : CT} (h : ExprType ρ e c) : ExprType ρ' e c := by
  induction h with
  | lit h => exact .lit h
  | var h => exact .var (hρ _ _ _ h)
  | arith ho _ _ h1 h2 => exact .arith ho h1 h2
  | shift ho _ _ h1 h2 => exact .shift ho h1 h2
  | compare ho _ _ h1 h2 => exact .compare ho h1 h2
  | compl _ h1 => exact .compl h1
  | lnot _ h1 => exact .lnot h1
  | land _ _ h1 h2 => exact .land h1 h2
  | lor _ _ h1 h2 => exact .lor h1 h2
  | cond _ _ _ h0 h1 h2 => exact .cond h0 h1 h2
  | comma _ _ h1 h2 => exact .comma h1 h2

theorem Spec.TVal.monoVar {ρ ρ' : String → CT → Int → Prop} (hρ : ∀ x c v, ρ x c v → ρ' x c v) {ok : BOp → Int → Int → Prop}
    {cv : CT → Int → Int → Prop} {truth : Int → Bool → Prop} {e : Expr} {c : CT} {v : Int} (h : TVal ok cv truth ρ e c v) : TVal ok cv truth ρ' e c v := by
  induction h with
  | lit h => exact .lit h
  | var h => exact .var (hρ _ _ _ h)
  | arith ho _ _ hx hy hok hz hv iha ihb => exact .arith ho iha ihb hx hy hok hz hv
  | shift ho _ _ hx h0 hy hs hok hz hv iha ihb => exact .shift ho iha ihb hx h0 hy hs hok hz hv
  | compare ho _ _ hx hy hz iha ihb => exact .compare ho iha ihb hx hy hz
  | compl _ hx hz hv ih => exact .compl ih hx hz hv
  | lnot _ h ih => exact .lnot ih h
  | land_false _ hb ih => exact .land_false ih (hb.mono hρ)
  | land_true _ hx _ hv iha ihb => exact .land_true iha hx ihb hv
  | lor_true _ hx hb ih => exact .lor_true ih hx (hb.mono hρ)
  | lor_false _ _ hv iha ihb => exact .lor_false iha ihb hv
  | cond_true _ hx _ hb hv ihc iha => exact .cond_true ihc hx iha (hb.mono hρ) hv
  | cond_false _ hx ha _ hv ihc iha => exact .cond_false ihc hx (ha.mono hρ) iha hv
  | comma _ _ iha ihb => exact .comma iha ihb

theorem SignedVar.like {s : St} (x : String) (c : CT) (v : Int) (h : SignedVar s x c v) : SignedLike c ∧ InRange c v := by
  obtain ⟨⟨t, _, h1⟩, h2⟩ := h
  refine ⟨h2, ?_⟩
  rcases h1 with ⟨rfl, _, h⟩ | ⟨_, h⟩
  · exact h
  · exact h.inRange

/-- C141 for expressions whose variables have any integer type but `unsigned int`, `unsigned long` and `unsigned long long`, where `/` and `>>`
round as in C. There C's typed arithmetic and bic's unbounded arithmetic agree wherever C's is defined. Missing are the three unsigned types
and the other operands of `/` and `>>`. -/
theorem C141_signed_partial (E : Env) (s : St) (e : Expr) (c : CT) (v : Int) (t : TId) (w : WF s)
    (h : TVal roundsSame Converts cTruth (SignedVar s) e c v) (ht : ERep s.nodes t e) : EvalsTo E s t v :=
  C141_kept_partial E s e c v t w
    (TVal.monoVar (fun x c v h => ⟨h.1, wider (long_like h.2) (SignedVar.like x c v h).2⟩) (TVal.signed (SignedVar.like) h).2.2) ht

/-- constants and variables combined with `+`, `-`, `*`, `&`, `|`, `^`, `~`, and `<<` by a constant -/
def ringExpr : Expr → Prop
  | .lit _ | .var _ => True
  | .bin o a b => ringExpr a ∧ ringExpr b ∧ (o ∈ [.add, .sub, .mul, .and, .or, .xor] ∨ (o = .shl ∧ ∃ n, b = .lit n))
  | .compl a => ringExpr a
  | _ => False

theorem emod_two_pow_succ (a : Int) (n : Nat) : a % 2 ^ (n + 1) = a % 2 + 2 * (a / 2 % 2 ^ n) := by
  have hp : (0 : Int) < 2 ^ n := Int.pow_pos (by decide)
  have h1 := Int.emod_nonneg (a / 2) (Int.ne_of_gt hp)
  have h2 := Int.emod_lt_of_pos (a / 2) hp
  have h3 : a / 2 = 2 ^ n * (a / 2 / 2 ^ n) + a / 2 % 2 ^ n := (Int.mul_ediv_add_emod _ _).symm
  have h4 : a = (a % 2 + 2 * (a / 2 % 2 ^ n)) + 2 ^ (n + 1) * (a / 2 / 2 ^ n) := by
    rw [Int.pow_succ, Int.mul_comm (2 ^ n) 2, Int.mul_assoc]
    omega
  conv => lhs; rw [h4]
  rw [Int.add_mul_emod_self_left, Int.emod_eq_of_lt (by omega) (by rw [Int.pow_succ]; omega)]

/-- numbers are congruent modulo `2^n` if and only if their lowest `n` bits agree -/
theorem emod_iff_bits (n : Nat) : ∀ a b : Int, a % 2 ^ n = b % 2 ^ n ↔ ∀ i, i < n → (bit a i ↔ bit b i) := by
  induction n with
  | zero => intro a b; simp [Int.emod_one]
  | succ n ih =>
    intro a b
    rw [emod_two_pow_succ, emod_two_pow_succ]
    have hs : ∀ (z : Int) i, bit z (i + 1) ↔ bit (z / 2) i := fun z i => by
      simp only [bit, Int.pow_succ']
      rw [Int.ediv_ediv_of_nonneg (by decide)]
    have h0 : ∀ z : Int, bit z 0 ↔ z % 2 = 1 := fun z => by simp [bit]
    constructor
    · intro h i hi
      have h1 : a % 2 = b % 2 := by omega
      have h2 : a / 2 % 2 ^ n = b / 2 % 2 ^ n := by omega
      cases i with
      | zero => rw [h0, h0, h1]
      | succ i => rw [hs, hs]; exact (ih _ _).mp h2 i (by omega)
    · intro h
      have h1 := h 0 (by omega)
      rw [h0, h0] at h1
      have h2 := (ih (a / 2) (b / 2)).mpr fun i hi => by have := h (i + 1) (by omega); rwa [hs, hs] at this
      omega

theorem common_integral {c d : CT} (hc : integral c) (hd : integral d) :
    integral (common c d) ∧ (width (common c d) = 32 ∨ width (common c d) = 64) := by
  revert hc hd; cases c <;> cases d <;> decide

theorem promote_wide {c : CT} (hc : integral c) : integral (promote c) ∧ (width (promote c) = 32 ∨ width (promote c) = 64) := by
  revert hc; cases c <;> decide

theorem Spec.Converts.modulo {c : CT} (hc : width c = 32 ∨ width c = 64) {z v : Int} (h : Converts c z v) : z % 2 ^ 32 = v % 2 ^ 32 := by
  obtain ⟨_, k, hk⟩ := h
  rcases hc with hc | hc <;> rw [hc] at hk <;> omega

theorem Spec.TResult.modulo {c : CT} (hc : width c = 32 ∨ width c = 64) {z v : Int} (h : TResult Converts c z v) : z % 2 ^ 32 = v % 2 ^ 32 := by
  unfold TResult at h
  split at h
  · rw [h.1]
  · exact Spec.Converts.modulo hc h

theorem ring_modulo {ρ : String → CT → Int → Prop} {ρ' : String → Int → Prop} (hρ : ∀ x c v, ρ x c v → integral c ∧ ρ' x v) {e : Expr} {c : CT}
    {v : Int} (h : CTVal ρ e c v) (hr : ringExpr e) : integral c ∧ ∃ m, Val okOp okTruth ρ' e m ∧ m % 2 ^ 32 = v % 2 ^ 32 := by
  induction h with
  | lit h => exact ⟨(lit_like h).1.1, _, .lit _, rfl⟩
  | var h => exact ⟨(hρ _ _ _ h).1, _, .var (hρ _ _ _ h).2, rfl⟩
  | @arith o a b c d x y x' y' z v ho _ _ hx hy hok hz hv iha ihb =>
    obtain ⟨h1, h2, ho'⟩ := hr
    obtain ⟨ic, m, vm, em⟩ := iha h1
    obtain ⟨id, n, vn, en⟩ := ihb h2
    obtain ⟨ik, hk⟩ := common_integral ic id
    have ex := em.trans (Spec.Converts.modulo hk hx)
    have ey := en.trans (Spec.Converts.modulo hk hy)
    have ez := Spec.TResult.modulo hk hv
    have bx := (emod_iff_bits 32 _ _).mp ex
    have bz := (emod_iff_bits 32 _ _).mp ez
    have byy := (emod_iff_bits 32 _ _).mp ey
    refine ⟨ik, ?_⟩
    cases o <;> simp [opKind] at ho <;> simp at ho'
    · cases (show z = x' + y' from hz)
      exact ⟨m + n, .bin vm vn ⟨rfl, trivial⟩, by rw [← ez, Int.add_emod, ex, ey, ← Int.add_emod]⟩
    · cases (show z = x' - y' from hz)
      exact ⟨m - n, .bin vm vn ⟨rfl, trivial⟩, by rw [← ez, Int.sub_emod, ex, ey, ← Int.sub_emod]⟩
    · cases (show z = x' * y' from hz)
      exact ⟨m * n, .bin vm vn ⟨rfl, trivial⟩, by rw [← ez, Int.mul_emod, ex, ey, ← Int.mul_emod]⟩
    · refine ⟨mpzAnd m n, .bin vm vn ⟨fun i => bit_mpzAnd m n i, trivial⟩, (emod_iff_bits 32 _ _).mpr fun i hi => ?_⟩
      rw [← bz i hi, bit_mpzAnd, bx i hi, byy i hi]
      exact (hz i).symm
    · refine ⟨mpzIor m n, .bin vm vn ⟨fun i => bit_mpzIor m n i, trivial⟩, (emod_iff_bits 32 _ _).mpr fun i hi => ?_⟩
      rw [← bz i hi, bit_mpzIor, bx i hi, byy i hi]
      exact (hz i).symm
    · refine ⟨mpzXor m n, .bin vm vn ⟨fun i => bit_mpzXor m n i, trivial⟩, (emod_iff_bits 32 _ _).mpr fun i hi => ?_⟩
      rw [← bz i hi, bit_mpzXor, bx i hi, byy i hi]
      exact (hz i).symm
  | @shift o a b c d x y x' z v ho _ hb hx h0 hy _ _ hz hv iha _ =>
    obtain ⟨h1, h2, ho'⟩ := hr
    obtain ⟨ic, m, vm, em⟩ := iha h1
    obtain ⟨ik, hk⟩ := promote_wide ic
    have ex := em.trans (Spec.Converts.modulo hk hx)
    have ez := Spec.TResult.modulo hk hv
    refine ⟨ik, ?_⟩
    cases o <;> simp [opKind] at ho <;> simp at ho'
    obtain ⟨n, rfl⟩ := ho'
    cases hb
    obtain ⟨j, rfl, rfl⟩ := hz
    have hw := width_le (promote c)
    refine ⟨m * 2 ^ j, .bin vm (.lit _) ⟨⟨j, rfl, rfl⟩, by show (j : Int) < 2 ^ 64; omega⟩, ?_⟩
    rw [← ez, Int.mul_emod, ex, ← Int.mul_emod]
  | @compare o _ _ _ _ _ _ _ _ _ ho =>
    obtain ⟨_, _, h⟩ := hr
    cases o <;> simp [opKind] at ho <;> simp at h
  | @compl a c x x' z v _ hx hz hv ih =>
    obtain ⟨ic, m, vm, em⟩ := ih hr
    obtain ⟨ik, hk⟩ := promote_wide ic
    have bx := (emod_iff_bits 32 _ _).mp (em.trans (Spec.Converts.modulo hk hx))
    have bz := (emod_iff_bits 32 _ _).mp (Spec.TResult.modulo hk hv)
    refine ⟨ik, mpzCom m, .compl vm fun i => bit_mpzCom m i, (emod_iff_bits 32 _ _).mpr fun i hi => ?_⟩
    rw [← bz i hi, bit_mpzCom, bx i hi]
    exact (hz i).symm
  | _ => exact hr.elim

/-- C141, arithmetic that wraps around: the value of an expression of constants and variables of any integer types, signed and unsigned,
with `+`, `-`, `*`, `&`, `|`, `^`, `~` and `<<` by a constant differs from C's by a multiple of 2^32. So it is right when it is stored in a variable of at most 32 bits. -/
theorem C141_modulo (E : Env) (s : St) (e : Expr) (c : CT) (v : Int) (t : TId) (w : WF s) (h : CTVal (LongVar s) e c v) (hr : ringExpr e)
    (ht : ERep s.nodes t e) : ∃ m k : Int, EvalsTo E s t m ∧ m = v + k * 2 ^ 32 := by
  obtain ⟨_, m, h1, h2⟩ := ring_modulo (ρ' := VarIs s) (fun _ _ _ ⟨⟨t, h1, h2⟩, h3⟩ =>
    ⟨h2.elim (fun h => h.1 ▸ trivial) (·.1), t, h1, h2.elim (fun h => .inl h.2.1) fun h => .inr ⟨_, h.2, h3⟩⟩) h hr
  exact ⟨m, (m - v) / 2 ^ 32, C01_expressions_partial E s e m t w h1 ht, by omega⟩

/-- `unsigned int u = 4294967295`, `short h = -2`; `u + 1` (6), `h * 3 < h` (10) -/
def stTyped : St :=
  stOf [.ident "u", .ctype .uint none, .lv (some 1) 4096 false 0, .ident "h", .ctype .short none, .lv (some 4) 4100 false 0,
        .bin .add (some 0) (some 7), .integer 1, .integer 3, .bin .mul (some 3) (some 8), .cmp .lt (some 9) (some 3)]
    [⟨"u", 0, some 2⟩, ⟨"h", 3, some 5⟩] [255, 255, 255, 255, 254, 255]

theorem stTyped_u : VarT stTyped "u" .uint 4294967295 :=
  ⟨2, rfl, .inr ⟨trivial, 1, 4096, ⟨⟨_, _, rfl⟩, ⟨_, rfl⟩, .inl trivial, rfl⟩, by decide +kernel⟩⟩

theorem stTyped_h : VarT stTyped "h" .short (-2) :=
  ⟨5, rfl, .inr ⟨trivial, 4, 4100, ⟨⟨_, _, rfl⟩, ⟨_, rfl⟩, .inl trivial, rfl⟩, by decide +kernel⟩⟩

theorem stTyped_sum : CTVal (LongVar stTyped) (.bin .add (.var "u") (.lit 1)) .uint 0 :=
  .arith (c := .uint) (d := .int) (x' := 4294967295) (y' := 1) (z := 4294967296) rfl (.var ⟨stTyped_u, by decide⟩) (.lit (.inl ⟨rfl, by decide⟩))
    (.self (by decide)) (.self (by decide)) trivial rfl ⟨by decide, 1, by decide⟩

theorem stTyped_rep : ERep stTyped.nodes 6 (.bin .add (.var "u") (.lit 1)) := .bin (o := .add) (l := 0) (r := 7) rfl (.var rfl) (.lit rfl)

/-- C141 in full is false: `u + 1` is 0 in C and 4294967296 in bic. -/
theorem C141_refuted : ¬ C141_statement := by
  intro h
  have h1 := h E0 stTyped _ .uint 0 6 (stOf_WF _ _ _) (Spec.TVal.monoVar (fun _ _ _ h => h.1) stTyped_sum) stTyped_rep
  exact absurd (h1.computed (w := 4294967296) 10 (by decide +kernel)) (by decide)

/-- `u + 1` is right modulo 2^32 -/
example : ∃ m k : Int, EvalsTo E0 stTyped 6 m ∧ m = 0 + k * 2 ^ 32 :=
  C141_modulo E0 stTyped _ .uint 0 6 (stOf_WF _ _ _) stTyped_sum ⟨trivial, trivial, .inl (by decide)⟩ stTyped_rep

/-- `h * 3 < h` -/
example : EvalsTo E0 stTyped 10 1 :=
  C141_signed_partial E0 stTyped (.bin .lt (.bin .mul (.var "h") (.lit 3)) (.var "h")) .int 1 10 (stOf_WF _ _ _)
    (.compare (c := .int) (d := .short) (x := -6) (y := -2) (x' := -6) (y' := -2) rfl
      (.arith (o := .mul) (c := .short) (d := .int) (x := -2) (y := 3) (x' := -2) (y' := 3) (z := -6) rfl (.var ⟨stTyped_h, trivial, trivial⟩)
        (.lit (.inl ⟨rfl, by decide⟩)) (.self (by decide)) (.self (by decide)) trivial (show (-6 : Int) = -2 * 3 by decide) ⟨rfl, by decide⟩)
      (.var ⟨stTyped_h, trivial, trivial⟩) (.self (by decide)) (.self (by decide)) (.inl ⟨by decide, rfl⟩))
    (.cmp (o := .lt) (l := 9) (r := 3) rfl (.bin (o := .mul) (l := 3) (r := 8) rfl (.var rfl) (.lit rfl)) (.var rfl))

end Bic
