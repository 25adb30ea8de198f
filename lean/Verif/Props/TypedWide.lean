import Verif.Props.TypedAssign
/-!
# C141, C142: arithmetic modulo 2^64
-/

namespace Bic
open Spec

/-- an integer type other than `unsigned int` -/
def WideType (c : CT) : Prop := integral c ∧ c ≠ .uint

/-- operands are converted to a type of 64 bits, or to `int`, which has all their values -/
theorem common_wide {c d : CT} (hc : WideType c) (hd : WideType d) :
    WideType (common c d) ∧ (width (common c d) = 64 ∨ (common c d = .int ∧ (lo .int ≤ lo c ∧ hi c ≤ hi .int) ∧ (lo .int ≤ lo d ∧ hi d ≤ hi .int))) := by
  revert hc hd; unfold WideType; cases c <;> cases d <;> decide

theorem promote_wideType {c : CT} (hc : WideType c) :
    WideType (promote c) ∧ (width (promote c) = 64 ∨ (promote c = .int ∧ (lo .int ≤ lo c ∧ hi c ≤ hi .int))) := by
  revert hc; unfold WideType; cases c <;> decide

theorem Spec.Converts.wide {k : CT} {x y : Int} (hk : width k = 64 ∨ (k = .int ∧ InRange .int x)) (h : Converts k x y) : x % 2 ^ 64 = y % 2 ^ 64 := by
  rcases hk with hk | ⟨rfl, hx⟩
  · obtain ⟨_, j, hj⟩ := h
    rw [hk] at hj
    omega
  · rw [Converts.unique (c := .int) (.inl trivial) h (.self hx)]

theorem Spec.TResult.wide {k : CT} {z v : Int} (hk : width k = 64 ∨ k = .int) (h : TResult Converts k z v) : z % 2 ^ 64 = v % 2 ^ 64 ∧ InRange k v := by
  unfold TResult at h
  split at h
  · obtain ⟨rfl, h⟩ := h; exact ⟨rfl, h⟩
  · next hs =>
    refine ⟨Spec.Converts.wide (.inl (hk.resolve_right ?_)) h, h.1⟩
    rintro rfl
    exact hs trivial

/-- without `unsigned int`, the value C gives an expression and the unbounded one are congruent modulo 2^64 -/
theorem ring_wide {ρ : String → CT → Int → Prop} {ρ' : String → Int → Prop} {op : BOp → Int → Int → Int → Prop} {truth : Int → Bool → Prop}
    (hop : ∀ o a b r, op o a b r → cOp o a b r) (hρ : ∀ x c v m, ρ x c v → ρ' x m → WideType c ∧ InRange c v ∧ m = v) {e : Expr} {c : CT} {v m : Int}
    (h : CTVal ρ e c v) (hm : Val op truth ρ' e m) (hr : ringExpr e) : WideType c ∧ InRange c v ∧ m % 2 ^ 64 = v % 2 ^ 64 := by
  induction h generalizing m with
  | @lit z c h =>
    cases hm
    refine ⟨?_, (lit_like h).2, rfl⟩
    rcases h with ⟨rfl, _⟩ | ⟨rfl, _⟩ <;> exact ⟨trivial, nofun⟩
  | var h =>
    cases hm with
    | var k => obtain ⟨h1, h2, rfl⟩ := hρ _ _ _ _ h k; exact ⟨h1, h2, rfl⟩
  | @arith o a b c d x y x' y' z v ho _ _ hx hy hok hz hv iha ihb =>
    obtain ⟨h1, h2, ho'⟩ := hr
    cases hm with
    | @bin _ _ _ p q _ k1 k2 k3 =>
      obtain ⟨ic, rc, em⟩ := iha k1 h1
      obtain ⟨id', rd, en⟩ := ihb k2 h2
      obtain ⟨ik, hk⟩ := common_wide ic id'
      have ex := em.trans (Spec.Converts.wide (hk.imp id fun h => ⟨h.1, wider h.2.1 rc⟩) hx)
      have ey := en.trans (Spec.Converts.wide (hk.imp id fun h => ⟨h.1, wider h.2.2 rd⟩) hy)
      obtain ⟨ez, rz⟩ := Spec.TResult.wide (hk.imp id (·.1)) hv
      have bx := (emod_iff_bits 64 _ _).mp ex
      have bz := (emod_iff_bits 64 _ _).mp ez
      have byy := (emod_iff_bits 64 _ _).mp ey
      refine ⟨ik, rz, ?_⟩
      have k4 := hop _ _ _ _ k3
      cases o <;> simp [opKind] at ho <;> simp at ho'
      · cases (show z = x' + y' from hz)
        cases (show m = p + q from k4)
        rw [← ez, Int.add_emod, ex, ey, ← Int.add_emod]
      · cases (show z = x' - y' from hz)
        cases (show m = p - q from k4)
        rw [← ez, Int.sub_emod, ex, ey, ← Int.sub_emod]
      · cases (show z = x' * y' from hz)
        cases (show m = p * q from k4)
        rw [← ez, Int.mul_emod, ex, ey, ← Int.mul_emod]
      all_goals
        refine (emod_iff_bits 64 _ _).mpr fun i hi => ?_
        rw [← bz i hi]
        refine (k4 i).trans ?_
        rw [bx i hi, byy i hi]
        exact (hz i).symm
  | @shift o a b c d x y x' z v ho _ hb hx h0 hy _ _ hz hv iha _ =>
    obtain ⟨h1, h2, ho'⟩ := hr
    cases hm with
    | @bin _ _ _ p q _ k1 k2 k3 =>
      obtain ⟨ic, rc, em⟩ := iha k1 h1
      obtain ⟨ik, hk⟩ := promote_wideType ic
      have ex := em.trans (Spec.Converts.wide (hk.imp id fun h => ⟨h.1, wider h.2 rc⟩) hx)
      obtain ⟨ez, rz⟩ := Spec.TResult.wide (hk.imp id (·.1)) hv
      refine ⟨ik, rz, ?_⟩
      have k4 := hop _ _ _ _ k3
      cases o <;> simp [opKind] at ho <;> simp at ho'
      obtain ⟨n, rfl⟩ := ho'
      cases hb
      cases k2
      obtain ⟨j, rfl, rfl⟩ := hz
      obtain ⟨j', hj, rfl⟩ := k4
      cases Int.ofNat.inj hj
      rw [← ez, Int.mul_emod, ex, ← Int.mul_emod]
  | @compare o _ _ _ _ _ _ _ _ _ ho =>
    obtain ⟨_, _, h⟩ := hr
    cases o <;> simp [opKind] at ho <;> simp at h
  | @compl a c x x' z v _ hx hz hv ih =>
    cases hm with
    | compl k1 k2 =>
      obtain ⟨ic, rc, em⟩ := ih k1 hr
      obtain ⟨ik, hk⟩ := promote_wideType ic
      obtain ⟨ez, rz⟩ := Spec.TResult.wide (hk.imp id (·.1)) hv
      have bx := (emod_iff_bits 64 _ _).mp (em.trans (Spec.Converts.wide (hk.imp id fun h => ⟨h.1, wider h.2 rc⟩) hx))
      have bz := (emod_iff_bits 64 _ _).mp ez
      refine ⟨ik, rz, (emod_iff_bits 64 _ _).mpr fun i hi => ?_⟩
      rw [← bz i hi, k2, bx i hi]
      exact (hz i).symm
  | _ => exact hr.elim

/-- a variable of an integer type other than `unsigned int` -/
def WideVar (s : St) (x : String) (c : CT) (v : Int) : Prop := VarT s x c v ∧ WideType c

theorem WideVar.agrees {s : St} (x : String) (c : CT) (v m : Int) (h : WideVar s x c v) (hm : VarIs s x m) : WideType c ∧ InRange c v ∧ m = v := by
  obtain ⟨⟨t, h1, h2⟩, h3⟩ := h
  obtain ⟨t', k1, k2⟩ := hm
  rw [h1] at k1
  cases k1
  refine ⟨h3, ?_⟩
  rcases h2 with ⟨rfl, h2, h4⟩ | ⟨_, h2⟩ <;> rcases k2 with k2 | ⟨_, k2, _⟩
  · rw [h2] at k2; cases k2; exact ⟨h4, rfl⟩
  · obtain ⟨_, _, hl, _⟩ := k2
    obtain ⟨_, _, hl⟩ := hl.lv
    rw [h2] at hl; cases hl
  · obtain ⟨_, _, hl, _⟩ := h2
    obtain ⟨_, _, hl⟩ := hl.lv
    rw [k2] at hl; cases hl
  · exact ⟨h2.inRange, (k2.unique h2).2⟩

/-- C141, arithmetic that wraps around, without `unsigned int`: the value of an expression with `+`, `-`, `*`, `&`, `|`, `^`, `~` and `<<` by a constant
differs from C's by a multiple of 2^64. -/
theorem C141_modulo_wide (E : Env) (s : St) (e : Expr) (c : CT) (v : Int) (t : TId) (w : WF s)
    (h : CTVal (fun x c v => LongVar s x c v ∧ WideType c) e c v) (hr : ringExpr e) (ht : ERep s.nodes t e) :
    ∃ m k : Int, EvalsTo E s t m ∧ m = v + k * 2 ^ 64 := by
  obtain ⟨_, m, h1, _⟩ := ring_modulo (ρ' := VarIs s) (fun _ _ _ ⟨⟨⟨t, h1, h2⟩, h3⟩, h4⟩ =>
    ⟨h4.1, t, h1, h2.elim (fun h => .inl h.2.1) fun h => .inr ⟨_, h.2, h3⟩⟩) h hr
  obtain ⟨_, _, h2⟩ := ring_wide (fun _ _ _ _ h => h.1) (fun x c v m h hm => WideVar.agrees x c v m ⟨h.1.1, h.2⟩ hm) h h1 hr
  exact ⟨m, (m - v) / 2 ^ 64, C01_expressions_partial E s e m t w h1 ht, by omega⟩

/-- C142 for variables of all integer types and expressions with `+`, `-`, `*`, `&`, `|`, `^`, `~` and `<<` by a constant, on variables of all integer
types but `unsigned int`: right where the mathematical value of the expression (and those of its variables) are values of `long`, although
C's value may have wrapped around, for instance below 0. -/
theorem C142_wide_partial (E : Env) (s : St) (t x τ : TId) (k c : CT) (a : Nat) (e : Expr) (v m u : Int) (w : WF s)
    (h : AssignsExpr E s t x τ k a e) (hv : CTVal (WideVar s) e c v) (hr : ringExpr e) (hc : computed e = true)
    (hm : Val okOp okTruth (VarIs s) e m) (hl : InRange .long m) (hu : Converts k v u) : Stores E s t k a u := by
  obtain ⟨_, _, h2⟩ := ring_wide (fun _ _ _ _ h => h.1) WideVar.agrees hv hm hr
  have hw := width_le k
  refine stores_computed w h hm hc (.inr ⟨hl.1, hl.2⟩) (converts_of_congr hu ((m - v) / 2 ^ 64 * 2 ^ (64 - width k)) ?_)
  rw [Int.mul_assoc, ← Int.pow_add, Nat.sub_add_cancel hw]
  omega

/-- `unsigned long w = 7` at 4096; `w = w - 9` (3) -/
def stWide : St :=
  stOf [.ident "w", .ctype .ulong none, .lv (some 1) 4096 false 0, .assign (some 0) (some 4), .bin .sub (some 0) (some 5), .integer 9]
    [⟨"w", 0, some 2⟩] [7, 0, 0, 0, 0, 0, 0, 0]

theorem stWide_w : VarT stWide "w" .ulong 7 :=
  ⟨2, rfl, .inr ⟨trivial, 1, 4096, ⟨⟨_, _, rfl⟩, ⟨_, rfl⟩, .inl trivial, rfl⟩, by decide +kernel⟩⟩

/-- `w` becomes 2^64 - 2 -/
example : Stores E0 stWide 3 .ulong 4096 18446744073709551614 := by
  refine C142_wide_partial E0 stWide 3 2 1 .ulong .ulong 4096 (.bin .sub (.var "w") (.lit 9)) 18446744073709551614 (-2) _ (stOf_WF _ _ _)
    ⟨⟨some 0, 4, rfl, ident_conv rfl rfl, .bin (o := .sub) (l := 0) (r := 5) rfl (.var rfl) (.lit rfl)⟩,
      ⟨⟨_, _, rfl⟩, ⟨_, rfl⟩, .inl trivial, rfl⟩, trivial⟩
    (.arith (o := .sub) (c := .ulong) (d := .int) (x := 7) (y := 9) (x' := 7) (y' := 9) (z := -2) rfl
      (.var ⟨stWide_w, trivial, nofun⟩) (.lit (.inl ⟨rfl, by decide⟩)) (.self (by decide)) (.self (by decide)) trivial
      (by simp [cOp]) (show Converts .ulong (-2) 18446744073709551614 from ⟨by decide, -1, by decide⟩))
    ⟨trivial, trivial, .inl (by decide)⟩ rfl ?_ (by decide) (.self (by decide))
  obtain ⟨t, h1, h2⟩ := stWide_w
  exact .bin (.var ⟨t, h1, h2.elim (fun h => .inl h.2.1) fun h => .inr ⟨_, h.2, by decide⟩⟩) (.lit 9) ⟨by simp [cOp], trivial⟩

/-- `w - 9` is right modulo 2^64 -/
example : ∃ m k : Int, EvalsTo E0 stWide 4 m ∧ m = 18446744073709551614 + k * 2 ^ 64 :=
  C141_modulo_wide E0 stWide (.bin .sub (.var "w") (.lit 9)) .ulong _ 4 (stOf_WF _ _ _)
    (.arith (o := .sub) (c := .ulong) (d := .int) (x := 7) (y := 9) (x' := 7) (y' := 9) (z := -2) rfl
      (.var ⟨⟨stWide_w, by decide⟩, trivial, nofun⟩) (.lit (.inl ⟨rfl, by decide⟩)) (.self (by decide)) (.self (by decide)) trivial
      (by simp [cOp]) (show Converts .ulong (-2) 18446744073709551614 from ⟨by decide, -1, by decide⟩))
    ⟨trivial, trivial, .inl (by decide)⟩ (.bin (o := .sub) (l := 0) (r := 5) rfl (.var rfl) (.lit rfl))

end Bic
