import Verif.Props.Steps
import Verif.Props.Assign
/-!
# C92: casts of constants
-/

namespace Bic
open Spec

/-- the cast of the constant `z` to `c` gives a new object with the converted value -/
def CastsConst (E : Env) (c : CT) (z : Int) : Prop :=
  ∀ (s s1 s2 : St) (t q σ : TId) (e ty el : Ref), WF s2 → Room s2 1 → s.nodes t = some (.cast ty e) →
    Conv E (fun R => R.ev e) s (.ok (some q) s1) → Conv E (fun R => R.ev ty) s1 (.ok (some σ) s2) →
    s2.nodes q = some (.integer z) → s2.nodes σ = some (.ctype c el) →
    ∃ r s' b u, Conv E (fun R => R.ev (some t)) s (.ok (some r) s') ∧ LvAt s' r σ c b ∧
      Converts c z u ∧ Represents c (bytesAt s'.mem b c.size) u ∧ s2.nodes r = none ∧ Grow s2 s'

/-- C92: a cast of an integer constant converts its value. -/
def C92_statement : Prop := ∀ (E : Env) (c : CT) (z : Int), integral c → CastsConst E c z

/-- what the cast of a constant stores, whatever the constant -/
theorem castConst_conv {E : Env} {c : CT} {z : Int} (hc : integral c) {s s1 s2 : St} {t q σ : TId} {e ty el : Ref} (w : WF s2) (hroom : Room s2 1)
    (hn : s.nodes t = some (.cast ty e)) (he : Conv E (fun R => R.ev e) s (.ok (some q) s1))
    (hty : Conv E (fun R => R.ev ty) s1 (.ok (some σ) s2)) (hq : s2.nodes q = some (.integer z)) (hσ : s2.nodes σ = some (.ctype c el)) :
    Conv E (fun R => R.ev (some t)) s (.ok (some s2.next) (wr (newVar s2 (some σ)) c.size s2.mem.brk (c.encode (mpzGetSi z)))) := by
  have hr := newVar_lvAt w hσ (.inl hc)
  have hq' := (newVar_grow w (some σ)).nodes _ _ hq
  refine Conv.evNode hn (Conv.bind he (Conv.bind hty (Conv.const ?_)))
  simp [node_apply hq, makeLiveVar_apply _ hroom, assignInteger_apply hr (.int hq')]

/-- C92 for all constants and the types of at most 32 bits, and for the 64-bit types when the constant fits
into a `long`. -/
theorem C92_cast_partial (E : Env) (c : CT) (z : Int) (hc : integral c) (h : width c ≤ 32 ∨ (-2 ^ 63 ≤ z ∧ z < 2 ^ 63)) :
    CastsConst E c z := by
  intro s s1 s2 t q σ e ty el w hroom hn he hty hq hσ
  have hr := newVar_lvAt w hσ (.inl hc)
  exact ⟨_, _, s2.mem.brk, _, castConst_conv hc w hroom hn he hty hq hσ, hr.wr _ _ _, getSi_converts hc h,
    ((hr.wr _ _ _).holds_iff _).mp (hr.holds_wr _), w _ (Nat.le_refl _), (newVar_grow w _).wr _ _ _ hroom.fresh⟩

/-- `(T)z` -/
def st92 (c : CT) (z : Int) : St := stOf [.integer z, .ctype c none, .cast (some 1) (some 0)] [] []

theorem room92 (c : CT) (z : Int) : Room (st92 c z) 1 :=
  ⟨(by decide +kernel : (stOf [] [] []).mem.brk + 48 * 1 < Mem.limit), by simp [st92, stOf], memOf_livelt _⟩

theorem at92 {E : Env} {c : CT} {z : Int} (h : CastsConst E c z) :
    ∃ r s' b u, Conv E (fun R => R.ev (some 2)) (st92 c z) (.ok (some r) s') ∧ LvAt s' r 1 c b ∧
      Converts c z u ∧ Represents c (bytesAt s'.mem b c.size) u ∧ (st92 c z).nodes r = none ∧ Grow (st92 c z) s' :=
  h (st92 c z) _ _ 2 0 1 (some 0) (some 1) none (stOf_WF _ _ _) (room92 c z) rfl
    (Conv.evNode (nd := .integer z) rfl (Conv.pure _)) (Conv.evNode (nd := .ctype c none) rfl (Conv.pure _)) rfl rfl

/-- `(unsigned char)-2`, `(unsigned char)36893488147419103231` -/
example : CastsConst E0 .uchar (-2) ∧ CastsConst E0 .uchar (2 ^ 65 - 1) :=
  ⟨C92_cast_partial E0 .uchar _ trivial (.inl (by decide)), C92_cast_partial E0 .uchar _ trivial (.inl (by decide))⟩

example : ∃ r s' b u, Conv E0 (fun R => R.ev (some 2)) (st92 .uchar (-2)) (.ok (some r) s') ∧ LvAt s' r 1 .uchar b ∧
    Converts .uchar (-2) u ∧ Represents .uchar (bytesAt s'.mem b CT.uchar.size) u ∧ (st92 .uchar (-2)).nodes r = none ∧ Grow (st92 .uchar (-2)) s' :=
  at92 (C92_cast_partial E0 .uchar _ trivial (.inl (by decide)))

/-- C92 is false: `(unsigned long)18446744073709551615` is 9223372036854775807. -/
theorem C92_refuted : ¬ C92_statement := by
  intro h
  obtain ⟨r, s', b, u, h1, h2, h3, h4, _⟩ := at92 (h E0 .ulong (2 ^ 64 - 1) trivial)
  have hc := castConst_conv (E := E0) (c := .ulong) (z := 2 ^ 64 - 1) trivial (s := st92 .ulong (2 ^ 64 - 1)) (stOf_WF _ _ _)
    (room92 _ _) (t := 2) (q := 0) (σ := 1) (el := none) rfl
    (Conv.evNode (nd := .integer _) rfl (Conv.pure _)) (Conv.evNode (nd := .ctype .ulong none) rfl (Conv.pure _)) rfl rfl
  have e := h1.unique hc
  simp only [Out.ok.injEq, Option.some.injEq] at e
  obtain ⟨e1, e2⟩ := e
  subst e1 e2
  have k1 := (h2.holds_iff u).mpr h4
  have hl : LvAt (newVar (st92 .ulong (2 ^ 64 - 1)) (some 1)) _ 1 .ulong _ := newVar_lvAt (stOf_WF _ _ _) rfl (.inl trivial)
  have k2 := hl.holds_wr (mpzGetSi (2 ^ 64 - 1))
  have := (k1.unique k2).2
  have hu : u = 2 ^ 64 - 1 := Converts.unique (c := .ulong) (.inl trivial) h3 (Converts.self (by decide))
  rw [hu] at this
  exact absurd this (by decide)

end Bic
