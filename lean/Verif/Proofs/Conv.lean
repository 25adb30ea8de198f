import Verif.Proofs.Mono
/-!
# Evaluation with a sufficient budget

`Conv E f s o`: the computation `f`, given any sufficiently large recursion
budget, has outcome `o` in state `s`.
-/

namespace Bic
open Lean.Order

@[simp] theorem bind_apply (m : M α) (f : α → M β) (s : St) :
    (m >>= f) s = match m s with
      | .ok a s' => f a s'
      | .stop w s' => .stop w s'
      | .fuel => .fuel := rfl

@[simp] theorem pure_apply (a : α) (s : St) : (pure a : M α) s = .ok a s := rfl

/-- with enough budget `f` has outcome `o` -/
def Conv (E : Env) (f : Rec → M α) (s : St) (o : Out α) : Prop :=
  ∃ N, ∀ n, N ≤ n → f (run E n) s = o

namespace Conv
variable {E : Env} {s s' : St}

theorem const {m : M α} {o : Out α} (h : m s = o) : Conv E (fun _ => m) s o :=
  ⟨0, fun _ _ => h⟩

theorem pure (a : α) : Conv E (fun _ => (Pure.pure a : M α)) s (.ok a s) := const rfl

theorem bind {f : Rec → M α} {g : Rec → α → M β} {a : α} {o : Out β}
    (h : Conv E f s (.ok a s')) (h' : Conv E (fun R => g R a) s' o) :
    Conv E (fun R => f R >>= g R) s o := by
  obtain ⟨N, hN⟩ := h
  obtain ⟨K, hK⟩ := h'
  refine ⟨max N K, fun n hn => ?_⟩
  show (f (run E n) >>= g (run E n)) s = o
  rw [bind_apply, hN n (by omega)]
  exact hK n (by omega)

theorem bind_stop {f : Rec → M α} {g : Rec → α → M β} {w : Stop}
    (h : Conv E f s (.stop w s')) : Conv E (fun R => f R >>= g R) s (.stop w s') := by
  obtain ⟨N, hN⟩ := h
  refine ⟨N, fun n hn => ?_⟩
  show (f (run E n) >>= g (run E n)) s = _
  rw [bind_apply, hN n (by omega)]

/-- a first step that does not recurse -/
theorem bind_const {m : M α} {g : Rec → α → M β} {a : α} {o : Out β}
    (h : m s = .ok a s') (h' : Conv E (fun R => g R a) s' o) :
    Conv E (fun R => m >>= g R) s o := bind (const h) h'

theorem congr {f g : Rec → M α} {o : Out α} (h : Conv E f s o) (e : ∀ R, g R s = f R s) :
    Conv E g s o := by
  obtain ⟨N, hN⟩ := h
  exact ⟨N, fun n hn => by rw [e]; exact hN n hn⟩

theorem shift {f : Rec → M α} {g : Rec → M α} {o : Out α} (e : ∀ n, g (run E (n + 1)) = f (run E n))
    (h : Conv E f s o) : Conv E g s o := by
  obtain ⟨N, hN⟩ := h
  refine ⟨N + 1, fun n hn => ?_⟩
  obtain ⟨m, rfl⟩ : ∃ m, n = m + 1 := ⟨n - 1, by omega⟩
  rw [e]; exact hN m (by omega)

theorem ev {t : Ref} {o : Out Ref} (h : Conv E (fun R => evStep E R t) s o) :
    Conv E (fun R => R.ev t) s o := shift (fun _ => rfl) h

/-- evaluating an existing tree object -/
theorem evNode {t : TId} {nd : Node} {o : Out Ref} (hn : s.nodes t = some nd)
    (h : Conv E (fun R => evalNode E R t nd) s o) : Conv E (fun R => R.ev (some t)) s o := by
  apply ev
  unfold evStep
  apply bind_const (a := nd) (s' := s)
  · simp [node, hn]
  · exact h

theorem loopWhile {c b : Ref} {o : Out Ref} (h : Conv E (fun R => loopWhileStep R c b) s o) :
    Conv E (fun R => R.loopWhile c b) s o := shift (fun _ => rfl) h

theorem loopFor {c a b : Ref} {o : Out Ref} (h : Conv E (fun R => loopForStep R c a b) s o) :
    Conv E (fun R => R.loopFor c a b) s o := shift (fun _ => rfl) h

theorem resolvePtr {d ty : Ref} {o} (h : Conv E (fun R => resolvePtrStep R d ty) s o) :
    Conv E (fun R => R.resolvePtr d ty) s o := shift (fun _ => rfl) h

theorem handleDecl {d ty : Ref} {o} (h : Conv E (fun R => handleDeclStep R d ty) s o) :
    Conv E (fun R => R.handleDecl d ty) s o := shift (fun _ => rfl) h

theorem mapTypedef {d ty : Ref} {o} (h : Conv E (fun R => mapTypedefStep R d ty) s o) :
    Conv E (fun R => R.mapTypedef d ty) s o := shift (fun _ => rfl) h

theorem instStruct {d : Ref} {b : Nat} {o} (h : Conv E (fun R => instStructStep R d b) s o) :
    Conv E (fun R => R.instStruct d b) s o := shift (fun _ => rfl) h

theorem alignment {t : Ref} {o} (h : Conv E (fun R => alignmentStep R t) s o) :
    Conv E (fun R => R.alignment t) s o := shift (fun _ => rfl) h

theorem unique {f : Rec → M α} {o o' : Out α} (h : Conv E f s o) (h' : Conv E f s o') : o = o' := by
  obtain ⟨N, hN⟩ := h
  obtain ⟨K, hK⟩ := h'
  rw [← hN (max N K) (by omega), ← hK (max N K) (by omega)]

/-- one run that ends is enough -/
theorem of_run {f : Rec → M α} (hf : monotone f) {n : Nat} {o : Out α}
    (h : f (run E n) s = o) (ho : o ≠ .fuel) : Conv E f s o := by
  refine ⟨n, fun m hm => ?_⟩
  have := M_le_iff.mp (hf _ _ (run_mono E hm)) s
  rw [h] at this
  exact this.eq_of_ne ho

end Conv

/-- Outcomes do not depend on the budget. -/
theorem run_ev_mono {E : Env} {n m : Nat} {t : Ref} {s : St} {o : Out Ref} (hnm : n ≤ m)
    (h : (run E n).ev t s = o) (ho : o ≠ .fuel) : (run E m).ev t s = o := by
  have := M_le_iff.mp ((run_mono E hnm).ev t) s
  rw [h] at this
  exact this.eq_of_ne ho

end Bic
