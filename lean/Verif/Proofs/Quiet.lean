import Verif.Proofs.Evol
/-!
# Computations that only read and allocate tree objects
-/

namespace Bic

/-- what `Evol` says of an evaluation that ends normally -/
theorem Conv.evol {E : Env} {s s' : St} {r a : Ref} (h : Conv E (fun R => R.ev r) s (.ok a s'))
    (hi : Inv s) : Evol E true s s' := by
  obtain ⟨n, h⟩ := h
  have e := (run_pres E n).ev r s hi
  have h' : (run E n).ev r s = .ok a s' := h n (Nat.le_refl _)
  rw [h'] at e
  exact e

/-- `m` ends, and if it ends normally it has only added tree objects -/
def Quiet (m : M α) : Prop :=
  ∀ s, WF s → (∃ a s', m s = .ok a s' ∧ Ext s s') ∨ (∃ w s', m s = .stop w s')

namespace Quiet

theorem pure (a : α) : Quiet (Pure.pure a) := fun s _ => .inl ⟨a, s, rfl, .refl s⟩
theorem stop (w : Stop) : Quiet (Bic.stop w : M α) := fun s _ => .inr ⟨w, s, rfl⟩
theorem die (m) : Quiet (Bic.die m : M α) := fun s _ => .inr ⟨_, s, rfl⟩
theorem ub (m) : Quiet (Bic.ub m : M α) := fun s _ => .inr ⟨_, s, rfl⟩

theorem bind {m : M α} {f : α → M β} (h : Quiet m) (h' : ∀ a, Quiet (f a)) : Quiet (m >>= f) := by
  intro s w
  rcases h s w with ⟨a, s1, h1, x1⟩ | ⟨k, s1, h1⟩
  · rcases h' a s1 (x1.wf w) with ⟨b, s2, h2, x2⟩ | ⟨k, s2, h2⟩
    · exact .inl ⟨b, s2, by rw [bind_apply, h1]; exact h2, x1.trans x2⟩
    · exact .inr ⟨k, s2, by rw [bind_apply, h1]; exact h2⟩
  · exact .inr ⟨k, s1, by rw [bind_apply, h1]⟩

theorem of_read {m : M α} (h : ∀ s, (∃ a, m s = .ok a s) ∨ (∃ w, m s = .stop w s)) : Quiet m := by
  intro s _
  rcases h s with ⟨a, h⟩ | ⟨w, h⟩
  · exact .inl ⟨a, s, h, .refl s⟩
  · exact .inr ⟨w, s, h⟩

theorem node (t) : Quiet (Bic.node t) := of_read fun s => by
  unfold Bic.node; split
  · exact .inl ⟨_, rfl⟩
  · exact .inr ⟨_, rfl⟩

theorem nodeR (r) : Quiet (Bic.nodeR r) := by
  cases r with
  | none => exact ub _
  | some t => exact node t

theorem peek (r) : Quiet (Bic.peek r) := by
  cases r with
  | none => exact pure _
  | some t => exact bind (node t) fun _ => pure _

theorem loadRaw (n a) : Quiet (Bic.loadRaw n a) := of_read fun s => by
  unfold Bic.loadRaw; split
  · exact .inl ⟨_, rfl⟩
  · exact .inr ⟨_, rfl⟩

theorem mk (n) : Quiet (Bic.mk n) := fun _ w => .inl ⟨_, _, rfl, addNode_ext w n⟩

theorem mkInt (n) : Quiet (Bic.mkInt n) := bind (mk _) fun _ => pure _

syntax "quiet1" : tactic
macro_rules
  | `(tactic| quiet1) => `(tactic| first
    | with_reducible exact Quiet.pure _ | with_reducible exact Quiet.stop _
    | with_reducible exact Quiet.die _ | with_reducible exact Quiet.ub _
    | with_reducible exact Quiet.node _ | with_reducible exact Quiet.nodeR _
    | with_reducible exact Quiet.peek _ | with_reducible exact Quiet.loadRaw _ _
    | with_reducible exact Quiet.mkInt _ | with_reducible exact Quiet.mk _
    | with_reducible assumption
    | (with_reducible refine Quiet.bind ?_ fun _ => ?_)
    | split)

theorem typeOf (t) : Quiet (Bic.typeOf t) := by unfold Bic.typeOf; repeat' quiet1
theorem lvFields (t) : Quiet (Bic.lvFields t) := by unfold Bic.lvFields; repeat' quiet1
macro_rules | `(tactic| quiet1) => `(tactic| with_reducible exact Quiet.lvFields _)
macro_rules | `(tactic| quiet1) => `(tactic| with_reducible exact Quiet.typeOf _)
theorem makeIntFromLV (t) : Quiet (Bic.makeIntFromLV t) := by unfold Bic.makeIntFromLV; repeat' quiet1
macro_rules | `(tactic| quiet1) => `(tactic| with_reducible exact Quiet.makeIntFromLV _)
theorem liveToInt (t) : Quiet (Bic.liveToInt t) := by unfold Bic.liveToInt; repeat' quiet1
theorem asInteger (t m) : Quiet (Bic.asInteger t m) := by unfold Bic.asInteger; repeat' quiet1

end Quiet
end Bic
