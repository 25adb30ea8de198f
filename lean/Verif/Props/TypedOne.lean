import Verif.Props.TypedProg
/-!
# C143: a program has one outcome

The semantics with the types of C gives each program at most one final store, so that `C143_programs_partial` leaves no choice.
-/

namespace Bic
open Spec

theorem vars_unique {σ : Store} (x : String) (c d : CT) (v w : Int) (h : σ.Vars x c v) (h' : σ.Vars x d w) : c = d ∧ v = w := by
  have := h.1.symm.trans h'.1
  simpa using this

theorem cValue_unique {σ : Store} {e : Expr} {v w : Int} (h : ∃ c, CTVal σ.Vars e c v) (h' : ∃ c, CTVal σ.Vars e c w) : v = w := by
  obtain ⟨_, h⟩ := h
  obtain ⟨_, h'⟩ := h'
  exact CTVal.unique (fun _ _ _ h => h.2.1) vars_unique h h'

theorem cTruth_unique {v : Int} {a b : Bool} (h : cTruth v a) (h' : cTruth v b) : a = b := by
  cases a <;> cases b <;> simp_all [cTruth]

theorem conv_unique {c : CT} {v w w' : Int} (h : Converts c v w) (h' : Converts c v w') : w = w' := by
  obtain ⟨⟨h1, h2⟩, k, hk⟩ := h
  obtain ⟨⟨h3, h4⟩, k', hk'⟩ := h'
  cases c <;> simp [lo, hi, signed, width] at h1 h2 h3 h4 hk hk' <;> omega

theorem step_unique {c : CT} {z r r' : Int} (h : TResult Converts c z r) (h' : TResult Converts c z r') : r = r' := by
  unfold TResult at h h'
  split at h
  · next hs => rw [if_pos hs] at h'; rw [h.1, h'.1]
  · next hs => rw [if_neg hs] at h'; exact conv_unique h h'

theorem has_type {σ : Store} {x : String} {c d : CT} {u v : Option Int} (h : σ.Has x c u) (h' : σ.Has x d v) : c = d := by
  have := h.symm.trans h'
  simp at this
  exact this.1

theorem tacts_unique {Φ : String → Option Proc} {σ σ1 σ2 : Store} {a : Act} (h : TActs (cTyped.with Φ) σ a σ1)
    (h' : TActs (cTyped.with Φ) σ a σ2) : σ1 = σ2 := by
  cases h with
  | set h1 h2 h3 =>
    cases h' with
    | set k1 k2 k3 =>
      cases has_type h1 k1
      cases cValue_unique h2 k2
      rw [conv_unique h3 k3]
  | step h1 h2 h3 =>
    cases h' with
    | step k1 k2 k3 =>
      obtain ⟨rfl, rfl⟩ := vars_unique _ _ _ _ _ h1 k1
      cases step_unique h2 k2
      rw [conv_unique h3 k3]

theorem tdeclares_unique {Φ : String → Option Proc} {c : CT} {σ σ1 σ2 : Store} {ds} (h : TDeclares (cTyped.with Φ) c σ ds σ1)
    (h' : TDeclares (cTyped.with Φ) c σ ds σ2) : σ1 = σ2 := by
  induction h generalizing σ2 with
  | nil => cases h'; rfl
  | plain _ _ ih => cases h' with | plain _ k => exact ih k
  | init _ h1 _ ih =>
    cases h' with
    | init _ k1 k =>
      cases tacts_unique h1 k1
      exact ih k

theorem tparams_unique {Φ : String → Option Proc} {σ : Store} {ps es fr fr'} (h : TParams (cTyped.with Φ) σ ps es fr)
    (h' : TParams (cTyped.with Φ) σ ps es fr') : fr = fr' := by
  induction h generalizing fr' with
  | nil => cases h'; rfl
  | cons _ h1 h2 _ ih =>
    cases h' with
    | cons _ k1 k2 k =>
      cases cValue_unique h1 k1
      rw [conv_unique h2 k2, ih k]

/-- C's semantics with types gives a program at most one outcome: the way it ends, the final store and the number of variables created -/
theorem C143_one_outcome {Φ : String → Option Proc} {σ σ1 σ2 : Store} {p : Spec.Stmt} {f g : End} {n m : Nat}
    (h : TRun (cTyped.with Φ) σ p f σ1 n) (h' : TRun (cTyped.with Φ) σ p g σ2 m) : f = g ∧ σ1 = σ2 ∧ n = m := by
  induction h generalizing g σ2 m with
  | act h => cases h' with | act k => exact ⟨rfl, tacts_unique h k, rfl⟩
  | decl _ h => cases h' with | decl _ k => exact ⟨rfl, tdeclares_unique h k, rfl⟩
  | skip => cases h'; exact ⟨rfl, rfl, rfl⟩
  | seq _ _ ih1 ih2 =>
    cases h' with
    | seq k1 k2 =>
      obtain ⟨_, rfl, rfl⟩ := ih1 k1
      obtain ⟨rfl, rfl, rfl⟩ := ih2 k2
      exact ⟨rfl, rfl, rfl⟩
    | stop k1 kf => exact absurd (ih1 k1).1.symm kf
  | stop _ hf ih =>
    cases h' with
    | seq k1 _ => exact absurd (ih k1).1 hf
    | stop k1 _ => exact ih k1
  | cond hv ht _ ih =>
    cases h' with
    | cond kv kt k =>
      cases cValue_unique hv kv
      cases cTruth_unique ht kt
      obtain ⟨rfl, h2, rfl⟩ := ih k
      exact ⟨rfl, (List.cons.inj h2).2, rfl⟩
  | whileS _ ih => cases h' with | whileS k => exact ih k
  | forS h _ ih =>
    cases h' with
    | forS k1 k =>
      cases tacts_unique h k1
      exact ih k
  | last hv ht =>
    cases h' with
    | last => exact ⟨rfl, rfl, rfl⟩
    | round kv kt => cases cValue_unique hv kv; exact absurd (cTruth_unique ht kt) nofun
    | roundFor kv kt => cases cValue_unique hv kv; exact absurd (cTruth_unique ht kt) nofun
    | returned kv kt => cases cValue_unique hv kv; exact absurd (cTruth_unique ht kt) nofun
  | round hv ht _ _ ih1 ih2 =>
    cases h' with
    | last kv kt => cases cValue_unique hv kv; exact absurd (cTruth_unique ht kt) nofun
    | round _ _ k1 k2 =>
      obtain ⟨_, h3, rfl⟩ := ih1 k1
      cases h3
      obtain ⟨rfl, rfl, rfl⟩ := ih2 k2
      exact ⟨rfl, rfl, rfl⟩
    | returned _ _ k1 kf => exact absurd (ih1 k1).1.symm kf
  | roundFor hv ht _ ha _ ih1 ih2 =>
    cases h' with
    | last kv kt => cases cValue_unique hv kv; exact absurd (cTruth_unique ht kt) nofun
    | roundFor _ _ k1 ka k2 =>
      obtain ⟨_, h3, rfl⟩ := ih1 k1
      cases h3
      cases tacts_unique ha ka
      obtain ⟨rfl, rfl, rfl⟩ := ih2 k2
      exact ⟨rfl, rfl, rfl⟩
    | returned _ _ k1 kf => exact absurd (ih1 k1).1.symm kf
  | returned hv ht _ hf ih =>
    cases h' with
    | last kv kt => cases cValue_unique hv kv; exact absurd (cTruth_unique ht kt) nofun
    | round _ _ k1 => exact absurd (ih k1).1 hf
    | roundFor _ _ k1 => exact absurd (ih k1).1 hf
    | returned _ _ k1 _ =>
      obtain ⟨rfl, h3, rfl⟩ := ih k1
      exact ⟨rfl, (List.cons.inj h3).2, rfl⟩
  | ret hv => cases h' with | ret kv => cases cValue_unique hv kv; exact ⟨rfl, rfl, rfl⟩
  | leave => cases h'; exact ⟨rfl, rfl, rfl⟩
  | block _ _ ih =>
    cases h' with
    | block _ k =>
      obtain ⟨rfl, h3, rfl⟩ := ih k
      exact ⟨rfl, (List.cons.inj h3).2, rfl⟩
  | @call hid vis _ _ q _ _ _ _ _ hq _ hs _ hp _ _ ih =>
    generalize hσ : hid ++ vis = σ at h' hp
    cases h' with
    | @call hid' vis' _ _ q' _ _ _ _ _ kq _ ks _ kp _ k =>
      obtain ⟨rfl, rfl⟩ := List.append_inj' hσ ((show vis.length = 1 from hs).trans (show vis'.length = 1 from ks).symm)
      cases hq.symm.trans kq
      cases tparams_unique hp kp
      obtain ⟨_, h3, rfl⟩ := ih k
      rw [(List.cons.inj h3).2]
      exact ⟨rfl, rfl, rfl⟩

/-- `x = 2; while (x) { int y = x; x--; }` ends with `x` 0 and in no other way -/
example {g : End} {σ : Store} {m : Nat} (h : TRun cTyped (store34 none) src34 g σ m) : g = .next ∧ σ = store34 (some 0) ∧ m = 2 := by
  obtain ⟨h1, h2, h3⟩ := C143_one_outcome (Φ := fun _ => none) (okTyped_c trun34) h
  exact ⟨h1.symm, h2.symm, h3.symm⟩

end Bic
