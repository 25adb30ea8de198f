import Verif.Proofs.ParseComplete
/-!
# More fuel does not change an outcome
-/

namespace Bic.Parser

def R.Le (a b : R) : Prop := a = .oof ∨ a = b

theorem R.Le.rfl {a : R} : R.Le a a := Or.inr (Eq.refl a)

theorem bind_le {a b : R} {k k' : PT → Bool → List T → R} (h : R.Le a b) (hk : ∀ t u r, R.Le (k t u r) (k' t u r)) :
    R.Le (a.bind k) (b.bind k') := by
  rcases h with h | h
  · subst h; exact Or.inl _root_.rfl
  · subst h
    cases a with
    | oof => exact Or.inl _root_.rfl
    | fail => exact Or.inr _root_.rfl
    | ok t u r => exact hk t u r

theorem exp_le {k r} {c c' : List T → R} (h : ∀ r, R.Le (c r) (c' r)) : R.Le (exp k r c) (exp k r c') := by
  unfold exp
  split
  · exact h _
  · exact Or.inr rfl

theorem step_le {f g : Cmd → List T → R} (h : ∀ c i, R.Le (f c i) (g c i)) (c i) : R.Le (step f c i) (step g c i) := by
  cases c with
  | bin l =>
    cases l <;> simp only [step] <;>
    repeat' (first | exact Or.inr rfl | exact h _ _ | (apply bind_le) | (apply exp_le) | (intro _) | split)
  | _ =>
    simp only [step]
    repeat' (first | exact Or.inr rfl | exact h _ _ | (apply bind_le) | (apply exp_le) | (intro _) | split)

theorem parse_le (n c i) : R.Le (parse n c i) (parse (n + 1) c i) := by
  induction n generalizing c i with
  | zero => exact Or.inl rfl
  | succ n ih => exact step_le ih c i

/-- an outcome that one amount of fuel gives -/
theorem Ev.of_parse {n c i o} (h : parse n c i = o) (ho : o ≠ .oof) : Ev c i o := by
  refine ⟨n, fun m hm => ?_⟩
  induction hm with
  | refl => exact h
  | @step m hm ih =>
    rcases parse_le m c i with e | e
    · rw [ih] at e; exact absurd e ho
    · rw [← e, ih]

/-- nothing is derived when the parser fails -/
theorem not_der_of_parse {n c i t u r} (h : parse n c i = .fail) : ¬ Ev c i (.ok t u r) := fun e => by
  have := (Ev.of_parse h (by intro h; cases h)).unique e
  cases this

end Bic.Parser
