/-!
# Two's complement bits of an integer (specification)
-/

namespace Bic.Spec

/-- bit `i` of the two's complement representation of `z` with infinite sign
extension: the parity of `z / 2^i` rounded down -/
def bit (z : Int) (i : Nat) : Prop := z / 2 ^ i % 2 = 1

instance (z i) : Decidable (bit z i) := inferInstanceAs (Decidable (_ = _))

/-- An integer is determined by its bits, so bitwise specifications are complete. -/
theorem bit_ext {a b : Int} (h : ∀ i, bit a i ↔ bit b i) : a = b := by
  have key : ∀ n : Nat, ∀ a b : Int, (-(2:Int) ^ n ≤ a ∧ a < 2 ^ n) → (-(2:Int) ^ n ≤ b ∧ b < 2 ^ n) →
      (∀ i, bit a i ↔ bit b i) → a = b := by
    intro n
    induction n with
    | zero =>
      intro a b ha hb h
      have h0 := h 0
      simp [bit] at h0 ha hb
      omega
    | succ n ih =>
      intro a b ha hb h
      have e : a / 2 = b / 2 := by
        apply ih
        · rw [Int.pow_succ] at ha; omega
        · rw [Int.pow_succ] at hb; omega
        · intro i
          have := h (i + 1)
          simp only [bit, Int.pow_succ'] at this ⊢
          rwa [Int.ediv_ediv_of_nonneg (by decide), Int.ediv_ediv_of_nonneg (by decide)]
      have h0 := h 0
      simp [bit] at h0
      omega
  have bound : ∀ z : Int, ∃ n : Nat, ∀ m : Nat, n ≤ m → -(2:Int) ^ m ≤ z ∧ z < 2 ^ m := by
    intro z
    refine ⟨z.natAbs, fun m hm => ?_⟩
    have h1 : m < 2 ^ m := Nat.lt_two_pow_self
    have h2 : ((2 ^ m : Nat) : Int) = (2 : Int) ^ m := by simp
    omega
  obtain ⟨n, hn⟩ := bound a
  obtain ⟨m, hm⟩ := bound b
  exact key (max n m) a b (hn _ (Nat.le_max_left _ _)) (hm _ (Nat.le_max_right _ _)) h

end Bic.Spec
