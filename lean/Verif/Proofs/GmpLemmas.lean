import Verif.Model.Gmp
import Verif.Spec.Bits
/-!
# The GMP functions of the model meet their specifications
-/

namespace Bic
open Spec

theorem bit_ofNat (n i : Nat) : bit (Int.ofNat n) i ↔ n.testBit i = true := by
  unfold bit
  rw [Nat.testBit_eq_decide_div_mod_eq, decide_eq_true_eq]
  have : (Int.ofNat n / 2 ^ i : Int) = ((n / 2 ^ i : Nat) : Int) := by
    simp [Int.natCast_ediv, Int.natCast_pow]
  rw [this]
  omega

theorem bit_negSucc (n i : Nat) : bit (Int.negSucc n) i ↔ n.testBit i = false := by
  have hp : (0 : Int) < 2 ^ i := Int.pow_pos (by decide)
  have : (Int.negSucc n / 2 ^ i : Int) = -((n / 2 ^ i : Nat) : Int) - 1 := by
    have h1 : Int.negSucc n = -(n : Int) - 1 := by omega
    have h2 : (n : Int) = 2 ^ i * ((n / 2 ^ i : Nat) : Int) + ((n % 2 ^ i : Nat) : Int) := by
      have := Nat.div_add_mod n (2 ^ i)
      have h3 : ((2 ^ i : Nat) : Int) = (2 : Int) ^ i := by simp
      rw [← h3, ← Int.natCast_mul, ← Int.natCast_add, this]
    have h4 : n % 2 ^ i < 2 ^ i := Nat.mod_lt _ (Nat.pow_pos (by decide))
    have h5 : ((2 ^ i : Nat) : Int) = (2 : Int) ^ i := by simp
    have h6 : ((n % 2 ^ i : Nat) : Int) < 2 ^ i := by rw [← h5]; omega
    apply Int.ediv_emod_unique hp |>.mpr ?_ |>.1
    exact 2 ^ i - 1 - ((n % 2 ^ i : Nat) : Int)
    refine ⟨?_, by omega, by omega⟩
    rw [h1, h2, Int.mul_sub, Int.mul_neg, Int.mul_one]
    generalize (2 : Int) ^ i * ((n / 2 ^ i : Nat) : Int) = q
    have h7 : ((2 ^ i * (n / 2 ^ i) + n % 2 ^ i : Nat) : Int) = n := by rw [Nat.div_add_mod]
    omega
  unfold bit
  rw [this, Nat.testBit_eq_decide_div_mod_eq, decide_eq_false_iff_not]
  omega

theorem testBit_natAndNot (a b i : Nat) :
    (natAndNot a b).testBit i = (a.testBit i && !b.testBit i) := by
  unfold natAndNot
  rw [Nat.testBit_xor, Nat.testBit_and]
  cases a.testBit i <;> cases b.testBit i <;> rfl

theorem bit_mpzAnd (a b : Int) (i : Nat) : bit (mpzAnd a b) i ↔ (bit a i ∧ bit b i) := by
  cases a <;> cases b <;>
    simp [mpzAnd, bit_ofNat, bit_negSucc, testBit_natAndNot, -Int.ofNat_eq_natCast, and_comm]

theorem bit_mpzIor (a b : Int) (i : Nat) : bit (mpzIor a b) i ↔ (bit a i ∨ bit b i) := by
  cases a <;> cases b <;>
    simp [mpzIor, bit_ofNat, bit_negSucc, testBit_natAndNot, -Int.ofNat_eq_natCast]
  · rename_i a b
    cases a.testBit i <;> cases b.testBit i <;> decide
  · rename_i a b
    cases a.testBit i <;> cases b.testBit i <;> decide
  · rename_i a b
    cases a.testBit i <;> cases b.testBit i <;> decide

theorem bit_mpzXor (a b : Int) (i : Nat) : bit (mpzXor a b) i ↔ ¬ (bit a i ↔ bit b i) := by
  cases a <;> cases b <;>
    simp [mpzXor, bit_ofNat, bit_negSucc, -Int.ofNat_eq_natCast] <;> rename_i a b <;>
    cases a.testBit i <;> cases b.testBit i <;> decide

theorem bit_mpzCom (a : Int) (i : Nat) : bit (mpzCom a) i ↔ ¬ bit a i := by
  have : mpzCom a = match a with
      | .ofNat n => .negSucc n
      | .negSucc n => .ofNat n := by
    cases a <;> simp [mpzCom] <;> omega
  rw [this]
  cases a <;> simp [bit_ofNat, bit_negSucc, -Int.ofNat_eq_natCast]

/-- in the range of `long`, `mpz_get_si` is exact -/
theorem mpzGetSi_eq {z : Int} (h1 : -2 ^ 63 ≤ z) (h2 : z < 2 ^ 63) : mpzGetSi z = z := by
  unfold mpzGetSi; split <;> omega

theorem mpzGetSi_range (z : Int) : -2 ^ 63 ≤ mpzGetSi z ∧ mpzGetSi z < 2 ^ 63 := by
  unfold mpzGetSi; split <;> omega

/-- `mpz_get_si` is zero exactly for the multiples of 2^63 -/
theorem mpzGetSi_eq_zero {z : Int} : mpzGetSi z = 0 ↔ 0 ≤ z ∧ z % 2 ^ 63 = 0 := by
  unfold mpzGetSi; split <;> omega

theorem mpzGetUi_eq {z : Int} (h1 : 0 ≤ z) (h2 : z < 2 ^ 64) : (mpzGetUi z : Int) = z := by
  unfold mpzGetUi; omega

end Bic
