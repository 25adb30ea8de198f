import Verif.Spec.CInt
/-!
# Lemmas on representations and memory
-/

namespace Bic
open Spec

namespace CT

theorem isInt_iff {c : CT} : c.isInt = true ↔ integral c := by
  cases c <;> simp [isInt, integral]

theorem modulus_eq {c : CT} (h : integral c ∨ c = .ptr) : (c.modulus : Int) = 2 ^ width c := by
  rcases h with h | rfl
  · cases c <;> simp [integral] at h <;> rfl
  · rfl

theorem modulus_pos (c : CT) : 0 < c.modulus := Nat.pow_pos (by decide)

theorem encode_lt (c : CT) (v : Int) : c.encode v < c.modulus := by
  have := modulus_pos c
  unfold encode
  have h := Int.emod_lt_of_pos v (b := (c.modulus : Int)) (by omega)
  have h' := Int.emod_nonneg v (b := (c.modulus : Int)) (by omega)
  omega

theorem encode_int (c : CT) (v : Int) : ((c.encode v : Nat) : Int) = v % (c.modulus : Int) := by
  have := modulus_pos c
  have h' := Int.emod_nonneg v (b := (c.modulus : Int)) (by omega)
  unfold encode; omega

theorem isSigned_iff {c : CT} : c.isSigned = true ↔ signed c := by
  cases c <;> simp [isSigned, signed]

theorem bounds_signed {c : CT} (h : signed c) : (c.modulus : Int) = 2 * hi c ∧ lo c = - hi c := by
  cases c <;> simp only [signed] at h <;> exact ⟨by decide, by decide⟩

theorem bounds_unsigned {c : CT} (h : integral c ∨ c = .ptr) (hs : ¬ signed c) :
    (c.modulus : Int) = hi c ∧ lo c = 0 := by
  rcases h with h | rfl
  · cases c <;> simp only [integral, signed, not_true] at h hs <;> exact ⟨by decide, by decide⟩
  · exact ⟨by decide, by decide⟩

theorem decode_inRange {c : CT} (h : integral c ∨ c = .ptr) {raw : Nat} (hr : raw < c.modulus) :
    InRange c (c.decode raw) := by
  unfold InRange decode
  by_cases hs : signed c
  · have ⟨h1, h2⟩ := bounds_signed hs
    rw [isSigned_iff.mpr hs, Bool.true_and]
    split <;> simp_all <;> omega
  · have ⟨h1, h2⟩ := bounds_unsigned h hs
    have : c.isSigned = false := by
      cases hc : c.isSigned
      · rfl
      · exact absurd (isSigned_iff.mp hc) hs
    rw [this, Bool.false_and, if_neg (by simp)]
    omega

/-- `decode` of the encoding is the C conversion. -/
theorem decode_encode_converts {c : CT} (h : integral c ∨ c = .ptr) (v : Int) :
    Converts c v (c.decode (c.encode v)) := by
  refine ⟨decode_inRange h (encode_lt c v), ?_⟩
  have hm := modulus_eq h
  have he := encode_int c v
  have hd : v = c.modulus * (v / c.modulus) + v % c.modulus := (Int.mul_ediv_add_emod _ _).symm
  unfold decode
  rw [← hm]
  split
  · refine ⟨v / c.modulus + 1, ?_⟩
    rw [he, Int.add_mul, Int.mul_comm (v / _)]
    omega
  · refine ⟨v / c.modulus, ?_⟩
    rw [he, Int.mul_comm (v / _)]
    omega

theorem encode_decode {c : CT} {raw : Nat} (hr : raw < c.modulus) :
    c.encode (c.decode raw) = raw := by
  have hp := modulus_pos c
  have : ((c.encode (c.decode raw) : Nat) : Int) = raw := by
    rw [encode_int]
    unfold decode
    split
    · rw [← Int.add_emod_right, Int.sub_add_cancel]
      exact Int.emod_eq_of_lt (by omega) (by omega)
    · exact Int.emod_eq_of_lt (by omega) (by omega)
  omega

/-- a value in range is what its encoding decodes to -/
theorem decode_encode_of_inRange {c : CT} (h : integral c ∨ c = .ptr) {v : Int}
    (hv : InRange c v) : c.decode (c.encode v) = v :=
  Converts.unique h (decode_encode_converts h v) (Converts.self hv)

theorem decode_inj {c : CT} {r r' : Nat} (h : r < c.modulus) (h' : r' < c.modulus)
    (e : c.decode r = c.decode r') : r = r' := by
  rw [← encode_decode h, ← encode_decode h', e]

/-- encoding only depends on the value modulo the modulus -/
theorem encode_congr {c : CT} {v w : Int} (h : v % c.modulus = w % c.modulus) :
    c.encode v = c.encode w := by
  unfold encode; rw [h]

end CT

theorem toPtrdiff_of_inRange {v : Int} (h : InRange .long v) : toPtrdiff v = v :=
  CT.decode_encode_of_inRange (c := .long) (.inl trivial) h

theorem inRange_long_of {c : CT} (h : integral c) (hne : c ≠ .ulong) (hne' : c ≠ .ulonglong)
    {v : Int} (hv : InRange c v) : InRange .long v := by
  cases c <;> simp [integral] at h <;> simp at hne hne' <;>
    simp [InRange, lo, hi, signed, width] at hv ⊢ <;> omega

namespace Mem

@[simp] theorem setByte_live (m : Mem) (a b) : (m.setByte a b).live = m.live := rfl
@[simp] theorem setByte_brk (m : Mem) (a b) : (m.setByte a b).brk = m.brk := rfl

@[simp] theorem store_live (m : Mem) (n a v) : (m.store n a v).live = m.live := by
  induction n generalizing m a v with
  | zero => rfl
  | succ n ih => simp [store, ih]

@[simp] theorem store_brk (m : Mem) (n a v) : (m.store n a v).brk = m.brk := by
  induction n generalizing m a v with
  | zero => rfl
  | succ n ih => simp [store, ih]

@[simp] theorem storeBytes_live (m : Mem) (a bs) : (m.storeBytes a bs).live = m.live := by
  induction bs generalizing m a with
  | nil => rfl
  | cons b bs ih => simp [storeBytes, ih]

@[simp] theorem storeBytes_brk (m : Mem) (a bs) : (m.storeBytes a bs).brk = m.brk := by
  induction bs generalizing m a with
  | nil => rfl
  | cons b bs ih => simp [storeBytes, ih]

theorem store_byte_other (m : Mem) (n a v x) (h : x < a ∨ a + n ≤ x) :
    (m.store n a v).byte x = m.byte x := by
  induction n generalizing m a v with
  | zero => rfl
  | succ n ih =>
    rw [store, ih _ _ _ (by omega)]
    simp [setByte]; intro e; omega

theorem storeBytes_byte_other (m : Mem) (a bs x) (h : x < a ∨ a + bs.length ≤ x) :
    (m.storeBytes a bs).byte x = m.byte x := by
  induction bs generalizing m a with
  | nil => rfl
  | cons b bs ih =>
    simp only [List.length_cons] at h
    rw [storeBytes, ih _ _ (by omega)]
    simp [setByte]; intro e; omega

/-- `load` only looks at the bytes it covers -/
theorem load_congr {m m' : Mem} {n a : Nat} (h : ∀ x, a ≤ x → x < a + n → m.byte x = m'.byte x) :
    m.load n a = m'.load n a := by
  induction n generalizing a with
  | zero => rfl
  | succ n ih =>
    rw [load, load, h a (by omega) (by omega), ih (fun x h1 h2 => h x (by omega) (by omega))]

theorem load_lt (m : Mem) (n a : Nat) : m.load n a < 256 ^ n := by
  induction n generalizing a with
  | zero => simp [load]
  | succ n ih =>
    have h1 := ih (a + 1)
    have h2 := (m.byte a).isLt
    rw [load, Nat.pow_succ]; omega

theorem load_store (m : Mem) (n a v : Nat) : (m.store n a v).load n a = v % 256 ^ n := by
  induction n generalizing m a v with
  | zero => simp [load, Nat.mod_one]
  | succ n ih =>
    rw [store, load, store_byte_other _ _ _ _ _ (by omega), ih]
    simp only [setByte, if_pos]
    show v % 256 + 256 * (v / 256 % 256 ^ n) = v % 256 ^ (n + 1)
    rw [Nat.pow_succ, Nat.mul_comm (256 ^ n) 256, Nat.mod_mul]

/-- writing one range leaves a disjoint range alone -/
theorem load_store_disj (m : Mem) {n a v k b : Nat} (h : b + k ≤ a ∨ a + n ≤ b) :
    (m.store n a v).load k b = m.load k b :=
  load_congr fun x h1 h2 => store_byte_other _ _ _ _ _ (by omega)

/-- loading fewer bytes gives the value modulo -/
theorem load_mod (m : Mem) {k n : Nat} (h : k ≤ n) (a : Nat) : m.load n a % 256 ^ k = m.load k a := by
  induction k generalizing n a with
  | zero => simp [load, Nat.mod_one]
  | succ k ih =>
    obtain ⟨n, rfl⟩ : ∃ n', n = n' + 1 := ⟨n - 1, by omega⟩
    rw [load, load, ← ih (n := n) (by omega) (a + 1), Nat.pow_succ, Nat.mul_comm (256 ^ k) 256,
      Nat.mod_mul]
    have := (m.byte a).isLt
    rw [Nat.add_mul_mod_self_left, Nat.mod_eq_of_lt this, Nat.add_mul_div_left _ _ (by decide),
      Nat.div_eq_of_lt this, Nat.zero_add]

theorem ok_iff (m : Mem) (n a : Nat) : m.ok n a = true ↔ ∀ x, a ≤ x → x < a + n → m.live x = true := by
  induction n generalizing a with
  | zero => simp [ok]; intro x h1 h2; omega
  | succ n ih =>
    simp only [ok, Bool.and_eq_true, ih]
    constructor
    · intro ⟨h1, h2⟩ x h3 h4
      by_cases hx : x = a
      · subst hx; exact h1
      · exact h2 x (by omega) (by omega)
    · intro h
      exact ⟨h a (by omega) (by omega), fun x h1 h2 => h x (by omega) (by omega)⟩

theorem ok_mono {m : Mem} {n k a : Nat} (h : m.ok n a = true) (hk : k ≤ n) : m.ok k a = true := by
  rw [ok_iff] at h ⊢; intro x h1 h2; exact h x h1 (by omega)

theorem ok_congr {m m' : Mem} (h : m.live = m'.live) (n a) : m.ok n a = m'.ok n a := by
  induction n generalizing a with
  | zero => rfl
  | succ n ih => simp [ok, h, ih]

end Mem
end Bic
