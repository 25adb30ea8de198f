import Verif.Proofs.Assign
/-!
# Values and their bytes
-/

namespace Bic
open Spec

/-- the `n` bytes at `a` -/
def bytesAt (m : Mem) (a : Nat) : Nat → List Byte
  | 0 => []
  | n + 1 => m.byte a :: bytesAt m (a + 1) n

@[simp] theorem bytesAt_length (m : Mem) (a n) : (bytesAt m a n).length = n := by
  induction n generalizing a with
  | zero => rfl
  | succ n ih => simp [bytesAt, ih]

theorem leValue_bytesAt (m : Mem) (a n) : leValue (bytesAt m a n) = m.load n a := by
  induction n generalizing a with
  | zero => rfl
  | succ n ih => simp [bytesAt, leValue, ih, Mem.load]

theorem width_size {c : CT} (h : integral c ∨ c = .ptr) : 8 * c.size = width c := by
  rcases h with h | rfl
  · cases c <;> simp [integral] at h <;> rfl
  · rfl

theorem decode_converts {c : CT} (h : integral c ∨ c = .ptr) {raw : Nat} (hr : raw < c.modulus) :
    Converts c raw (c.decode raw) := by
  have := CT.decode_encode_converts h (raw : Int)
  have e : c.encode (raw : Int) = raw := by
    unfold CT.encode
    rw [Int.emod_eq_of_lt (by omega) (by omega)]; rfl
  rwa [e] at this

/-- a variable holds exactly the value its bytes represent -/
theorem LvAt.holds_iff {s : St} {t τ c a} (h : LvAt s t τ c a) (w : Int) :
    Holds s t c w ↔ Represents c (bytesAt s.mem a c.size) w := by
  have hd := decode_converts h.int (Mem.load_lt s.mem c.size a)
  constructor
  · intro h'
    have : w = c.decode (s.mem.load c.size a) := (h'.unique ⟨τ, a, h, rfl⟩).2
    subst this
    exact ⟨by rw [bytesAt_length, width_size h.int], by rw [leValue_bytesAt]; exact hd⟩
  · rintro ⟨_, h2⟩
    rw [leValue_bytesAt] at h2
    exact ⟨τ, a, h, Converts.unique h.int h2 hd⟩

end Bic
