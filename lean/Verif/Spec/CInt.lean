import Verif.Model.CType
/-!
# What C says about integer types (specification)

Stated with widths and value ranges, without reference to bytes, `encode` or
`decode`.  The representation of types on x86-64 (System V ABI, LP64).
-/

namespace Bic.Spec

/-- width in bits of the integer types and of pointers (LP64) -/
def width : CT → Nat
  | .char | .uchar => 8
  | .short | .ushort => 16
  | .int | .uint => 32
  | .long | .longlong | .ulong | .ulonglong | .ptr => 64
  | _ => 0

/-- signed integer types (plain `char` is signed) -/
def signed : CT → Prop
  | .char | .short | .int | .long | .longlong => True
  | _ => False

/-- the ten integer types -/
def integral : CT → Prop
  | .char | .short | .int | .long | .longlong
  | .uchar | .ushort | .uint | .ulong | .ulonglong => True
  | _ => False

instance : DecidablePred signed := fun c => by cases c <;> unfold signed <;> infer_instance
instance : DecidablePred integral := fun c => by cases c <;> unfold integral <;> infer_instance

/-- smallest value of the type -/
def lo (c : CT) : Int := if signed c then -(2 ^ (width c - 1)) else 0

/-- one more than the largest value of the type -/
def hi (c : CT) : Int := if signed c then 2 ^ (width c - 1) else 2 ^ width c

/-- `v` is a value of type `c` -/
def InRange (c : CT) (v : Int) : Prop := lo c ≤ v ∧ v < hi c

instance (c v) : Decidable (InRange c v) := inferInstanceAs (Decidable (_ ∧ _))

/-- `w` is the result of converting `v` to type `c`: the value of `c` that differs
from `v` by a multiple of `2^width`. -/
def Converts (c : CT) (v w : Int) : Prop := InRange c w ∧ ∃ k : Int, v = w + k * 2 ^ width c

/-- There is only one such value, so `Converts` really specifies a function. -/
theorem Converts.unique {c : CT} {v w w' : Int} (hi' : integral c ∨ c = .ptr)
    (h : Converts c v w) (h' : Converts c v w') : w = w' := by
  obtain ⟨⟨h1, h2⟩, k, hk⟩ := h
  obtain ⟨⟨h3, h4⟩, k', hk'⟩ := h'
  rcases hi' with h | rfl
  · cases c <;> simp [integral] at h <;>
      simp [lo, hi, signed, width] at h1 h2 h3 h4 hk hk' <;> omega
  · simp [lo, hi, signed, width] at h1 h2 h3 h4 hk hk'; omega

/-- Converting a value of the type changes nothing. -/
theorem Converts.self {c : CT} {v : Int} (h : InRange c v) : Converts c v v :=
  ⟨h, 0, by omega⟩

/-- the number written by the bytes, least significant first -/
def leValue : List (Fin 256) → Int
  | [] => 0
  | b :: bs => b.val + 256 * leValue bs

/-- the bytes are the representation of the value `w` of type `c` -/
def Represents (c : CT) (bs : List (Fin 256)) (w : Int) : Prop :=
  8 * bs.length = width c ∧ Converts c (leValue bs) w

end Bic.Spec
