import Verif.Model.CType
/-!
# Layout of structures and unions (specification)

The rules of the System V ABI for x86-64, stated without reference to the
algorithm of the evaluator.
-/

namespace Bic.Spec

/-- size of the basic types -/
def abiSize : CT → Nat
  | .char | .uchar => 1
  | .short | .ushort => 2
  | .int | .uint | .float => 4
  | .long | .longlong | .ulong | .ulonglong | .double | .ptr => 8
  | .longdouble => 16

/-- alignment of the basic types -/
def abiAlign : CT → Nat
  | .char | .uchar => 1
  | .short | .ushort => 2
  | .int | .uint | .float => 4
  | .long | .longlong | .ulong | .ulonglong | .double | .ptr => 8
  | .longdouble => 16

/-- types of members: a basic type or an array of `n` objects of a basic type -/
inductive MTy where
  | val (c : CT)
  | arr (c : CT) (n : Nat)
deriving DecidableEq, Repr

namespace MTy

def size : MTy → Nat
  | val c => abiSize c
  | arr c n => abiSize c * n

/-- an array is aligned like its elements -/
def align : MTy → Nat
  | val c => abiAlign c
  | arr c _ => abiAlign c

end MTy

/-- `o` is the least multiple of `a` that is at least `e` -/
def IsNext (a e o : Nat) : Prop := e ≤ o ∧ a ∣ o ∧ ∀ o', e ≤ o' → a ∣ o' → o ≤ o'

/-- `Placed e ms os e'`: placing the members `ms` one after the other from `e` on,
each at the next address suitable for it, gives the offsets `os` and ends at `e'`. -/
inductive Placed : Nat → List MTy → List Nat → Nat → Prop
  | nil (e) : Placed e [] [] e
  | cons {e m ms o os e'} : IsNext m.align e o → Placed (o + m.size) ms os e' → Placed e (m :: ms) (o :: os) e'

/-- the offsets and the size of a structure according to the ABI: the size is
rounded up to the strictest alignment of a member -/
def AbiStruct (ms : List MTy) (os : List Nat) (size : Nat) : Prop :=
  ∃ e a, Placed 0 ms os e ∧ (∀ m ∈ ms, m.align ≤ a) ∧ (∃ m ∈ ms, m.align = a) ∧ IsNext a e size

/-- the members occupy disjoint byte ranges, in order, within `size` bytes -/
inductive InOrder : Nat → List MTy → List Nat → Nat → Prop
  | nil {e size} : e ≤ size → InOrder e [] [] size
  | cons {e m ms o os size} : e ≤ o → InOrder (o + m.size) ms os size → InOrder e (m :: ms) (o :: os) size

/-- `n` is the largest of the sizes -/
def IsMaxSize (ms : List MTy) (n : Nat) : Prop := (∀ m ∈ ms, m.size ≤ n) ∧ ∃ m ∈ ms, m.size = n

end Bic.Spec
