import Mathlib.Data.List.Basic
/-!
# What lists are supposed to do

A collection of finite sequences, each named by its list object, and the operations
on them.  Nothing here knows about pointers.
-/

namespace Bic
namespace Seqs

/-- the sequence of each list -/
abbrev State := Nat → Option (List Nat)

/-- the operations of the list interface -/
inductive Op where
  | init (a : Nat)
  | prepend (new head : Nat)
  | append (new head : Nat)
  | delete (e : Nat)
  | moveAll (dest src : Nat)
  | single (e marker : Nat)
deriving DecidableEq

/-- `a` is neither an element of a list nor a list with elements -/
def Unused (A : State) (a : Nat) : Prop :=
  (A a = none ∨ A a = some []) ∧ ∀ head l, A head = some l → a ∉ l

/-- replace the sequence of one list -/
def State.set (A : State) (a : Nat) (l : Option (List Nat)) : State := fun b => if b = a then l else A b

/-- the effect of an operation on the sequences -/
inductive Does : State → Op → State → Prop
  /-- make `a` an empty list -/
  | init {A a} : Unused A a → Does A (.init a) (A.set a (some []))
  /-- put `new` at the front; it must not be in use -/
  | prepend {A new head l} : A head = some l → new ≠ head → Unused A new →
      Does A (.prepend new head) ((A.set new none).set head (some (new :: l)))
  /-- put `new` at the end -/
  | append {A new head l} : A head = some l → new ≠ head → Unused A new →
      Does A (.append new head) ((A.set new none).set head (some (l ++ [new])))
  /-- take `e` out of the list it is in -/
  | delete {A e head l₁ l₂} : A head = some (l₁ ++ e :: l₂) → Does A (.delete e) (A.set head (some (l₁ ++ l₂)))
  /-- move the elements of `src` to the end of `dest` -/
  | moveAll {A dest src ld ls} : A dest = some ld → A src = some ls → dest ≠ src →
      Does A (.moveAll dest src) ((A.set src (some [])).set dest (some (ld ++ ls)))
  /-- make a list `marker` with the one element `e` -/
  | single {A B C e marker} : Does A (.init marker) B → Does B (.prepend e marker) C → Does A (.single e marker) C

/-- a history of operations -/
inductive Trace : State → List Op → State → Prop
  | nil {A} : Trace A [] A
  | cons {A B C op ops} : Does A op B → Trace B ops C → Trace A (op :: ops) C

end Seqs
end Bic
