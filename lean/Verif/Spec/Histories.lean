import Verif.Spec.Reach
/-!
# What the rest of the program may do with the collector
-/

namespace Bic
namespace Gc

/-- `calloc` returns an address no live object has; the fields written refer to live
objects; only live objects are written to -/
def Legal (s : State) : Ev → Prop
  | .alloc a stack statics => a ≠ 0 ∧ ∀ fuel s1, maybeCollect fuel stack statics s = .ok s1 → s1.heap a = none
  | .write a o => (s.heap a).isSome ∧ ∀ b, b ≠ 0 → (b = o.file ∨ b ∈ o.kids) → (s.heap b).isSome
  | .inhibit => True
  | .enable => True

/-- the states reached from program start by legal events taking place in states with
property `P` -/
inductive Hist (P : State → Prop) : State → Prop
  | start : Hist P init
  | event {s : State} {e : Ev} {fuel : Nat} {s' : State} : Hist P s → P s → Legal s e → step fuel e s = .ok s' → Hist P s'

/-- no restriction -/
abbrev Any : State → Prop := fun _ => True

/-- fewer than 10000 table entries are in use -/
abbrev Small : State → Prop := fun s => s.ptr < 10000

/-- the change in nesting an event makes -/
def Ev.nest : Ev → Int
  | .inhibit => 1
  | .enable => -1
  | _ => 0

/-- no prefix of the events has more enables than inhibits -/
def Nested (es : List Ev) : Prop := ∀ l, l <+: es → 0 ≤ (l.map Ev.nest).sum

/-- the event allocates or writes the object at `a` -/
def Ev.touches (a : Nat) : Ev → Prop
  | .alloc b _ _ => b = a
  | .write b _ => b = a
  | _ => False

end Gc
end Bic
