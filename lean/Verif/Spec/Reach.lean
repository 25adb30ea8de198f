import Verif.Model.Gc
import Mathlib.Logic.Relation
/-!
# Reachability between objects
-/

namespace Bic
namespace Gc

/-- the object at `a` refers to the address `b` -/
def Edge (h : Heap) (a b : Nat) : Prop := ∃ o, h a = some o ∧ b ≠ 0 ∧ (b = o.file ∨ b ∈ o.kids)

/-- `b` is found by following references from `a` -/
abbrev Reach (h : Heap) : Nat → Nat → Prop := Relation.ReflTransGen (Edge h)

/-- no object is found by following references from itself -/
def Acyclic (h : Heap) : Prop := ∀ a, ¬ Relation.TransGen (Edge h) a a

/-- references lead to live objects -/
def Closed (h : Heap) : Prop := ∀ a b, Edge h a b → (h b).isSome = true

/-- `x` can be reached from one of the words in `roots` that is the address of a live
object -/
def Rooted (h : Heap) (roots : List Nat) (x : Nat) : Prop := ∃ w ∈ roots, (h w).isSome = true ∧ Reach h w x

end Gc
end Bic
