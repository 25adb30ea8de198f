import Verif.Model.Dump
/-!
# Dumps of trees (specification)

Which trees fit a language description, and what the graph of a tree is to contain.
-/

namespace Bic.Dump
open LangGen
open Bic.Lexer (Str bytes)

/-- `Sub s o`: `s` is part of the tree `o` -/
inductive Sub {α : Type} : Obj α → Obj α → Prop
  | refl (o) : Sub o o
  | field {s v a t vs} : v ∈ vs → Sub s v → Sub s (.node a t vs)
  | elem {s e a es} : e ∈ es → Sub s e → Sub s (.chain a es)

/-- the content of a field is of the type of its property -/
def FieldFits {α} (p : String × Inst) : Obj α → Prop
  | .data x => p.2.baseType.isTree = false ∧ x.base = p.2.baseType.name
  | _ => p.2.baseType.isTree = true

/-- the fields of a type are filled -/
def FieldsFit {α} : List (String × Inst) → List (Obj α) → Prop
  | [], [] => True
  | p :: ps, v :: vs => FieldFits p v ∧ FieldsFit ps vs
  | _, _ => False

/-- the tree itself fits the types `L`; the elements of a chain are trees -/
def FitsHere {α} (L : List TreeType) : Obj α → Prop
  | .node _ t vs => t ∈ L ∧ t.name ≠ "CHAIN_HEAD" ∧ FieldsFit t.props vs
  | .chain _ es => ∀ e ∈ es, e ≠ .null ∧ ∀ x, e ≠ .data x
  | _ => True

/-- a tree, all of whose parts fit the types `L` -/
def Fits {α} (L : List TreeType) (o : Obj α) : Prop := (∀ x, o ≠ .data x) ∧ ∀ s, Sub s o → FitsHere L s

/-- the names of the types are different identifiers -/
def GoodTypes (L : List TreeType) : Prop :=
  (∀ t ∈ L, ∀ c ∈ t.name.toList, isLD c = true) ∧ ∀ t ∈ L, ∀ t' ∈ L, t.name = t'.name → t = t'

/-- the texts of a datum are of one line -/
def Datum.OneLine : Datum → Prop
  | .str s => 10 ∉ s
  | .float s => 10 ∉ s
  | .live s => 10 ∉ s
  | _ => True

/-- no text has a newline and no chain is an element of a chain -/
def PlainHere {α} : Obj α → Prop
  | .data x => x.OneLine
  | .chain _ es => ∀ e ∈ es, ∀ a es', e ≠ .chain a es'
  | _ => True

def AllPlain {α} (o : Obj α) : Prop := ∀ s, Sub s o → PlainHere s

/-! ## The graph -/

/-- `x` is followed by `y` in the list -/
def Adj {α} (l : List α) (x y : α) : Prop := ∃ l1 l2, l = l1 ++ x :: y :: l2

/-- what the graph is to contain for the content of the property `p` of the tree at `a` -/
def FieldDrawn (a : Nat) (p : String) : Obj Nat → Stmt → Prop
  | .null, _ => False
  | .data x, s => s = .node (.val a) (x.print true) ∨ s = .edge (.tree a) (.val a) (bytes p)
  | .node b _ _, s => s = .edge (.tree a) (.tree b) (bytes p)
  | .chain _ (e :: _), s => s = .edge (.tree a) (.tree e.addr) (bytes p)
  | .chain b [], s => s = .edge (.tree a) (.tree b) (bytes p)

/-- what the graph is to contain for a tree itself: a node with the name of its type and its properties;
for a chain the edges from one element to the next -/
def Here : Obj Nat → Stmt → Prop
  | .node a t vs, s => s = .node (.tree a) (bytes t.name) ∨ ∃ p v, (p, v) ∈ t.props.zip vs ∧ FieldDrawn a p.1 v s
  | .chain _ es, s => ∃ e e', Adj es e e' ∧ s = .next (.tree e.addr) (.tree e'.addr)
  | _, _ => False

/-- the graph of a tree -/
def Drawn (o : Obj Nat) (s : Stmt) : Prop := ∃ o', Sub o' o ∧ Here o' s

/-- the lines of the graph other than the grouping in clusters -/
def Stmt.isDrawn : Stmt → Bool
  | .sub _ _ => false
  | .close => false
  | _ => true

/-- every edge ends at nodes of the graph -/
def EdgesEnd (g : List Stmt) : Prop :=
  ∀ i j, (∃ l, .edge i j l ∈ g) ∨ .next i j ∈ g → (∃ l, .node i l ∈ g) ∧ ∃ l, .node j l ∈ g

/-- the content of every field that is not a tree is read off the graph: at the end of the edge with the
name of the property there is a node with the content as its only label -/
def ValuesShown (o : Obj Nat) (g : List Stmt) : Prop :=
  ∀ a t vs p x, Sub (.node a t vs) o → (p, .data x) ∈ t.props.zip vs →
    ∃ j, .edge (.tree a) j (bytes p.1) ∈ g ∧ ∀ l, .node j l ∈ g ↔ l = x.print true

/-- at one address there is one tree -/
def Addresses (o : Obj Nat) : Prop :=
  ∀ a t vs t' vs', Sub (.node a t vs) o → Sub (.node a t' vs') o → t = t' ∧ vs = vs'

/-- the number of properties that are not trees -/
def TreeType.dataProps (t : TreeType) : Nat := (t.props.filter fun p => !p.2.baseType.isTree).length

end Bic.Dump
