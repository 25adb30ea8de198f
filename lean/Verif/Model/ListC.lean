import Mathlib.Logic.Function.Basic
/-!
# Doubly linked lists

`/repo/src/list.h`, `/repo/src/list.c` and the chain functions of
`/repo/src/tree.h:119-171` and `/repo/src/tree.c:5-11`, at the level of pointers.
A `struct list` (list.h:11-13) is identified by its address; `list_entry`
(list.h:34-35) and `&t->chain` only convert between a tree and the list object
inside it, so both have the same identity here.
-/

namespace Bic
namespace ListC

/-- A `list *`; `none` is NULL. -/
abbrev Ptr := Option Nat

/-- The `next` and `prev` fields of all list objects (list.h:11-13). -/
structure Heap where
  next : Nat → Ptr
  prev : Nat → Ptr

/-- `p->next`; no result if `p` is NULL (undefined behaviour). -/
def getNext (h : Heap) (p : Ptr) : Option Ptr := p.map h.next

/-- `p->prev` -/
def getPrev (h : Heap) (p : Ptr) : Option Ptr := p.map h.prev

/-- `p->next = v` -/
def setNext (p v : Ptr) (h : Heap) : Option Heap :=
  p.map fun a => { h with next := Function.update h.next a v }

/-- `p->prev = v` -/
def setPrev (p v : Ptr) (h : Heap) : Option Heap :=
  p.map fun a => { h with prev := Function.update h.prev a v }

/-- `INIT_LIST(ptr)` (list.h:21-23) -/
def initList (p : Ptr) (h : Heap) : Option Heap := do
  let h ← setNext p p h
  setPrev p p h

/-- `_list_add(new, prev, next)` (list.c:4-10), in the order of the statements. -/
def listAdd3 (new prev next : Ptr) (h : Heap) : Option Heap := do
  let h ← setPrev next new h
  let h ← setPrev new prev h
  let h ← setNext new next h
  setNext prev new h

/-- `list_add(new, head)` (list.c:12-15) -/
def listAdd (new head : Ptr) (h : Heap) : Option Heap := do
  let n ← getNext h head
  listAdd3 new head n h

/-- `list_add_tail(new, head)` (list.c:17-20) -/
def listAddTail (new head : Ptr) (h : Heap) : Option Heap := do
  let p ← getPrev h head
  listAdd3 new p head h

/-- `list_del(entry)` (list.c:22-28) -/
def listDel (e : Ptr) (h : Heap) : Option Heap := do
  -- entry->prev->next = entry->next
  let p ← getPrev h e
  let n ← getNext h e
  let h ← setNext p n h
  -- entry->next->prev = entry->prev
  let n ← getNext h e
  let p ← getPrev h e
  let h ← setPrev n p h
  let h ← setNext e none h
  setPrev e none h

/-- `list_splice(from, head)` (list.c:30-40) -/
def listSplice (from' head : Ptr) (h : Heap) : Option Heap := do
  let first ← getNext h from'
  let end' ← getPrev h from'
  let h ← setPrev first head h
  let h ← setNext head first h
  let hn ← getNext h head
  let h ← setNext end' hn h
  let hn ← getNext h head
  setPrev hn end' h

/-- `list_empty(head)` (list.c:42-45) -/
def listEmpty (head : Ptr) (h : Heap) : Option Bool := do
  let n ← getNext h head
  pure (n = head)

/-- The positions `list_for_each(pos, head, member)` (list.h:37-40) visits when its
body changes no list, starting with the candidate `pos`.  `none`: NULL is
dereferenced, or the loop has not ended after `fuel` rounds. -/
def visit (h : Heap) (head : Nat) : Nat → Ptr → Option (List Nat)
  | 0, _ => none
  | _ + 1, none => none
  | n + 1, some pos =>
    if pos = head then some []
    else do
      let l ← visit h head n (h.next pos)
      pure (pos :: l)

/-- `list_for_each(pos, head, member)` -/
def forEach (h : Heap) (head fuel : Nat) : Option (List Nat) :=
  visit h head fuel (h.next head)

/-- `tree_make` (tree.c:5-11) as far as the chain is concerned: the new tree's
list object is initialised. -/
def treeMake (t : Nat) (h : Heap) : Option Heap := initList (some t) h

/-- `tree_chain_head(head)` (tree.h:119-124); `marker` is the new CHAIN_HEAD tree. -/
def treeChainHead (t marker : Nat) (h : Heap) : Option Heap := do
  let h ← treeMake marker h
  listAdd (some t) (some marker) h

/-- `tree_chain(new, chain)` (tree.h:142-145) -/
def treeChain (new chain : Nat) (h : Heap) : Option Heap := listAddTail (some new) (some chain) h

/-- `tree_unchain(obj)` (tree.h:147-150) -/
def treeUnchain (t : Nat) (h : Heap) : Option Heap := listDel (some t) h

/-- `tree_splice_chains(dest, src)` (tree.h:159-167): `list_for_each_safe`
(list.h:42-46) with the current position `i` and the next one `n`. -/
def spliceLoop (dest src : Nat) : Nat → Ptr → Ptr → Heap → Option Heap
  | 0, _, _, _ => none
  | fuel + 1, i, n, h =>
    if i = some src then some h
    else do
      let i' ← i
      let h ← listDel i h
      let h ← treeChain i' dest h
      let n' ← getNext h n
      spliceLoop dest src fuel n n' h

/-- `tree_splice_chains(dest, src)` -/
def treeSpliceChains (dest src fuel : Nat) (h : Heap) : Option Heap := do
  let i ← getNext h (some src)
  let n ← getNext h i
  spliceLoop dest src fuel i n h

end ListC
end Bic
