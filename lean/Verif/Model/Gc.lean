import Mathlib.Data.List.Sort
/-!
# The garbage collector

`/repo/src/gc.c` and the `mark_object` written by `/repo/src/gengc.cpp`.  Addresses
are numbers, 0 is NULL.
-/

namespace Bic
namespace Gc

/-- A `struct gc_obj` (gc.h:17-20) as the collector sees it: `file` is
`tLOCUS(t).file`; `kids` are the trees `mark_object` passes to `mark_tree`, in order
(gengc.cpp:10-24 for the tree properties of the object's type, gengc.cpp:65-72 for
the elements of a CHAIN_HEAD); `frees` is the memory `dealloc_object` releases
together with the object when it is an E_ALLOC (gc.c:101-103); `uses` is the memory a
T_LIVE_VAR or T_LIVE_COMPOUND refers to (tLV_VAL, tLV_COMP_BASE: no tree properties,
so not among `kids`). -/
structure Obj where
  file : Nat
  kids : List Nat
  reach : Bool
  frees : Option Nat
  uses : Option Nat
deriving DecidableEq

/-- the live objects -/
abbrev Heap := Nat → Option Obj

def Heap.set (h : Heap) (a : Nat) (o : Option Obj) : Heap := fun b => if b = a then o else h b

/-- Outcome: `ub` is a NULL dereference, an access to a freed object, a read outside
the table or of a table entry never written; `fuel` means not finished within the
step budget. -/
inductive Res (α : Type) where
  | ok (a : α)
  | ub
  | fuel
deriving DecidableEq

instance : Monad Res where
  pure := .ok
  bind m f := match m with
    | .ok a => f a
    | .ub => .ub
    | .fuel => .fuel

/-- `mark_tree` (gc.c:11-22), open in `mark_object` -/
def markTree (mo : Nat → Heap → Res Heap) (a : Nat) (h : Heap) : Res Heap :=
  if a = 0 then .ok h
  else match h a with
    | none => .ub
    | some o => (if o.file = 0 then .ok h else mo o.file h) >>= mo a

/-- call `mark_tree` on each -/
def markTrees (mo : Nat → Heap → Res Heap) : List Nat → Heap → Res Heap
  | [], h => .ok h
  | a :: as, h => do
    let h ← markTree mo a h
    markTrees mo as h

/-- `mark_object` (gengc.cpp:45-78) with a budget for the depth of the recursion -/
def markObject : Nat → Nat → Heap → Res Heap
  | 0, _, _ => .fuel
  | n + 1, a, h =>
    if a = 0 then .ok h
    else match h a with
      | none => .ub
      | some o => do
        let h := h.set a (some { o with reach := true })
        let h ← markTree (markObject n) o.file h
        markTrees (markObject n) o.kids h

/-- an entry of the allocation table; `none`: never written -/
abbrev Cell := Option Nat

/-- the static variables of gc.c (5-8, 158) and the live objects.  `tab = none` is
`allocs == NULL`. -/
structure State where
  inhibited : Nat
  sz : Nat
  ptr : Nat
  tab : Option (List Cell)
  counter : Nat
  heap : Heap

/-- program start (gc.c:5-9) -/
def init : State :=
  { inhibited := 0, sz := 10000, ptr := 0, tab := none, counter := 0, heap := fun _ => none }

/-- the loop of libc's `bsearch` with `compare_allocs` (gc.c:24-35) on the table
entries `t`: `l` and `u` bound the rest to search.  The order is descending. -/
def bsearch (t : List Nat) (key : Nat) : Nat → Nat → Nat → Bool
  | 0, _, _ => false
  | n + 1, l, u =>
    if l < u then
      let idx := (l + u) / 2
      match t[idx]? with
      | none => false
      | some p =>
        -- compare_allocs(&key, p): 1 if key < p, -1 if key > p
        if key < p then bsearch t key n (idx + 1) u
        else if p < key then bsearch t key n l idx
        else true
    else false

/-- `is_object` (gc.c:37-44) for the first `ptr` table entries `t` -/
def isObject (t : List Nat) (w : Nat) : Bool := bsearch t w (t.length + 1) 0 t.length

/-- the words of a table section; `none` if one was never written -/
def words : List Cell → Option (List Nat)
  | [] => some []
  | c :: cs => do
    let a ← c
    let l ← words cs
    pure (a :: l)

/-- the loop `while (alloc_ptr > 0 && !allocs[alloc_ptr]) alloc_ptr--` (gc.c:137-138) -/
def runBack (tab : List Cell) : Nat → Res Nat
  | 0 => .ok 0
  | p + 1 =>
    match tab[p + 1]? with
    | none => .ub
    | some none => .ub
    | some (some 0) => runBack tab p
    | some (some _) => .ok (p + 1)

/-- the order `qsort` sorts by with `compare_allocs` (gc.c:24-35): descending -/
def sortDesc (l : List Nat) : List Nat := l.mergeSort (fun a b => decide (b ≤ a))

/-- `fixup_alloc_array` (gc.c:130-141).  `qsort` is assumed to sort. -/
def fixup (s : State) : Res State :=
  match s.tab with
  | none => .ub
  | some tab =>
    match words (tab.take s.ptr) with
    | none => .ub
    | some used => do
      let tab := (sortDesc used).map some ++ tab.drop s.ptr
      let p ← runBack tab s.ptr
      pure { s with tab := some tab, ptr := p + 1 }

/-- `mark_stack` (gc.c:59-66): each word of the stack -/
def markStack (fuel : Nat) (t : List Nat) : List Nat → Heap → Res Heap
  | [], h => .ok h
  | w :: ws, h => (if isObject t w then markObject fuel w h else .ok h) >>= markStack fuel t ws

/-- `mark_static` (gc.c:78-84): the value of each static tree variable -/
def markStatic (fuel : Nat) (t : List Nat) : List Nat → Heap → Res Heap
  | [], h => .ok h
  | w :: ws, h => (if isObject t w then markTree (markObject fuel) w h else .ok h) >>= markStatic fuel t ws

/-- `sweep` (gc.c:118-128) over the table entries; the result is the new entries and
the objects left -/
def sweep : List Nat → Heap → Res (List Nat × Heap)
  | [], h => .ok ([], h)
  | a :: as, h =>
    if a = 0 then .ub
    else match h a with
      | none => .ub
      | some o =>
        if o.reach then do
          let (l, h) ← sweep as (h.set a (some { o with reach := false }))
          pure (a :: l, h)
        else do
          let (l, h) ← sweep as (h.set a none)
          pure (0 :: l, h)

/-- `collect` (gc.c:143-154) with the words on the stack and in the static tree
variables -/
def collect (fuel : Nat) (stack statics : List Nat) (s : State) : Res State := do
  let s ← fixup s
  match s.tab with
  | none => .ub
  | some tab =>
    match words (tab.take s.ptr) with
    | none => .ub
    | some t => do
      let h ← markStack fuel t stack s.heap
      let h ← markStatic fuel t statics h
      let (t', h) ← sweep t h
      pure { s with tab := some (t'.map some ++ tab.drop s.ptr), heap := h }

/-- `maybe_collect` (gc.c:156-167) -/
def maybeCollect (fuel : Nat) (stack statics : List Nat) (s : State) : Res State :=
  if s.inhibited ≠ 0 then .ok s
  else
    let c := s.counter
    let s := { s with counter := c + 1 }
    if c > 2000 then do
      let s ← collect fuel stack statics s
      pure { s with counter := 0 }
    else .ok s

/-- `extend_allocs` (gc.c:169-176): `realloc` keeps the old entries, the new ones are
indeterminate; `memset` then clears `old_alloc_array_sz` bytes, which are
`old_alloc_array_sz / 8` entries (a partly cleared entry counts as never
written). -/
def extendAllocs (s : State) : State :=
  let old := s.sz
  let tab := (s.tab.getD [])
  { s with
    sz := old * 2
    tab := some (tab ++ (List.replicate (old / 8) (some 0) ++ List.replicate (old - old / 8) none)) }

/-- `track_new_alloc` (gc.c:178-187) -/
def trackNewAlloc (a : Nat) (s : State) : Res State :=
  let s := if s.tab.isNone then { s with tab := some (List.replicate s.sz (some 0)) } else s
  let s := if s.ptr ≥ s.sz then extendAllocs s else s
  match s.tab with
  | none => .ub
  | some tab =>
    if s.ptr < tab.length then .ok { s with tab := some (tab.set s.ptr (some a)), ptr := s.ptr + 1 }
    else .ub

/-- a new object as `calloc` leaves it -/
def Obj.fresh : Obj := { file := 0, kids := [], reach := false, frees := none, uses := none }

/-- `alloc_tree` (gc.c:202-208); `a` is the address `calloc` returns -/
def allocTree (fuel a : Nat) (stack statics : List Nat) (s : State) : Res State := do
  let s ← maybeCollect fuel stack statics s
  trackNewAlloc a { s with heap := s.heap.set a (some Obj.fresh) }

/-- `inhibit_gc` (gc.c:189-192) -/
def inhibitGc (s : State) : State := { s with inhibited := s.inhibited + 1 }

/-- `enable_gc` (gc.c:194-200) -/
def enableGc (s : State) : State := if s.inhibited = 0 then s else { s with inhibited := s.inhibited - 1 }

/-- What the rest of the program does with the collector.  `write` stands for any
change of an object's fields. -/
inductive Ev where
  | alloc (a : Nat) (stack statics : List Nat)
  | write (a : Nat) (o : Obj)
  | inhibit
  | enable
deriving DecidableEq

/-- one event -/
def step (fuel : Nat) : Ev → State → Res State
  | .alloc a stack statics, s => allocTree fuel a stack statics s
  | .write a o, s =>
    match s.heap a with
    | none => .ub
    | some o' => .ok { s with heap := s.heap.set a (some { o with reach := o'.reach }) }
  | .inhibit, s => .ok (inhibitGc s)
  | .enable, s => .ok (enableGc s)

/-- a history -/
def runs (fuel : Nat) : List Ev → State → Res State
  | [], s => .ok s
  | e :: es, s => do
    let s ← step fuel e s
    runs fuel es s

end Gc
end Bic
