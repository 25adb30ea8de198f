import Verif.Proofs.ExprEval
/-!
# What no evaluation can do

`Pres E m`: started in a state satisfying `Inv`, whatever `m` does relates the
states before and after by `Evol`: existing tree objects are kept (only a few
kinds of objects change, in the ways `NodeEvol` lists), the scopes that were open
are still there with all their declarations, …  Proved for every function of the
evaluator, hence for every evaluation (`run_pres`).
-/

namespace Bic
open Spec

/-- the kinds of objects that may change, and what stays of them -/
inductive MutKey where
  | assign | declLike | ret | comp | chain
  | fn (d args stmts : Ref)
deriving DecidableEq

def mutKey : Node → Option MutKey
  | .assign _ _ => some .assign
  | .decl _ _ _ | .staticCtx _ => some .declLike
  | .ret _ => some .ret
  | .compound _ _ _ _ _ | .incomp => some .comp
  | .chain _ => some .chain
  | .fn d a _ st => some (.fn d a st)
  | _ => none

/-- how an object may change -/
def NodeEvol (n n' : Node) : Prop := n = n' ∨ (mutKey n = mutKey n' ∧ mutKey n ≠ none)

theorem NodeEvol.refl (n) : NodeEvol n n := .inl rfl

theorem NodeEvol.trans {a b c} (h : NodeEvol a b) (h' : NodeEvol b c) : NodeEvol a c := by
  rcases h with rfl | ⟨h1, h2⟩
  · exact h'
  · rcases h' with rfl | ⟨h3, h4⟩
    · exact .inr ⟨h1, h2⟩
    · exact .inr ⟨h1.trans h3, h2⟩

theorem NodeEvol.key {a b} (h : NodeEvol a b) : mutKey a = mutKey b := by
  rcases h with rfl | ⟨h, _⟩ <;> simp_all

/-- how the names of a scope may change: names not yet declared are added -/
def IdsEvol (l l' : List Binding) : Prop := ∃ add, l' = l ++ add ∧ ∀ b ∈ add, findId b.name l = none

theorem findId_append {x : String} {o : TId} {l : List Binding} (m) (h : findId x l = some o) :
    findId x (l ++ m) = some o := by
  induction l with
  | nil => cases h
  | cons b l ih =>
    simp only [List.cons_append, findId] at h ⊢
    split
    · rename_i hb; rwa [if_pos hb] at h
    · rename_i hb; rw [if_neg hb] at h; exact ih h

theorem IdsEvol.refl (l) : IdsEvol l l := ⟨[], by simp, by simp⟩

theorem IdsEvol.trans {a b c} (h : IdsEvol a b) (h' : IdsEvol b c) : IdsEvol a c := by
  obtain ⟨x, rfl, hx⟩ := h
  obtain ⟨y, rfl, hy⟩ := h'
  refine ⟨x ++ y, by simp, fun d hd => ?_⟩
  rcases List.mem_append.mp hd with hd | hd
  · exact hx d hd
  · cases hf : findId d.name a with
    | none => rfl
    | some o => have := hy d hd; rw [findId_append x hf] at this; cases this

/-- how an open scope may change: declarations are only added -/
structure CtxEvol (c c' : Ctx) : Prop where
  uid : c'.uid = c.uid
  name : c'.name = c.name
  isFn : c'.isFn = c.isFn
  ids : IdsEvol c.ids c'.ids
  structs : c.structs <+: c'.structs
  unions : c.unions <+: c'.unions
  allocs : c.allocs <+: c'.allocs

theorem CtxEvol.refl (c) : CtxEvol c c :=
  ⟨rfl, rfl, rfl, .refl _, List.prefix_rfl, List.prefix_rfl, List.prefix_rfl⟩

theorem CtxEvol.trans {a b c} (h : CtxEvol a b) (h' : CtxEvol b c) : CtxEvol a c :=
  ⟨h'.uid.trans h.uid, h'.name.trans h.name, h'.isFn.trans h.isFn, h.ids.trans h'.ids,
    h.structs.trans h'.structs, h.unions.trans h'.unions, h.allocs.trans h'.allocs⟩

inductive CtxsEvol : List Ctx → List Ctx → Prop
  | nil : CtxsEvol [] []
  | cons {c c' l l'} : CtxEvol c c' → CtxsEvol l l' → CtxsEvol (c :: l) (c' :: l')

theorem CtxsEvol.refl : ∀ l, CtxsEvol l l
  | [] => .nil
  | c :: l => .cons (.refl c) (.refl l)

theorem CtxsEvol.trans {a b c} (h : CtxsEvol a b) (h' : CtxsEvol b c) : CtxsEvol a c := by
  induction h generalizing c with
  | nil => exact h'
  | cons h _ ih => cases h' with | cons h2 h3 => exact .cons (h.trans h2) (ih h3)

theorem CtxsEvol.length {a b} (h : CtxsEvol a b) : a.length = b.length := by
  induction h with
  | nil => rfl
  | cons _ _ ih => simp [ih]

theorem CtxsEvol.split {a b c} (h : CtxsEvol (a ++ b) c) :
    ∃ a' b', c = a' ++ b' ∧ CtxsEvol a a' ∧ CtxsEvol b b' := by
  induction a generalizing c with
  | nil => exact ⟨[], c, rfl, .nil, h⟩
  | cons x a ih =>
    cases h with
    | cons h1 h2 =>
      obtain ⟨a', b', rfl, h3, h4⟩ := ih h2
      exact ⟨_ :: a', b', rfl, .cons h1 h3, h4⟩

/-- the scopes around the innermost one have the same declarations (counted from the
outermost scope) -/
def Outer (l l' : List Ctx) : Prop :=
  ∀ i c, i + 1 < l.length → l.reverse[i]? = some c →
    ∃ c', l'.reverse[i]? = some c' ∧ c'.ids = c.ids ∧ c'.structs = c.structs ∧ c'.unions = c.unions

theorem Outer.refl (l) : Outer l l := fun _ c _ h => ⟨c, h, rfl, rfl, rfl⟩

theorem Outer.trans {a b c} (h : Outer a b) (hl : a.length ≤ b.length) (h' : Outer b c) : Outer a c := by
  intro i x hi hx
  obtain ⟨y, hy, e1, e2, e3⟩ := h i x hi hx
  obtain ⟨z, hz, f1, f2, f3⟩ := h' i y (by omega) hy
  exact ⟨z, hz, f1.trans e1, f2.trans e2, f3.trans e3⟩

theorem Outer.push (l c) : Outer l (c :: l) := by
  intro i x hi hx
  refine ⟨x, ?_, rfl, rfl, rfl⟩
  rw [List.reverse_cons, List.getElem?_append_left (by simp; omega)]
  exact hx

theorem Outer.cur (c c' l) : Outer (c :: l) (c' :: l) := by
  intro i x hi hx
  simp only [List.length_cons] at hi
  refine ⟨x, ?_, rfl, rfl, rfl⟩
  rw [List.reverse_cons, List.getElem?_append_left (by simp; omega)] at hx ⊢
  exact hx

theorem Outer.map {f : Ctx → Ctx} (hf : ∀ c, (f c).ids = c.ids ∧ (f c).structs = c.structs ∧ (f c).unions = c.unions) (l) :
    Outer l (l.map f) := by
  intro i x hi hx
  exact ⟨f x, by rw [← List.map_reverse, List.getElem?_map, hx]; rfl, hf x⟩

/-- leaving the innermost scopes down to the one that was entered -/
theorem Outer.pop {c l top rest} (h : Outer (c :: l) (top ++ rest)) (hl : l.length ≤ rest.length) : Outer l rest := by
  intro i x hi hx
  obtain ⟨y, hy, e⟩ := h i x (by simp; omega)
    (by rw [List.reverse_cons, List.getElem?_append_left (by simp; omega)]; exact hx)
  rw [List.reverse_append, List.getElem?_append_left (by simp; omega)] at hy
  exact ⟨y, hy, e⟩

/-- identities of scopes are distinct: they decrease strictly and are below `n` -/
def UidsOk : Nat → List Ctx → Prop
  | _, [] => True
  | n, c :: cs => c.uid < n ∧ UidsOk c.uid cs

theorem UidsOk.mono {n m l} (h : UidsOk n l) (hm : n ≤ m) : UidsOk m l := by
  cases l with
  | nil => trivial
  | cons c l => exact ⟨Nat.lt_of_lt_of_le h.1 hm, h.2⟩

theorem UidsOk.evol {n l l'} (h : UidsOk n l) (e : CtxsEvol l l') : UidsOk n l' := by
  induction e generalizing n with
  | nil => trivial
  | cons hc _ ih => exact ⟨by rw [hc.uid]; exact h.1, by rw [hc.uid]; exact ih h.2⟩

theorem UidsOk.lt {n l} (h : UidsOk n l) : ∀ c ∈ l, c.uid < n := by
  induction l generalizing n with
  | nil => simp
  | cons c l ih =>
    intro d hd
    rcases List.mem_cons.mp hd with rfl | hd
    · exact h.1
    · exact Nat.lt_trans (ih h.2 d hd) h.1

/-- names of structures and unions are only mapped to (incomplete) compound types -/
def TagsOk (nodes : TId → Option Node) (l : List Binding) : Prop :=
  ∀ b ∈ l, ∀ v, b.val = some v → ∃ n, nodes v = some n ∧ mutKey n = some .comp

/-- invariant of reachable states -/
structure Inv (s : St) : Prop where
  wf : WF s
  uids : UidsOk s.nextUid s.ctxs
  tags : ∀ c ∈ s.ctxs, TagsOk s.nodes c.structs ∧ TagsOk s.nodes c.unions

/-- no tree object is a `break` statement and no loop is being left -/
def NoBrk (s : St) : Prop := (∀ t, s.nodes t ≠ some .brk) ∧ ∀ c ∈ s.ctxs, c.shouldBreak = false

/-- library functions do not take away or reuse memory (they may allocate) -/
def SaneEnv (E : Env) : Prop :=
  ∀ a args m, (∀ x, m.live x = true → (E.extCall a args m).1.live x = true) ∧
    m.brk ≤ (E.extCall a args m).1.brk ∧
    ((∀ x, m.live x = true → x < m.brk) →
      ∀ x, (E.extCall a args m).1.live x = true → x < (E.extCall a args m).1.brk)

/-- accessible memory is below `brk` -/
def LiveLt (m : Mem) : Prop := ∀ x, m.live x = true → x < m.brk

/-- the relation between the states before and after any evaluation; `ok` tells
whether it ended normally -/
structure EvolX (X : TId → Prop) (E : Env) (ok : Bool) (s s' : St) : Prop where
  inv : Inv s'
  next : s.next ≤ s'.next
  nodes : ∀ t n, s.nodes t = some n → ∃ n', s'.nodes t = some n' ∧ NodeEvol n n'
  nobrk : NoBrk s → NoBrk s'
  ctxs : ∃ top rest, s'.ctxs = top ++ rest ∧ CtxsEvol s.ctxs rest ∧ (ok = true → NoBrk s → top = [])
  nextUid : s.nextUid ≤ s'.nextUid
  includeCtx : s'.includeCtx = s.includeCtx
  includes : s'.includes = s.includes
  closures : s.closures <:+ s'.closures
  events : s.events <+: s'.events
  mem : SaneEnv E → (∀ x, s.mem.live x = true → s'.mem.live x = true) ∧ s.mem.brk ≤ s'.mem.brk ∧
    (LiveLt s.mem → LiveLt s'.mem)
  /-- only the innermost scope gets declarations -/
  outer : Outer s.ctxs s'.ctxs
  /-- a `static` declaration that has been executed stays as it is (but for `X`) -/
  statics : ∀ t ms, ¬ X t → s.nodes t = some (.staticCtx ms) → s'.nodes t = some (.staticCtx ms)

/-- … for all `static` declarations -/
abbrev Evol := EvolX fun _ => False

theorem Evol.refl {X E} (ok) {s} (h : Inv s) : EvolX X E ok s s where
  inv := h
  next := Nat.le_refl _
  nodes _ n hn := ⟨n, hn, .refl n⟩
  nobrk h := h
  ctxs := ⟨[], s.ctxs, rfl, .refl _, fun _ _ => rfl⟩
  nextUid := Nat.le_refl _
  includeCtx := rfl
  includes := rfl
  closures := List.suffix_rfl
  events := List.prefix_rfl
  mem _ := ⟨fun _ h => h, Nat.le_refl _, id⟩
  outer := .refl _
  statics _ _ _ h := h

theorem EvolX.len {X E ok} {s s'} (h : EvolX X E ok s s') : s.ctxs.length ≤ s'.ctxs.length := by
  obtain ⟨top, rest, e1, c1, _⟩ := h.ctxs
  rw [e1, c1.length]; simp

theorem EvolX.trans {X E ok} {s s' s''} (h : EvolX X E true s s') (h' : EvolX X E ok s' s'') : EvolX X E ok s s'' where
  inv := h'.inv
  next := Nat.le_trans h.next h'.next
  nodes t n hn := by
    obtain ⟨n1, h1, e1⟩ := h.nodes t n hn
    obtain ⟨n2, h2, e2⟩ := h'.nodes t n1 h1
    exact ⟨n2, h2, e1.trans e2⟩
  nobrk hb := h'.nobrk (h.nobrk hb)
  ctxs := by
    obtain ⟨top, rest, e1, c1, t1⟩ := h.ctxs
    obtain ⟨top', rest', e2, c2, t2⟩ := h'.ctxs
    rw [e1] at c2
    obtain ⟨a, b, rfl, ca, cb⟩ := c2.split
    refine ⟨top' ++ a, b, by rw [e2, List.append_assoc], c1.trans cb, fun ho hb => ?_⟩
    have h1 := t1 rfl hb
    have h2 := t2 ho (h.nobrk hb)
    subst h1 h2
    cases ca; rfl
  nextUid := Nat.le_trans h.nextUid h'.nextUid
  includeCtx := h'.includeCtx.trans h.includeCtx
  includes := h'.includes.trans h.includes
  closures := h.closures.trans h'.closures
  events := h.events.trans h'.events
  mem hE := by
    obtain ⟨a, b, c⟩ := h.mem hE
    obtain ⟨a', b', c'⟩ := h'.mem hE
    exact ⟨fun x hx => a' x (a x hx), Nat.le_trans b b', fun hl => c' (c hl)⟩
  outer := h.outer.trans h.len h'.outer
  statics t ms hx ht := h'.statics t ms hx (h.statics t ms hx ht)

theorem EvolX.weaken {X E ok} {s s'} (h : EvolX X E ok s s') : EvolX X E false s s' where
  inv := h.inv
  next := h.next
  nodes := h.nodes
  nobrk := h.nobrk
  ctxs := by
    obtain ⟨top, rest, e1, c1, t1⟩ := h.ctxs
    exact ⟨top, rest, e1, c1, fun h => by cases h⟩
  nextUid := h.nextUid
  includeCtx := h.includeCtx
  includes := h.includes
  closures := h.closures
  events := h.events
  mem := h.mem
  outer := h.outer
  statics := h.statics

/-- outcomes allowed by `Evol` -/
def EvolOutX (X : TId → Prop) (E : Env) (s : St) : Out α → Prop
  | .ok _ s' => EvolX X E true s s'
  | .stop _ s' => EvolX X E false s s'
  | .fuel => True

abbrev EvolOut (E : Env) (s : St) (o : Out α) : Prop := EvolOutX (fun _ => False) E s o

theorem EvolX.mono {X Y : TId → Prop} {E ok s s'} (h : EvolX X E ok s s') (hx : ∀ t, X t → Y t) : EvolX Y E ok s s' :=
  { h with statics := fun t ms hy => h.statics t ms fun h => hy (hx t h) }

theorem EvolX.any {X : TId → Prop} {E ok s s'} (h : Evol E ok s s') : EvolX X E ok s s' := h.mono nofun

/-- the exemption is not needed for an object that is no `static` declaration yet -/
theorem EvolX.drop {x : TId} {E ok s s'} (h : EvolX (· = x) E ok s s') (hx : ∀ ms, s.nodes x ≠ some (.staticCtx ms)) :
    Evol E ok s s' :=
  { h with statics := fun t ms _ ht => h.statics t ms (by rintro rfl; exact hx ms ht) ht }

theorem EvolOutX.any {X : TId → Prop} {E s} {o : Out α} (h : EvolOut E s o) : EvolOutX X E s o := by
  cases o with
  | ok => exact EvolX.any h
  | stop => exact EvolX.any h
  | fuel => trivial

theorem EvolOutX.drop {x : TId} {E s} {o : Out α} (h : EvolOutX (· = x) E s o) (hx : ∀ ms, s.nodes x ≠ some (.staticCtx ms)) :
    EvolOut E s o := by
  cases o with
  | ok => exact EvolX.drop h hx
  | stop => exact EvolX.drop h hx
  | fuel => trivial

/-- `m` only does what `Evol` allows -/
def Pres (E : Env) (m : M α) : Prop := ∀ s, Inv s → EvolOut E s (m s)

namespace Pres
variable {E : Env}

theorem pure (a : α) : Pres E (Pure.pure a) := fun _ h => Evol.refl _ h

theorem stop (w : Stop) : Pres E (Bic.stop w : M α) := fun _ h => Evol.refl _ h
theorem die (m) : Pres E (Bic.die m : M α) := fun _ h => Evol.refl _ h
theorem ub (m) : Pres E (Bic.ub m : M α) := fun _ h => Evol.refl _ h
theorem get : Pres E Bic.get := fun _ h => Evol.refl _ h

theorem out_trans {X} {s s' : St} {o : Out α} (h : EvolX X E true s s') (h' : EvolOutX X E s' o) : EvolOutX X E s o := by
  cases o with
  | ok a s'' => exact h.trans h'
  | stop w s'' => exact h.trans h'
  | fuel => trivial

theorem bind {m : M α} {f : α → M β} (h : Pres E m) (h' : ∀ a, Pres E (f a)) : Pres E (m >>= f) := by
  intro s hs
  have h1 := h s hs
  rw [bind_apply]
  cases hm : m s with
  | ok a s' => rw [hm] at h1; exact out_trans h1 (h' a s' h1.inv)
  | stop w s' => rw [hm] at h1; exact h1
  | fuel => trivial

/-- a computation that does not change the state -/
theorem of_read {m : M α} (h : ∀ s, (∃ a, m s = .ok a s) ∨ (∃ w, m s = .stop w s)) : Pres E m := by
  intro s hs
  rcases h s with ⟨a, h⟩ | ⟨w, h⟩ <;> rw [h] <;> exact Evol.refl _ hs

theorem node (t) : Pres E (Bic.node t) := of_read fun s => by
  unfold Bic.node; split
  · exact .inl ⟨_, rfl⟩
  · exact .inr ⟨_, rfl⟩

theorem nodeR (r) : Pres E (Bic.nodeR r) := by
  cases r with
  | none => exact ub _
  | some t => exact node t

theorem peek (r) : Pres E (Bic.peek r) := by
  cases r with
  | none => exact pure _
  | some t => exact bind (node t) fun _ => pure _

theorem curCtx : Pres E Bic.curCtx := of_read fun s => by
  unfold Bic.curCtx; split
  · exact .inl ⟨_, rfl⟩
  · exact .inr ⟨_, rfl⟩

theorem loadRaw (n a) : Pres E (Bic.loadRaw n a) := of_read fun s => by
  unfold Bic.loadRaw; split
  · exact .inl ⟨_, rfl⟩
  · exact .inr ⟨_, rfl⟩

end Pres

/-- changing memory only -/
theorem Evol.ofMem {E : Env} {s : St} (h : Inv s) (m : Mem)
    (hm : SaneEnv E → (∀ x, s.mem.live x = true → m.live x = true) ∧ s.mem.brk ≤ m.brk ∧
      (LiveLt s.mem → LiveLt m)) : Evol E true s { s with mem := m } where
  inv := ⟨h.wf, h.uids, h.tags⟩
  next := Nat.le_refl _
  nodes _ n hn := ⟨n, hn, .refl n⟩
  nobrk h := h
  ctxs := ⟨[], s.ctxs, rfl, .refl _, fun _ _ => rfl⟩
  nextUid := Nat.le_refl _
  includeCtx := rfl
  includes := rfl
  closures := List.suffix_rfl
  events := List.prefix_rfl
  mem := hm
  outer := .refl _
  statics _ _ _ h := h

theorem Evol.store {E : Env} {s : St} (h : Inv s) (n a v) :
    Evol E true s { s with mem := s.mem.store n a v } :=
  Evol.ofMem h _ fun _ => ⟨fun x hx => by rw [Mem.store_live]; exact hx,
    by rw [Mem.store_brk]; exact Nat.le_refl _,
    fun hl x hx => by rw [Mem.store_live] at hx; rw [Mem.store_brk]; exact hl x hx⟩

theorem Evol.storeBytes {E : Env} {s : St} (h : Inv s) (a bs) :
    Evol E true s { s with mem := s.mem.storeBytes a bs } :=
  Evol.ofMem h _ fun _ => ⟨fun x hx => by rw [Mem.storeBytes_live]; exact hx,
    by rw [Mem.storeBytes_brk]; exact Nat.le_refl _,
    fun hl x hx => by rw [Mem.storeBytes_live] at hx; rw [Mem.storeBytes_brk]; exact hl x hx⟩

theorem TagsOk.evol {nodes nodes' : TId → Option Node} {l}
    (h : ∀ t n, nodes t = some n → ∃ n', nodes' t = some n' ∧ NodeEvol n n') (ht : TagsOk nodes l) :
    TagsOk nodes' l := by
  intro b hb v hv
  obtain ⟨n, hn, hk⟩ := ht b hb v hv
  obtain ⟨n', hn', he⟩ := h v n hn
  exact ⟨n', hn', he.key ▸ hk⟩

/-- changing tree objects only -/
theorem Evol.ofNodes {E : Env} {s : St} (h : Inv s) {nodes : TId → Option Node} {next : TId}
    (hw : ∀ t, next ≤ t → nodes t = none) (hnx : s.next ≤ next)
    (hn : ∀ t n, s.nodes t = some n → ∃ n', nodes t = some n' ∧ NodeEvol n n')
    (hb : (∀ t, s.nodes t ≠ some .brk) → ∀ t, nodes t ≠ some .brk) {X : TId → Prop}
    (hx : ∀ t ms, ¬ X t → s.nodes t = some (.staticCtx ms) → nodes t = some (.staticCtx ms)) :
    EvolX X E true s { s with nodes := nodes, next := next } where
  inv := ⟨hw, h.uids, fun c hc => ⟨(h.tags c hc).1.evol hn, (h.tags c hc).2.evol hn⟩⟩
  next := hnx
  nodes := hn
  nobrk h := ⟨hb h.1, h.2⟩
  ctxs := ⟨[], s.ctxs, rfl, .refl _, fun _ _ => rfl⟩
  nextUid := Nat.le_refl _
  includeCtx := rfl
  includes := rfl
  closures := List.suffix_rfl
  events := List.prefix_rfl
  mem _ := ⟨fun _ h => h, Nat.le_refl _, id⟩
  outer := .refl _
  statics := hx

theorem Evol.addNode {E : Env} {s : St} (h : Inv s) {n : Node} (hb : n ≠ .brk) :
    Evol E true s (addNode s n) := by
  have x := addNode_ext h.wf n
  refine Evol.ofNodes h (x.wf h.wf) x.next (fun t m hm => ⟨m, x.nodes t m hm, .refl m⟩) ?_ (fun t ms _ ht => x.nodes t _ ht)
  intro hs t
  show (if t = s.next then some n else s.nodes t) ≠ _
  split
  · simpa using hb
  · exact hs t

/-- overwriting an object in an allowed way -/
theorem Evol.setNode {E : Env} {s : St} (h : Inv s) {t : TId} {n n' : Node} (hn : s.nodes t = some n)
    (he : NodeEvol n n') {X : TId → Prop} (hX : X t ∨ ∀ ms, n ≠ .staticCtx ms) :
    EvolX X E true s { s with nodes := fun x => if x = t then some n' else s.nodes x } := by
  refine Evol.ofNodes (next := s.next) h ?_ (Nat.le_refl _) ?_ ?_ ?_
  · intro x hx
    have : x ≠ t := by rintro rfl; rw [h.wf _ hx] at hn; cases hn
    simp [this, h.wf x hx]
  · intro x m hm
    by_cases hx : x = t
    · subst hx; rw [hn] at hm; cases hm
      exact ⟨n', by simp, he⟩
    · exact ⟨m, by simp [hx, hm], .refl m⟩
  · intro hb x
    split
    · intro hbrk
      cases hbrk
      rcases he with rfl | ⟨h1, h2⟩
      · exact hb _ hn
      · exact h2 h1
    · exact hb x
  · intro x ms hx ht
    by_cases hxt : x = t
    · subst hxt
      rw [hn] at ht; cases ht
      exact hX.elim (fun h => absurd h hx) fun h => absurd rfl (h ms)
    · simp [hxt, ht]

/-- changing the innermost scope only -/
theorem Evol.modCur {E : Env} {s : St} (h : Inv s) {c : Ctx} {cs : List Ctx} (hc : s.ctxs = c :: cs)
    {c' : Ctx} (he : CtxEvol c c') (ht : TagsOk s.nodes c'.structs ∧ TagsOk s.nodes c'.unions)
    (hs : c'.shouldBreak = c.shouldBreak ∨ ¬ NoBrk s) :
    Evol E true s { s with ctxs := c' :: cs } where
  inv := by
    refine ⟨h.wf, ?_, ?_⟩
    · have := h.uids; rw [hc] at this
      exact this.evol (.cons he (.refl _))
    · intro d hd
      rcases List.mem_cons.mp hd with rfl | hd
      · exact ht
      · exact h.tags d (by rw [hc]; exact List.mem_cons_of_mem _ hd)
  next := Nat.le_refl _
  nodes _ n hn := ⟨n, hn, .refl n⟩
  nobrk h := by
    rcases hs with hs | hs
    · refine ⟨h.1, fun d hd => ?_⟩
      rcases List.mem_cons.mp hd with rfl | hd
      · rw [hs]; exact h.2 c (by rw [hc]; exact List.mem_cons_self)
      · exact h.2 d (by rw [hc]; exact List.mem_cons_of_mem _ hd)
    · exact absurd h hs
  ctxs := ⟨[], c' :: cs, rfl, by rw [hc]; exact .cons he (.refl _), fun _ _ => rfl⟩
  nextUid := Nat.le_refl _
  includeCtx := rfl
  includes := rfl
  closures := List.suffix_rfl
  events := List.prefix_rfl
  mem _ := ⟨fun _ h => h, Nat.le_refl _, id⟩
  outer := by rw [hc]; exact .cur _ _ _
  statics _ _ _ h := h

namespace Pres
variable {E : Env}

theorem mk {n : Node} (hb : n ≠ .brk) : Pres E (Bic.mk n) := fun _ h => Evol.addNode h hb

theorem mkInt (v) : Pres E (Bic.mkInt v) := bind (mk (by simp)) fun _ => pure _

theorem storeRaw (n a v) : Pres E (Bic.storeRaw n a v) := by
  intro s h
  unfold Bic.storeRaw; split
  · exact Evol.store h _ _ _
  · exact Evol.refl _ h

theorem modifyStoreBytes (f : St → Nat × List Byte) :
    Pres E (modify fun s => { s with mem := s.mem.storeBytes (f s).1 (f s).2 }) :=
  fun _ h => Evol.storeBytes h _ _

theorem mallocM (n) : Pres E (Bic.mallocM n) := by
  intro s h
  unfold Bic.mallocM Mem.malloc
  split
  · rename_i a m hm
    simp only at hm
    split at hm
    · cases hm
      refine Evol.ofMem h _ fun _ => ⟨fun x hx => ?_, ?_, fun hl x hx => ?_⟩
      · simp [hx]
      · simp only; omega
      · simp only at hx ⊢
        have hdiv : n < (n / 16 + 1) * 16 := by omega
        split at hx
        · omega
        · have := hl x hx; omega
    · cases hm
  · exact Evol.refl _ h

theorem modCur {f : Ctx → Ctx} (hf : ∀ c, CtxEvol c (f c)) (h1 : ∀ c, (f c).structs = c.structs)
    (h2 : ∀ c, (f c).unions = c.unions) (h3 : ∀ c, (f c).shouldBreak = c.shouldBreak) :
    Pres E (Bic.modCur f) := by
  intro s h
  unfold Bic.modCur
  split
  · rename_i c cs hc
    refine Evol.modCur h hc (hf c) ?_ (.inl (h3 c))
    rw [h1, h2]
    exact h.tags c (by rw [hc]; exact List.mem_cons_self)
  · exact Evol.refl _ h

theorem trackAlloc (a) : Pres E (Bic.trackAlloc a) :=
  modCur (fun c => { CtxEvol.refl c with allocs := List.prefix_append _ _ }) (fun _ => rfl) (fun _ => rfl) (fun _ => rfl)

/-- executing a `break` -/
theorem evalBreak {s : St} {t : TId} (h : Inv s) (ht : s.nodes t = some .brk) :
    EvolOut E s (Bic.evalBreak t s) := by
  unfold Bic.evalBreak Bic.modCur
  simp only [bind_apply]
  cases hc : s.ctxs with
  | nil => exact Evol.refl _ h
  | cons c cs =>
    exact Evol.modCur h hc { CtxEvol.refl c with } (h.tags c (by rw [hc]; exact List.mem_cons_self))
      (.inr fun hb => hb.1 t ht)

/-- declaring a name of the ordinary name space -/
theorem mapIdentifier (id val) : Pres E (Bic.mapIdentifier id val) := by
  intro s h
  unfold Bic.mapIdentifier resolveIdC idStr
  cases id with
  | none => exact Evol.refl _ h
  | some i =>
    cases hn : s.nodes i with
    | none => simp only [Bic.nodeR, Bic.node, bind_apply, hn]; exact Evol.refl _ h
    | some n =>
      simp only [Bic.nodeR, Bic.node, bind_apply, hn]
      cases n
      case ident x =>
        simp only [pure_apply, Bic.get]
        cases hr : resolveCurrent x .normal s with
        | some o => exact Evol.refl _ h
        | none =>
          simp only [mapIn, Bic.node, bind_apply, hn, Bic.modCur]
          cases hc : s.ctxs with
          | nil => exact Evol.refl _ h
          | cons c cs =>
            refine Evol.modCur h hc { CtxEvol.refl c with ids := ⟨[⟨x, i, val⟩], rfl, fun b hb => ?_⟩ }
              (h.tags c (by rw [hc]; exact List.mem_cons_self)) (.inl rfl)
            obtain rfl : b = ⟨x, i, val⟩ := by simpa using hb
            rw [resolveCurrent, hc] at hr
            exact hr
      all_goals exact Evol.refl _ h

/-- mapping the name of a compound type -/
theorem mapInTag (b : Bool) (id : Ref) (v : TId) {s : St} (h : Inv s)
    (hv : ∃ n, s.nodes v = some n ∧ mutKey n = some .comp) :
    EvolOut E s (mapIn (compNS b) id (some v) s) := by
  unfold mapIn
  split
  · exact Evol.refl _ h
  · rename_i i
    simp only [bind_apply]
    cases hn : s.nodes i with
    | none => simp only [Bic.node, hn]; exact Evol.refl _ h
    | some n =>
      simp only [node_apply hn]
      split
      · unfold Bic.modCur
        split
        · rename_i c cs hc
          have ht := h.tags c (by rw [hc]; exact List.mem_cons_self)
          cases b
          · simp only [compNS]
            refine Evol.modCur h hc { CtxEvol.refl c with unions := List.prefix_append _ _ } ⟨ht.1, ?_⟩ (.inl rfl)
            intro b hb w hw
            rcases List.mem_append.mp hb with hb | hb
            · exact ht.2 b hb w hw
            · simp at hb; subst hb; cases hw; exact hv
          · simp only [compNS, if_true]
            refine Evol.modCur h hc { CtxEvol.refl c with structs := List.prefix_append _ _ } ⟨?_, ht.2⟩ (.inl rfl)
            intro b hb w hw
            rcases List.mem_append.mp hb with hb | hb
            · exact ht.1 b hb w hw
            · simp at hb; subst hb; cases hw; exact hv
        · exact Evol.refl _ h
      · exact Evol.refl _ h

theorem pushEvol {s : St} (h : Inv s) (name) : ∃ c s', pushCtx name s = .ok () s' ∧
    s'.ctxs = c :: s.ctxs ∧ Evol E false s s' ∧ Inv s' ∧ s'.nodes = s.nodes ∧ c.uid = s.nextUid ∧
    s'.nextUid = s.nextUid + 1 ∧ s'.mem = s.mem ∧ s'.next = s.next := by
  have hi : Inv { s with
    ctxs := { uid := s.nextUid, name, ids := [], structs := [], unions := [], allocs := [],
              retval := none, shouldBreak := false, isFn := false } :: s.ctxs,
    nextUid := s.nextUid + 1 } := by
    refine ⟨h.wf, ⟨Nat.lt_succ_self _, h.uids⟩, ?_⟩
    intro c hc
    rcases List.mem_cons.mp hc with rfl | hc
    · exact ⟨fun b hb => by simp at hb, fun b hb => by simp at hb⟩
    · exact h.tags c hc
  refine ⟨_, _, rfl, rfl, ?_, hi, rfl, rfl, rfl, rfl, rfl⟩
  exact
    { inv := hi
      next := Nat.le_refl _
      nodes := fun t n hn => ⟨n, hn, .refl n⟩
      nobrk := fun h => ⟨h.1, fun c hc => by
        rcases List.mem_cons.mp hc with rfl | hc
        · rfl
        · exact h.2 c hc⟩
      ctxs := ⟨[_], s.ctxs, rfl, .refl _, fun h => by cases h⟩
      nextUid := Nat.le_succ _
      includeCtx := rfl
      includes := rfl
      closures := List.suffix_rfl
      events := List.prefix_rfl
      mem := fun _ => ⟨fun _ h => h, Nat.le_refl _, id⟩
      outer := .push _ _
      statics := fun _ _ _ h => h }

end Pres

/-! ## Reasoning at a given state -/

section
variable {E : Env}

theorem EvolX.transF {X o1 o2} {s s' s''} (h : EvolX X E o1 s s') (h' : EvolX X E o2 s' s'') : EvolX X E false s s'' where
  inv := h'.inv
  next := Nat.le_trans h.next h'.next
  nodes t n hn := by
    obtain ⟨n1, h1, e1⟩ := h.nodes t n hn
    obtain ⟨n2, h2, e2⟩ := h'.nodes t n1 h1
    exact ⟨n2, h2, e1.trans e2⟩
  nobrk hb := h'.nobrk (h.nobrk hb)
  ctxs := by
    obtain ⟨top, rest, e1, c1, t1⟩ := h.ctxs
    obtain ⟨top', rest', e2, c2, t2⟩ := h'.ctxs
    rw [e1] at c2
    obtain ⟨a, b, rfl, ca, cb⟩ := c2.split
    exact ⟨top' ++ a, b, by rw [e2, List.append_assoc], c1.trans cb, fun ho => by cases ho⟩
  nextUid := Nat.le_trans h.nextUid h'.nextUid
  includeCtx := h'.includeCtx.trans h.includeCtx
  includes := h'.includes.trans h.includes
  closures := h.closures.trans h'.closures
  events := h.events.trans h'.events
  mem hE := by
    obtain ⟨a, b, c⟩ := h.mem hE
    obtain ⟨a', b', c'⟩ := h'.mem hE
    exact ⟨fun x hx => a' x (a x hx), Nat.le_trans b b', fun hl => c' (c hl)⟩
  outer := h.outer.trans h.len h'.outer
  statics t ms hx ht := h'.statics t ms hx (h.statics t ms hx ht)

/-- once there are `break`s, leaking scopes is allowed -/
theorem EvolX.upgrade {X o} {s s'} (h : EvolX X E o s s') (hb : ¬ NoBrk s) : EvolX X E true s s' where
  inv := h.inv
  next := h.next
  nodes := h.nodes
  nobrk := h.nobrk
  ctxs := by
    obtain ⟨top, rest, e1, c1, t1⟩ := h.ctxs
    exact ⟨top, rest, e1, c1, fun _ h => absurd h hb⟩
  nextUid := h.nextUid
  includeCtx := h.includeCtx
  includes := h.includes
  closures := h.closures
  events := h.events
  mem := h.mem
  outer := h.outer
  statics := h.statics

theorem EvolOut.bind {s : St} {m : M α} {f : α → M β} (h : EvolOut E s (m s))
    (h' : ∀ a s', m s = .ok a s' → Evol E true s s' → EvolOut E s' (f a s')) :
    EvolOut E s ((m >>= f) s) := by
  rw [bind_apply]
  cases hm : m s with
  | ok a s' => rw [hm] at h; exact Pres.out_trans h (h' a s' hm h)
  | stop w s' => rw [hm] at h; exact h
  | fuel => trivial

theorem EvolOutX.bind {X} {s : St} {m : M α} {f : α → M β} (h : EvolOut E s (m s))
    (h' : ∀ a s', m s = .ok a s' → Evol E true s s' → EvolOutX X E s' (f a s')) :
    EvolOutX X E s ((m >>= f) s) := by
  rw [bind_apply]
  cases hm : m s with
  | ok a s' => rw [hm] at h; exact Pres.out_trans (EvolX.any h) (h' a s' hm h)
  | stop w s' => rw [hm] at h; exact EvolX.any h
  | fuel => trivial

/-- back from a state to all states -/
theorem Pres.at {m : M α} (h : Pres E m) {s : St} (hi : Inv s) : EvolOut E s (m s) := h s hi

theorem node_ok {s : St} {t n s'} (h : node t s = .ok n s') : s' = s ∧ s.nodes t = some n := by
  unfold node at h; split at h
  · cases h; exact ⟨rfl, by assumption⟩
  · cases h

theorem nodeR_ok {s : St} {r n s'} (h : nodeR r s = .ok n s') :
    s' = s ∧ ∃ t, r = some t ∧ s.nodes t = some n := by
  cases r with
  | none => cases h
  | some t => have := node_ok h; exact ⟨this.1, t, rfl, this.2⟩

theorem idStr_ok {s : St} {r n s'} (h : idStr r s = .ok n s') : s' = s := by
  unfold idStr at h
  rw [bind_apply] at h
  split at h
  · rename_i n' s1 h1
    have := (nodeR_ok h1).1; subst this
    split at h <;> cases h
    rfl
  · cases h
  · cases h

/-- the node at `t` has the given key -/
def HasKey (s : St) (t : TId) (k : MutKey) : Prop := ∃ n, s.nodes t = some n ∧ mutKey n = some k

theorem HasKey.evol {X o s s' t k} (h : HasKey s t k) (e : EvolX X E o s s') : HasKey s' t k := by
  obtain ⟨n, hn, hk⟩ := h
  obtain ⟨n', hn', he⟩ := e.nodes t n hn
  exact ⟨n', hn', he.key ▸ hk⟩

theorem HasKey.setNode {s t k n'} (h : HasKey s t k) (hk : mutKey n' = some k) (hi : Inv s)
    (hd : k ≠ .declLike := by simp) : EvolOut E s (setNode t n' s) := by
  obtain ⟨n, hn, hk'⟩ := h
  exact Evol.setNode hi hn (.inr ⟨hk'.trans hk.symm, by rw [hk']; simp⟩)
    (.inr fun ms h => by subst h; cases hk'; exact hd rfl)

theorem HasKey.setDecl {s t n'} (h : HasKey s t .declLike) (hk : mutKey n' = some .declLike) (hi : Inv s) :
    EvolOutX (· = t) E s (Bic.setNode t n' s) := by
  obtain ⟨n, hn, hk'⟩ := h
  exact Evol.setNode hi hn (.inr ⟨hk'.trans hk.symm, by rw [hk']; simp⟩) (.inl rfl)

/-- leaving a scope entered in `s` -/
theorem pop_evol {X} {s s1 s2 : St} {c : Ctx} (hc : s1.ctxs = c :: s.ctxs) (hp : EvolX X E false s s1)
    (h : EvolX X E true s1 s2) : EvolOutX X E s (popCtx s2) := by
  have hF := EvolX.transF hp h
  obtain ⟨top, rest, e1, c1, t1⟩ := h.ctxs
  rw [hc] at c1
  cases c1 with
  | @cons _ c' _ rest' hcc hcr =>
  unfold popCtx
  split
  · rename_i x y cs hx
    have hsub : ∀ d ∈ y :: cs, d ∈ s2.ctxs := fun d hd => by rw [hx]; exact List.mem_cons_of_mem _ hd
    have hinv : Inv { s2 with ctxs := y :: cs } := by
      refine ⟨h.inv.wf, ?_, fun d hd => h.inv.tags d (hsub d hd)⟩
      have := h.inv.uids; rw [hx] at this
      exact UidsOk.mono this.2 (Nat.le_of_lt this.1)
    refine
      { inv := hinv
        next := hF.next
        nodes := hF.nodes
        nobrk := fun hb => ⟨(hF.nobrk hb).1, fun d hd => (hF.nobrk hb).2 d (hsub d hd)⟩
        ctxs := ?_
        nextUid := hF.nextUid
        includeCtx := hF.includeCtx
        includes := hF.includes
        closures := hF.closures
        events := hF.events
        mem := hF.mem
        outer := ?_
        statics := hF.statics }
    · rw [e1] at hx
      cases top with
      | nil =>
        simp only [List.nil_append, List.cons.injEq] at hx
        exact ⟨[], rest', by simp [hx.2], hcr, fun _ _ => rfl⟩
      | cons z top' =>
        simp only [List.cons_append, List.cons.injEq] at hx
        exact ⟨top' ++ [c'], rest', by simp [← hx.2], hcr,
          fun _ hb => absurd (t1 rfl (hp.nobrk hb)) (by simp)⟩
    · have ho := h.outer
      have hl := h.len
      rw [hc, hx] at ho hl
      exact Outer.pop (top := [x]) ho (by simpa using hl)
  · exact hF

/-- `push; body; pop; rest` -/
theorem scope_evol {X} {s : St} (hi : Inv s) (name : String) {body : M α} {f : α → M β}
    (hb : Pres E body) (hf : ∀ a s1 s2 c, s1.ctxs = c :: s.ctxs → Evol E false s s1 →
      Evol E true s1 s2 → EvolOutX X E s (f a s2)) :
    EvolOutX X E s ((do pushCtx name; let a ← body; f a) s) := by
  obtain ⟨c, s1, h1, h2, h3, h4, -⟩ := Pres.pushEvol (E := E) hi name
  rw [bind_apply, h1]
  have h5 := hb s1 h4
  simp only [bind_apply]
  cases hm : body s1 with
  | ok a s2 => rw [hm] at h5; exact hf a s1 s2 c h2 h3 h5
  | stop w s2 => rw [hm] at h5; exact EvolX.any (h3.transF h5)
  | fuel => trivial

/-- a step inside a scope entered in `s` -/
theorem in_bind {s s1 s2 : St} (hp : Evol E false s s1) (h : Evol E true s1 s2) {m : M α} {f : α → M β}
    (hm : EvolOut E s2 (m s2))
    (hf : ∀ a s', m s2 = .ok a s' → Evol E true s2 s' → Evol E true s1 s' → EvolOut E s (f a s')) :
    EvolOut E s ((m >>= f) s2) := by
  rw [bind_apply]
  cases hr : m s2 with
  | ok a s' => rw [hr] at hm; exact hf a s' hr hm (h.trans hm)
  | stop w s' => rw [hr] at hm; exact hp.transF (h.transF hm)
  | fuel => trivial

/-- leaving the scope and carrying on -/
theorem pop_bind {s s1 s2 : St} {c : Ctx} (hc : s1.ctxs = c :: s.ctxs) (hp : Evol E false s s1)
    (h : Evol E true s1 s2) {f : Unit → M β} (hf : ∀ a, Pres E (f a)) :
    EvolOut E s ((popCtx >>= f) s2) := by
  have e := pop_evol hc hp h
  rw [bind_apply]
  cases hpop : popCtx s2 with
  | ok u s4 => rw [hpop] at e; exact Pres.out_trans e (hf _ _ e.inv)
  | stop w s4 => rw [hpop] at e; exact e
  | fuel => trivial

theorem popTo_exact {n : Nat} {top rest : List Ctx} {c : Ctx} (h : UidsOk n (top ++ c :: rest)) :
    popTo c.uid (top ++ c :: rest) = some (c :: rest) := by
  induction top generalizing n with
  | nil => cases rest <;> simp [popTo]
  | cons x top ih =>
    have h' : UidsOk x.uid (top ++ c :: rest) := h.2
    have hlt := h'.lt c (by simp)
    have := ih h'
    cases top with
    | nil => simp only [List.nil_append, List.cons_append, popTo] at this ⊢; rw [if_neg (by omega)]; exact this
    | cons y top => simp only [List.cons_append, popTo] at this ⊢; rw [if_neg (by omega)]; exact this

end

/-! ## All functions of the evaluator -/

structure RPres (E : Env) (R : Rec) : Prop where
  ev : ∀ x, Pres E (R.ev x)
  loopWhile : ∀ x y, Pres E (R.loopWhile x y)
  loopFor : ∀ x y z, Pres E (R.loopFor x y z)
  resolvePtr : ∀ x y, Pres E (R.resolvePtr x y)
  handleDecl : ∀ x y, Pres E (R.handleDecl x y)
  mapTypedef : ∀ x y, Pres E (R.mapTypedef x y)
  instStruct : ∀ x y, Pres E (R.instStruct x y)
  alignment : ∀ x, Pres E (R.alignment x)

/-- one step of a preservation proof -/
syntax "pres1" : tactic
macro_rules
  | `(tactic| pres1) => `(tactic| first
    | with_reducible exact Pres.pure _ | with_reducible exact Pres.stop _
    | with_reducible exact Pres.die _ | with_reducible exact Pres.ub _
    | with_reducible exact Pres.get
    | with_reducible exact Pres.node _ | with_reducible exact Pres.nodeR _
    | with_reducible exact Pres.peek _ | with_reducible exact Pres.curCtx
    | with_reducible exact Pres.loadRaw _ _ | with_reducible exact Pres.mkInt _
    | with_reducible exact Pres.storeRaw _ _ _ | with_reducible exact Pres.mallocM _
    | with_reducible exact Pres.trackAlloc _
    | with_reducible exact Pres.mk (by simp)
    | with_reducible exact RPres.ev ‹_› _ | with_reducible exact RPres.loopWhile ‹_› _ _
    | with_reducible exact RPres.loopFor ‹_› _ _ _ | with_reducible exact RPres.resolvePtr ‹_› _ _
    | with_reducible exact RPres.handleDecl ‹_› _ _ | with_reducible exact RPres.mapTypedef ‹_› _ _
    | with_reducible exact RPres.instStruct ‹_› _ _ | with_reducible exact RPres.alignment ‹_› _
    | with_reducible assumption
    | (with_reducible refine Pres.bind ?_ fun _ => ?_)
    | split
    | intro _)

section
variable {E : Env} {R : Rec}

theorem pres_chainElems (r) : Pres E (Bic.chainElems r) := by
  unfold Bic.chainElems
  repeat' pres1
macro_rules | `(tactic| pres1) => `(tactic| with_reducible exact pres_chainElems _)

theorem pres_idStr (r) : Pres E (Bic.idStr r) := by
  unfold Bic.idStr
  repeat' pres1
macro_rules | `(tactic| pres1) => `(tactic| with_reducible exact pres_idStr _)

theorem pres_resolveIdG (r) : Pres E (Bic.resolveIdG r) := by
  unfold Bic.resolveIdG
  repeat' pres1
macro_rules | `(tactic| pres1) => `(tactic| with_reducible exact pres_resolveIdG _)

theorem pres_resolveIdC (r) : Pres E (Bic.resolveIdC r) := by
  unfold Bic.resolveIdC
  repeat' pres1
macro_rules | `(tactic| pres1) => `(tactic| with_reducible exact pres_resolveIdC _)

theorem pres_mapIdentifier (i v) : Pres E (Bic.mapIdentifier i v) := Pres.mapIdentifier _ _
macro_rules | `(tactic| pres1) => `(tactic| with_reducible exact pres_mapIdentifier _ _)

theorem pres_evalIdentifier (t) : Pres E (Bic.evalIdentifier t) := by
  unfold Bic.evalIdentifier
  repeat' pres1
macro_rules | `(tactic| pres1) => `(tactic| with_reducible exact pres_evalIdentifier _)

theorem pres_makeLiveVar (t) : Pres E (Bic.makeLiveVar t) := by
  unfold Bic.makeLiveVar
  repeat' pres1
macro_rules | `(tactic| pres1) => `(tactic| with_reducible exact pres_makeLiveVar _)

theorem pres_lvFields (t) : Pres E (Bic.lvFields t) := by
  unfold Bic.lvFields
  repeat' pres1
macro_rules | `(tactic| pres1) => `(tactic| with_reducible exact pres_lvFields _)

theorem pres_typeOf (t) : Pres E (Bic.typeOf t) := by
  unfold Bic.typeOf
  repeat' pres1
macro_rules | `(tactic| pres1) => `(tactic| with_reducible exact pres_typeOf _)

theorem pres_makeIntFromLV (t) : Pres E (Bic.makeIntFromLV t) := by
  unfold Bic.makeIntFromLV
  repeat' pres1
macro_rules | `(tactic| pres1) => `(tactic| with_reducible exact pres_makeIntFromLV _)

theorem pres_liveToInt (r) : Pres E (Bic.liveToInt r) := by
  unfold Bic.liveToInt
  repeat' pres1
macro_rules | `(tactic| pres1) => `(tactic| with_reducible exact pres_liveToInt _)

theorem pres_asInteger (r m) : Pres E (Bic.asInteger r m) := by
  unfold Bic.asInteger
  repeat' pres1
macro_rules | `(tactic| pres1) => `(tactic| with_reducible exact pres_asInteger _ _)

theorem pres_convComparable (hR : RPres E R) (t) : Pres E (Bic.convComparable R t) := by
  unfold Bic.convComparable
  repeat' pres1
macro_rules | `(tactic| pres1) => `(tactic| with_reducible exact pres_convComparable ‹_› _)

theorem pres_getSizeOfType (hR : RPres E R) (t) : Pres E (Bic.getSizeOfType R t) := by
  unfold Bic.getSizeOfType
  repeat' pres1
macro_rules | `(tactic| pres1) => `(tactic| with_reducible exact pres_getSizeOfType ‹_› _)

theorem pres_getArraySize (hR : RPres E R) (a b) : Pres E (Bic.getArraySize R a b) := by
  unfold Bic.getArraySize
  repeat' pres1
macro_rules | `(tactic| pres1) => `(tactic| with_reducible exact pres_getArraySize ‹_› _ _)

/-- an object that is new since `s` may be completed -/
theorem setFresh {s s' : St} {t : TId} {n0 n : Node} (h : Evol E true s s') (hf : s.nodes t = none)
    (ht : s'.nodes t = some n0) (hk : mutKey n0 = none) (hb : n ≠ .brk) :
    Evol E true s { s' with nodes := fun x => if x = t then some n else s'.nodes x } := by
  have htag : ∀ l, TagsOk s'.nodes l → TagsOk (fun x => if x = t then some n else s'.nodes x) l := by
    intro l hl b hb' v hv
    obtain ⟨m, hm, hmk⟩ := hl b hb' v hv
    have : v ≠ t := by
      rintro rfl; rw [ht] at hm; cases hm; rw [hk] at hmk; cases hmk
    exact ⟨m, by simp [this, hm], hmk⟩
  exact
    { inv := by
        refine ⟨?_, h.inv.uids, fun c hc => ⟨htag _ (h.inv.tags c hc).1, htag _ (h.inv.tags c hc).2⟩⟩
        intro x hx
        have : x ≠ t := by rintro rfl; rw [h.inv.wf _ hx] at ht; cases ht
        simp [this, h.inv.wf x hx]
      next := h.next
      nodes := by
        intro x m hm
        have : x ≠ t := by rintro rfl; rw [hf] at hm; cases hm
        obtain ⟨m', hm', he⟩ := h.nodes x m hm
        exact ⟨m', by simp [this, hm'], he⟩
      nobrk := by
        intro hs
        refine ⟨fun x => ?_, (h.nobrk hs).2⟩
        show (if x = t then some n else s'.nodes x) ≠ _
        split
        · simpa using hb
        · exact (h.nobrk hs).1 x
      ctxs := h.ctxs
      nextUid := h.nextUid
      includeCtx := h.includeCtx
      includes := h.includes
      closures := h.closures
      events := h.events
      outer := h.outer
      statics := by
        intro x ms hx hm
        have : x ≠ t := by rintro rfl; rw [hf] at hm; cases hm
        simp [this, h.statics x ms hx hm]
      mem := h.mem }

theorem makeLiveVar_ok {s s' : St} {ty t} (hi : Inv s) (h : makeLiveVar ty s = .ok t s') :
    s.nodes t = none ∧ ∃ a, s'.nodes t = some (.lv ty a false 0) := by
  unfold makeLiveVar at h
  rw [bind_apply] at h
  unfold mallocM at h
  split at h
  · rename_i a s1 h1
    split at h1
    · cases h1
      simp only [bind_apply, mk_apply, trackAlloc, modCur] at h
      cases hc : s.ctxs with
      | nil => simp [addNode, hc] at h
      | cons c cs =>
        simp [addNode, hc] at h
        obtain ⟨rfl, rfl⟩ := h
        exact ⟨hi.wf _ (Nat.le_refl _), a, by simp⟩
    · cases h1
  · cases h
  · cases h

theorem lvFields_ok {s s' : St} {t p} (h : lvFields t s = .ok p s') :
    s' = s ∧ ∃ x y, s.nodes t = some (.lv p.1 p.2 x y) := by
  unfold lvFields at h
  rw [bind_apply] at h
  split at h
  · rename_i n s1 h1
    obtain ⟨rfl, h2⟩ := node_ok h1
    split at h
    · cases h; exact ⟨rfl, _, _, h2⟩
    · cases h
  · cases h
  · cases h

theorem storeRaw_ok {s s' : St} {n a v u} (h : storeRaw n a v s = .ok u s') : s'.nodes = s.nodes := by
  unfold storeRaw at h
  split at h <;> cases h
  rfl

theorem pres_instantiateArray (d base : Ref) (mem length : Nat) :
    Pres E (Bic.instantiateArray d base mem length) := by
  intro s hi
  unfold Bic.instantiateArray
  have hbody : ∀ s1, Inv s1 → EvolOut E s1 ((do
      let t ← makeLiveVar (some s.next)
      let (ty, a) ← lvFields t
      storeRaw 8 a mem
      setNode t (.lv ty a true length)
      Pure.pure t) s1) := by
    intro s1 hi1
    have hm := pres_makeLiveVar (E := E) (some s.next) s1 hi1
    rw [bind_apply]
    cases h1 : makeLiveVar (some s.next) s1 with
    | fuel => trivial
    | stop w s2 => rw [h1] at hm; exact hm
    | ok t s2 =>
      rw [h1] at hm
      obtain ⟨hf, a0, ht⟩ := makeLiveVar_ok hi1 h1
      simp only [bind_apply]
      simp only [lvFields, bind_apply, node_apply ht, pure_apply]
      unfold storeRaw
      by_cases hok : s2.mem.ok 8 a0 = true
      · simp only [hok, if_true]
        exact setFresh (s' := { s2 with mem := s2.mem.store 8 a0 mem }) (hm.trans (Evol.store hm.inv _ _ _))
          hf ht rfl (by simp)
      · simp only [hok, Bool.false_eq_true, if_false]
        exact hm.weaken
  simp only [bind_apply, mk_apply]
  have e1 : Evol E true s (addNode s (.ctype .ptr none)) := Evol.addNode hi (by simp)
  have hp := Pres.peek (E := E) d _ e1.inv
  have hread : ∀ r s', Bic.peek d (addNode s (.ctype .ptr none)) = .ok r s' →
      s' = addNode s (.ctype .ptr none) := by
    intro r s' h
    cases d with
    | none => cases h; rfl
    | some x =>
      simp only [Bic.peek, bind_apply] at h
      split at h
      · rename_i h1; cases h; exact (node_ok h1).1
      · cases h
      · cases h
  cases h1 : Bic.peek d (addNode s (.ctype .ptr none)) with
  | fuel => trivial
  | stop w s' => rw [h1] at hp; exact (e1.trans hp)
  | ok r s' =>
    have := hread _ _ h1; subst this
    simp only
    split
    · simp only [bind_apply]
      have e2 : Evol E true s { addNode s (.ctype .ptr none) with
          nodes := fun x => if x = s.next then some (.ctype .ptr base) else (addNode s (.ctype .ptr none)).nodes x } :=
        setFresh e1 (hi.wf _ (Nat.le_refl _)) (addNode_self _ _) rfl (by simp)
      exact Pres.out_trans e2 (hbody _ e2.inv)
    · exact e1.weaken
macro_rules | `(tactic| pres1) => `(tactic| with_reducible exact pres_instantiateArray _ _ _ _)

theorem pres_resolveSpecsLoop (b l) : Pres E (Bic.resolveSpecsLoop b l) := by
  induction l generalizing b with
  | nil => unfold Bic.resolveSpecsLoop; repeat' pres1
  | cons _ _ ih =>
    unfold Bic.resolveSpecsLoop
    repeat' first | with_reducible exact ih _ | pres1
macro_rules | `(tactic| pres1) => `(tactic| with_reducible exact pres_resolveSpecsLoop _ _)

theorem pres_resolveSpecs (r) : Pres E (Bic.resolveSpecs r) := by
  unfold Bic.resolveSpecs
  repeat' pres1
macro_rules | `(tactic| pres1) => `(tactic| with_reducible exact pres_resolveSpecs _)

theorem pres_chainHasKw (k l) : Pres E (Bic.chainHasKw k l) := by
  induction l generalizing k with
  | nil => unfold Bic.chainHasKw; repeat' pres1
  | cons _ _ ih =>
    unfold Bic.chainHasKw
    repeat' first | with_reducible exact ih _ | pres1
macro_rules | `(tactic| pres1) => `(tactic| with_reducible exact pres_chainHasKw _ _)

theorem pres_resolvePtrStep (hR : RPres E R) (a b) : Pres E (Bic.resolvePtrStep R a b) := by
  unfold Bic.resolvePtrStep
  repeat' pres1
macro_rules | `(tactic| pres1) => `(tactic| with_reducible exact pres_resolvePtrStep ‹_› _ _)

theorem pres_isIdentOrCompound (r) : Pres E (Bic.isIdentOrCompound r) := by
  unfold Bic.isIdentOrCompound
  repeat' pres1
macro_rules | `(tactic| pres1) => `(tactic| with_reducible exact pres_isIdentOrCompound _)

theorem pres_memberBinding (a b) : Pres E (Bic.memberBinding a b) := by
  unfold Bic.memberBinding
  repeat' pres1
macro_rules | `(tactic| pres1) => `(tactic| with_reducible exact pres_memberBinding _ _)

theorem pres_instElement (hR : RPres E R) (a b) : Pres E (Bic.instElement R a b) := by
  unfold Bic.instElement
  repeat' pres1
macro_rules | `(tactic| pres1) => `(tactic| with_reducible exact pres_instElement ‹_› _ _)

theorem pres_instElements (hR : RPres E R) (b l) : Pres E (Bic.instElements R b l) := by
  induction l generalizing b with
  | nil => unfold Bic.instElements; repeat' pres1
  | cons _ _ ih =>
    unfold Bic.instElements
    repeat' first | with_reducible exact ih _ | pres1
macro_rules | `(tactic| pres1) => `(tactic| with_reducible exact pres_instElements ‹_› _ _)

theorem pres_instStructStep (hR : RPres E R) (a b) : Pres E (Bic.instStructStep R a b) := by
  unfold Bic.instStructStep
  repeat' pres1
macro_rules | `(tactic| pres1) => `(tactic| with_reducible exact pres_instStructStep ‹_› _ _)

theorem pres_allocStruct (hR : RPres E R) (a) : Pres E (Bic.allocStruct R a) := by
  unfold Bic.allocStruct
  repeat' pres1
macro_rules | `(tactic| pres1) => `(tactic| with_reducible exact pres_allocStruct ‹_› _)

theorem pres_allocArray (hR : RPres E R) (a b c) : Pres E (Bic.allocArray R a b c) := by
  unfold Bic.allocArray
  repeat' pres1
macro_rules | `(tactic| pres1) => `(tactic| with_reducible exact pres_allocArray ‹_› _ _ _)

theorem pres_makeAndMapLiveVar (a b) : Pres E (Bic.makeAndMapLiveVar a b) := by
  unfold Bic.makeAndMapLiveVar
  repeat' pres1
macro_rules | `(tactic| pres1) => `(tactic| with_reducible exact pres_makeAndMapLiveVar _ _)

theorem pres_declareArray (hR : RPres E R) (a b c) : Pres E (Bic.declareArray R a b c) := by
  unfold Bic.declareArray
  repeat' pres1
macro_rules | `(tactic| pres1) => `(tactic| with_reducible exact pres_declareArray ‹_› _ _ _)

theorem pres_handleDeclSwitch (hR : RPres E R) (d ty : Ref) : Pres E (Bic.handleDeclSwitch R d ty) := by
  intro s hi
  unfold Bic.handleDeclSwitch
  refine EvolOut.bind (Pres.nodeR d s hi) fun n s' hn _ => ?_
  obtain ⟨rfl, dt, rfl, hdt⟩ := nodeR_ok hn
  split
  · exact pres_declareArray hR _ _ _ _ hi
  · exact (Pres.bind (pres_makeAndMapLiveVar _ _) fun _ => Pres.pure _) _ hi
  · refine Pres.at ?_ hi
    repeat' pres1
  · refine Pres.at ?_ hi
    repeat' pres1
  · rename_i l r
    have hk : HasKey s' dt .assign := ⟨_, hdt, rfl⟩
    refine EvolOut.bind (hR.handleDecl _ _ _ hi) fun l' s2 _ e2 => ?_
    have hk2 := hk.evol e2
    refine EvolOut.bind (Pres.node _ _ e2.inv) fun n2 s3 hn2 _ => ?_
    obtain ⟨rfl, hn2⟩ := node_ok hn2
    have hi2 := e2.inv
    split
    all_goals
      refine EvolOut.bind (hk2.setNode rfl hi2) fun _ s4 _ e4 => ?_
      exact (Pres.bind (hR.ev _) fun _ => Pres.pure _) _ e4.inv
  · exact Pres.die _ _ hi
macro_rules | `(tactic| pres1) => `(tactic| with_reducible exact pres_handleDeclSwitch ‹_› _ _)

theorem pres_handleDeclStep (hR : RPres E R) (a b) : Pres E (Bic.handleDeclStep R a b) := by
  unfold Bic.handleDeclStep
  repeat' pres1
macro_rules | `(tactic| pres1) => `(tactic| with_reducible exact pres_handleDeclStep ‹_› _ _)

theorem pres_mapTypedefStep (hR : RPres E R) (a b) : Pres E (Bic.mapTypedefStep R a b) := by
  unfold Bic.mapTypedefStep
  repeat' pres1
macro_rules | `(tactic| pres1) => `(tactic| with_reducible exact pres_mapTypedefStep ‹_› _ _)

theorem pres_resolveSymbol (i) : Pres E (Bic.resolveSymbol E i) := by
  unfold Bic.resolveSymbol
  repeat' pres1
macro_rules | `(tactic| pres1) => `(tactic| with_reducible exact pres_resolveSymbol _)

theorem pres_handleExternFn (ty : Ref) (fd : TId) : Pres E (Bic.handleExternFn ty fd) := by
  intro s hi
  unfold Bic.handleExternFn
  refine EvolOut.bind (Pres.node _ s hi) fun n s' hn _ => ?_
  obtain ⟨rfl, hn⟩ := node_ok hn
  split
  · refine EvolOut.bind ((show HasKey s' fd _ from ⟨_, hn, rfl⟩).setNode rfl hi) fun _ s2 _ e2 => ?_
    refine Pres.at ?_ e2.inv
    repeat' pres1
  · exact Pres.ub _ _ hi
macro_rules | `(tactic| pres1) => `(tactic| with_reducible exact pres_handleExternFn _ _)

theorem pres_sameTypeTag (a b) : Pres E (Bic.sameTypeTag a b) := by
  unfold Bic.sameTypeTag
  repeat' pres1
macro_rules | `(tactic| pres1) => `(tactic| with_reducible exact pres_sameTypeTag _ _)

theorem pres_handleExternDecl (hR : RPres E R) (a b) : Pres E (Bic.handleExternDecl E R a b) := by
  unfold Bic.handleExternDecl
  repeat' pres1
macro_rules | `(tactic| pres1) => `(tactic| with_reducible exact pres_handleExternDecl ‹_› _ _)

theorem pres_evalExtFunc (hR : RPres E R) (a) : Pres E (Bic.evalExtFunc E R a) := by
  unfold Bic.evalExtFunc
  repeat' pres1
macro_rules | `(tactic| pres1) => `(tactic| with_reducible exact pres_evalExtFunc ‹_› _)

theorem pres_forEachLast {f : TId → M Ref} (hf : ∀ t, Pres E (f t)) (a l) : Pres E (Bic.forEachLast f a l) := by
  induction l generalizing a with
  | nil => exact Pres.pure _
  | cons t l ih => exact Pres.bind (hf t) fun r => ih r

theorem pres_eachDecl {f : Ref → M Ref} (hf : ∀ t, Pres E (f t)) (d) : Pres E (Bic.eachDecl f d) := by
  unfold Bic.eachDecl
  refine Pres.bind (Pres.peek _) fun _ => ?_
  split
  · exact pres_forEachLast (fun t => hf (some t)) _ _
  · exact hf _
macro_rules | `(tactic| pres1) => `(tactic| (with_reducible refine pres_forEachLast (fun _ => ?_) _ _))
macro_rules | `(tactic| pres1) => `(tactic| (with_reducible refine pres_eachDecl (fun _ => ?_) _))

theorem pres_handleForwardDecl (t) : Pres E (Bic.handleForwardDecl t) := by
  intro s hi
  unfold Bic.handleForwardDecl
  refine EvolOut.bind (Pres.nodeR _ s hi) fun n s' hn _ => ?_
  obtain ⟨rfl, _⟩ := nodeR_ok hn
  split
  · refine EvolOut.bind (pres_idStr _ _ hi) fun nm s2 h2 _ => ?_
    have := idStr_ok h2; subst this
    refine EvolOut.bind (Pres.get _ hi) fun st s3 h3 _ => ?_
    cases h3
    cases hres : resolveGlobal nm (compNS _) s2 with
    | some _ => exact Pres.pure _ _ hi
    | none =>
      refine EvolOut.bind (Pres.mk (by simp) _ hi) fun f s4 h4 e4 => ?_
      cases h4
      refine EvolOut.bind (Pres.mapInTag _ _ _ e4.inv ⟨_, addNode_self _ _, rfl⟩) fun _ s5 _ e5 => ?_
      exact Pres.pure _ _ e5.inv
  · exact Pres.stop _ _ hi
macro_rules | `(tactic| pres1) => `(tactic| with_reducible exact pres_handleForwardDecl _)

theorem pres_firstFnDef (l) : Pres E (Bic.firstFnDef l) := by
  induction l with
  | nil => unfold Bic.firstFnDef; repeat' pres1
  | cons _ _ ih =>
    unfold Bic.firstFnDef
    repeat' first | with_reducible exact ih | pres1
macro_rules | `(tactic| pres1) => `(tactic| with_reducible exact pres_firstFnDef _)

theorem pres_handleStaticDecl (hR : RPres E R) (ty : Ref) (t : TId) (decls : Ref) {s : St} (hi : Inv s)
    (hk : HasKey s t .declLike) : EvolOutX (· = t) E s (Bic.handleStaticDecl R ty t decls s) := by
  unfold Bic.handleStaticDecl
  refine EvolOutX.bind ?_ fun fd s' h1 e1 => ?_
  · refine Pres.at ?_ hi
    repeat' pres1
  have hi1 := e1.inv
  have hk1 := hk.evol e1
  cases fd with
  | some f => exact EvolOutX.any (hR.handleDecl _ _ _ hi1)
  | none =>
    refine scope_evol hi1 _ (pres_eachDecl (fun d => hR.handleDecl d ty) decls) ?_
    intro r s2 s3 c hc hp h
    simp only [bind_apply]
    unfold Bic.curCtx
    cases hcs : s3.ctxs with
    | nil => exact EvolX.any (hp.transF h)
    | cons c' cs =>
      have e5 : EvolOutX (· = t) E s3 (setNode t (.staticCtx c'.ids) s3) :=
        ((hk1.evol hp).evol h).setDecl rfl h.inv
      have e6 := pop_evol hc hp.any (h.any.trans e5)
      have e7 : EvolOutX (· = t) E s' ((do popCtx; let _ ← R.ev (some t); Pure.pure r) 
          { s3 with nodes := fun x => if x = t then some (.staticCtx c'.ids) else s3.nodes x }) := by
        rw [bind_apply]
        cases hpop : popCtx { s3 with nodes := fun x => if x = t then some (.staticCtx c'.ids) else s3.nodes x } with
        | ok u s4 =>
          rw [hpop] at e6
          exact Pres.out_trans e6 (EvolOutX.any ((Pres.bind (hR.ev _) fun _ => Pres.pure _) _ e6.inv))
        | stop w s4 => rw [hpop] at e6; exact e6
        | fuel => trivial
      exact e7

theorem pres_evalDeclX (hR : RPres E R) (t : TId) (specs decls : Ref) {s : St} (hi : Inv s)
    (hk : HasKey s t .declLike) : EvolOutX (· = t) E s (Bic.evalDecl E R t specs decls s) := by
  unfold Bic.evalDecl
  refine EvolOutX.bind (pres_resolveSpecs _ _ hi) fun ty s1 _ e1 => ?_
  refine EvolOutX.bind (Pres.peek _ _ e1.inv) fun tn s2 _ e2 => ?_
  have hk2 := (hk.evol e1).evol e2
  split
  · exact EvolOutX.any (pres_handleForwardDecl _ _ e2.inv)
  · refine EvolOutX.bind ?_ fun ty' s3 _ e3 => ?_
    · refine Pres.at ?_ e2.inv
      repeat' pres1
    have hk3 := hk2.evol e3
    refine EvolOutX.bind (pres_chainElems _ _ e3.inv) fun ks s4 _ e4 => ?_
    refine EvolOutX.bind (pres_chainHasKw _ _ _ e4.inv) fun b5 s5 _ e5 => ?_
    split
    · refine EvolOutX.any (Pres.at ?_ e5.inv)
      repeat' pres1
    refine EvolOutX.bind (pres_chainHasKw _ _ _ e5.inv) fun b6 s6 _ e6 => ?_
    split
    · refine EvolOutX.any (Pres.at ?_ e6.inv)
      repeat' pres1
    refine EvolOutX.bind (pres_chainHasKw _ _ _ e6.inv) fun b7 s7 _ e7 => ?_
    split
    · exact pres_handleStaticDecl hR _ _ _ e7.inv ((((hk3.evol e4).evol e5).evol e6).evol e7)
    · refine EvolOutX.any (Pres.at ?_ e7.inv)
      repeat' pres1

theorem pres_evalDecl (hR : RPres E R) (t : TId) (specs decls off : _) {s : St} (hi : Inv s)
    (hn : s.nodes t = some (.decl specs decls off)) : EvolOut E s (Bic.evalDecl E R t specs decls s) :=
  (pres_evalDeclX hR t specs decls hi ⟨_, hn, rfl⟩).drop fun ms h => by rw [hn] at h; cases h

theorem pres_storeLong (c a v) : Pres E (Bic.storeLong E c a v) := by
  unfold Bic.storeLong
  repeat' pres1
macro_rules | `(tactic| pres1) => `(tactic| with_reducible exact pres_storeLong _ _ _)

theorem pres_assignInteger (a b) : Pres E (Bic.assignInteger E a b) := by
  unfold Bic.assignInteger
  repeat' pres1
macro_rules | `(tactic| pres1) => `(tactic| with_reducible exact pres_assignInteger _ _)

theorem pres_assignFloat (a b) : Pres E (Bic.assignFloat E a b) := by
  unfold Bic.assignFloat
  repeat' pres1
macro_rules | `(tactic| pres1) => `(tactic| with_reducible exact pres_assignFloat _ _)

theorem pres_modifyBytes (a bs) : Pres E (modify fun s => { s with mem := s.mem.storeBytes a bs }) :=
  fun _ h => Evol.storeBytes h _ _
macro_rules | `(tactic| pres1) => `(tactic| with_reducible exact pres_modifyBytes _ _)

theorem pres_assignPtr (a b) : Pres E (Bic.assignPtr a b) := by
  unfold Bic.assignPtr
  repeat' pres1
macro_rules | `(tactic| pres1) => `(tactic| with_reducible exact pres_assignPtr _ _)

theorem pres_evalAssign (hR : RPres E R) (a b) : Pres E (Bic.evalAssign E R a b) := by
  unfold Bic.evalAssign
  repeat' pres1
macro_rules | `(tactic| pres1) => `(tactic| with_reducible exact pres_evalAssign ‹_› _ _)

theorem pres_liveVarAdd (a b) : Pres E (Bic.liveVarAdd E a b) := by
  unfold Bic.liveVarAdd
  repeat' pres1
macro_rules | `(tactic| pres1) => `(tactic| with_reducible exact pres_liveVarAdd _ _)

theorem pres_evalLvalue (hR : RPres E R) (a) : Pres E (Bic.evalLvalue R a) := by
  unfold Bic.evalLvalue
  repeat' pres1
macro_rules | `(tactic| pres1) => `(tactic| with_reducible exact pres_evalLvalue ‹_› _)

theorem pres_evalPost (hR : RPres E R) (a b) : Pres E (Bic.evalPost E R a b) := by
  unfold Bic.evalPost
  repeat' pres1
macro_rules | `(tactic| pres1) => `(tactic| with_reducible exact pres_evalPost ‹_› _ _)

theorem pres_evalPre (hR : RPres E R) (a b) : Pres E (Bic.evalPre E R a b) := by
  unfold Bic.evalPre
  repeat' pres1
macro_rules | `(tactic| pres1) => `(tactic| with_reducible exact pres_evalPre ‹_› _ _)

theorem pres_evalNegate (hR : RPres E R) (a) : Pres E (Bic.evalNegate R a) := by
  unfold Bic.evalNegate
  repeat' pres1
macro_rules | `(tactic| pres1) => `(tactic| with_reducible exact pres_evalNegate ‹_› _)

theorem pres_evalOnesComp (hR : RPres E R) (a) : Pres E (Bic.evalOnesComp R a) := by
  unfold Bic.evalOnesComp
  repeat' pres1
macro_rules | `(tactic| pres1) => `(tactic| with_reducible exact pres_evalOnesComp ‹_› _)

theorem pres_evalBin (hR : RPres E R) (a b c) : Pres E (Bic.evalBin R a b c) := by
  unfold Bic.evalBin
  repeat' pres1
macro_rules | `(tactic| pres1) => `(tactic| with_reducible exact pres_evalBin ‹_› _ _ _)

theorem pres_evalCmp (hR : RPres E R) (a b c) : Pres E (Bic.evalCmp R a b c) := by
  unfold Bic.evalCmp
  repeat' pres1
macro_rules | `(tactic| pres1) => `(tactic| with_reducible exact pres_evalCmp ‹_› _ _ _)

theorem pres_evalLOr (hR : RPres E R) (a b) : Pres E (Bic.evalLOr R a b) := by
  unfold Bic.evalLOr
  repeat' pres1
macro_rules | `(tactic| pres1) => `(tactic| with_reducible exact pres_evalLOr ‹_› _ _)

theorem pres_evalLAnd (hR : RPres E R) (a b) : Pres E (Bic.evalLAnd R a b) := by
  unfold Bic.evalLAnd
  repeat' pres1
macro_rules | `(tactic| pres1) => `(tactic| with_reducible exact pres_evalLAnd ‹_› _ _)

theorem pres_evalCast (hR : RPres E R) (a b) : Pres E (Bic.evalCast E R a b) := by
  unfold Bic.evalCast
  repeat' pres1
macro_rules | `(tactic| pres1) => `(tactic| with_reducible exact pres_evalCast ‹_› _ _)

theorem pres_cscriptExit (hR : RPres E R) (a) : Pres E (Bic.cscriptExit R a) := by
  unfold Bic.cscriptExit
  repeat' pres1
macro_rules | `(tactic| pres1) => `(tactic| with_reducible exact pres_cscriptExit ‹_› _)

theorem ctxsEvol_setRetval (uid r) (l : List Ctx) :
    CtxsEvol l (l.map fun c => if c.uid = uid then { c with retval := r } else c) := by
  induction l with
  | nil => exact .nil
  | cons c l ih =>
    refine .cons ?_ ih
    show CtxEvol c (if c.uid = uid then _ else _)
    split
    · exact { CtxEvol.refl c with }
    · exact .refl c

theorem pres_setRetval (uid r) : Pres E (Bic.setRetval uid r) := by
  intro s hi
  have hc := ctxsEvol_setRetval uid r s.ctxs
  have hmem : ∀ d ∈ s.ctxs.map (fun c => if c.uid = uid then { c with retval := r } else c),
      ∃ c ∈ s.ctxs, d.structs = c.structs ∧ d.unions = c.unions ∧ d.shouldBreak = c.shouldBreak := by
    intro d hd
    obtain ⟨c, hc, rfl⟩ := List.mem_map.mp hd
    refine ⟨c, hc, ?_⟩
    split <;> exact ⟨rfl, rfl, rfl⟩
  exact
    { inv := by
        refine ⟨hi.wf, hi.uids.evol hc, ?_⟩
        intro d hd
        obtain ⟨c, hc, h1, h2, _⟩ := hmem d hd
        rw [h1, h2]; exact hi.tags c hc
      next := Nat.le_refl _
      nodes := fun _ n hn => ⟨n, hn, .refl n⟩
      nobrk := by
        intro hb
        refine ⟨hb.1, fun d hd => ?_⟩
        obtain ⟨c, hc, _, _, h3⟩ := hmem d hd
        rw [h3]; exact hb.2 c hc
      ctxs := ⟨[], _, rfl, hc, fun _ _ => rfl⟩
      nextUid := Nat.le_refl _
      includeCtx := rfl
      includes := rfl
      closures := List.suffix_rfl
      events := List.prefix_rfl
      mem := fun _ => ⟨fun _ h => h, Nat.le_refl _, id⟩
      outer := Outer.map (fun c => by split <;> exact ⟨rfl, rfl, rfl⟩) _
      statics := fun _ _ _ h => h }
macro_rules | `(tactic| pres1) => `(tactic| with_reducible exact pres_setRetval _ _)

theorem pres_evalElems (hR : RPres E R) (l) : Pres E (Bic.evalElems R l) := by
  induction l with
  | nil => unfold Bic.evalElems; repeat' pres1
  | cons _ _ ih =>
    unfold Bic.evalElems
    repeat' first | with_reducible exact ih | pres1
macro_rules | `(tactic| pres1) => `(tactic| with_reducible exact pres_evalElems ‹_› _)

theorem pres_evaluate (hR : RPres E R) (h) : Pres E (Bic.evaluate R h) := by
  unfold Bic.evaluate
  repeat' pres1
macro_rules | `(tactic| pres1) => `(tactic| with_reducible exact pres_evaluate ‹_› _)

/-- a loop body: leaving by `break` leaks the scope -/
theorem loop_evol {s : St} (hi : Inv s) (name : String) {body : M Unit} (hb : Pres E body)
    {rest : M Ref} (hr : Pres E rest) :
    EvolOut E s ((do
      pushCtx name
      body
      let k ← curCtx
      if k.shouldBreak then Pure.pure none
      else do
        popCtx
        rest) s) := by
  refine scope_evol hi name hb ?_
  intro _ s1 s2 c hc hp h
  rw [bind_apply]
  unfold Bic.curCtx
  cases hcs : s2.ctxs with
  | nil => exact hp.transF h
  | cons k cs =>
    simp only
    split
    · rename_i hk
      refine (hp.transF h).upgrade fun hn => ?_
      have := (h.nobrk (hp.nobrk hn)).2 k (by rw [hcs]; exact List.mem_cons_self)
      rw [this] at hk; cases hk
    · have e := pop_evol hc hp h
      rw [bind_apply]
      cases hpop : popCtx s2 with
      | ok u s4 => rw [hpop] at e; exact Pres.out_trans e (hr _ e.inv)
      | stop w s4 => rw [hpop] at e; exact e
      | fuel => trivial

theorem pres_loopForStep (hR : RPres E R) (c a b) : Pres E (Bic.loopForStep R c a b) := by
  unfold Bic.loopForStep
  refine Pres.bind (hR.ev _) fun _ => Pres.bind (pres_convComparable hR _) fun v => ?_
  split
  · exact Pres.pure _
  · exact fun s hi => loop_evol hi _ (pres_evaluate hR _)
      (Pres.bind (hR.ev _) fun _ => hR.loopFor _ _ _)

theorem pres_loopWhileStep (hR : RPres E R) (c b) : Pres E (Bic.loopWhileStep R c b) := by
  unfold Bic.loopWhileStep
  refine Pres.bind (hR.ev _) fun _ => Pres.bind (pres_convComparable hR _) fun v => ?_
  split
  · exact Pres.pure _
  · exact fun s hi => loop_evol hi _ (pres_evaluate hR _) (hR.loopWhile _ _)

theorem pres_evalInfix (hR : RPres E R) (a b c) : Pres E (Bic.evalInfix R a b c) := by
  unfold Bic.evalInfix
  repeat' pres1
macro_rules | `(tactic| pres1) => `(tactic| with_reducible exact pres_evalInfix ‹_› _ _ _)

theorem pres_evalIf (hR : RPres E R) (c t e) : Pres E (Bic.evalIf R c t e) := by
  unfold Bic.evalIf
  refine Pres.bind (pres_convComparable hR _) fun v => ?_
  intro s hi
  have hbody : Pres E (if mpzGetSi v = 0 then Bic.evaluate R e else Bic.evaluate R t) := by
    split <;> exact pres_evaluate hR _
  refine scope_evol hi _ hbody ?_
  intro _ s1 s2 c hc hp h
  have e := pop_evol hc hp h
  rw [bind_apply]
  cases hpop : popCtx s2 with
  | ok u s4 => rw [hpop] at e; exact e
  | stop w s4 => rw [hpop] at e; exact e
  | fuel => trivial
macro_rules | `(tactic| pres1) => `(tactic| with_reducible exact pres_evalIf ‹_› _ _ _)

theorem pres_evalReturn (hR : RPres E R) (t : TId) (e : Ref) {s : St} (hi : Inv s)
    (hk : HasKey s t .ret) : EvolOut E s (Bic.evalReturn R t e s) := by
  unfold Bic.evalReturn
  refine EvolOut.bind (hR.ev _ _ hi) fun v s1 _ e1 => ?_
  refine EvolOut.bind ((hk.evol e1).setNode rfl e1.inv) fun _ s2 _ e2 => ?_
  exact Pres.pure _ _ e2.inv

theorem pres_evalExprList (hR : RPres E R) (a) : Pres E (Bic.evalExprList R a) := by
  unfold Bic.evalExprList
  repeat' pres1
macro_rules | `(tactic| pres1) => `(tactic| with_reducible exact pres_evalExprList ‹_› _)

theorem pres_expandDeclarators (specs l) : Pres E (Bic.expandDeclarators specs l) := by
  induction l with
  | nil => exact Pres.pure _
  | cons d ds ih =>
    intro s hi
    unfold Bic.expandDeclarators
    refine EvolOut.bind (Pres.mk (by simp) _ hi) fun nd s1 h1 e1 => ?_
    have hk : s1.nodes nd = some (.decl none none 0) := by cases h1; exact addNode_self _ _
    refine EvolOut.bind (Pres.node _ _ e1.inv) fun n s2 hn e2 => ?_
    obtain ⟨rfl, -⟩ := node_ok hn
    split
    · exact ih _ e2.inv
    · refine EvolOut.bind (m := Bic.setNode nd _) (by exact Evol.setNode e2.inv hk (.inr ⟨by rfl, by simp [mutKey]⟩) (.inr (by simp))) fun _ s3 _ e3 => ?_
      exact (Pres.bind ih fun _ => Pres.pure _) _ e3.inv
macro_rules | `(tactic| pres1) => `(tactic| with_reducible exact pres_expandDeclarators _ _)

theorem pres_expandDecls (l) : Pres E (Bic.expandDecls l) := by
  induction l with
  | nil => unfold Bic.expandDecls; repeat' pres1
  | cons _ _ ih =>
    unfold Bic.expandDecls
    repeat' first | with_reducible exact ih | pres1
macro_rules | `(tactic| pres1) => `(tactic| with_reducible exact pres_expandDecls _)

theorem pres_alignmentStep (hR : RPres E R) (a) : Pres E (Bic.alignmentStep R a) := by
  unfold Bic.alignmentStep
  repeat' pres1
macro_rules | `(tactic| pres1) => `(tactic| with_reducible exact pres_alignmentStep ‹_› _)

theorem pres_layoutLoop (hR : RPres E R) (i a b l) : Pres E (Bic.layoutLoop R i a b l) := by
  induction l generalizing a b with
  | nil => exact Pres.pure _
  | cons d ds ih =>
    intro s hi
    unfold Bic.layoutLoop
    obtain ⟨c, s1, h1, hc, hp, hi1, -⟩ := Pres.pushEvol (E := E) hi "Compound Declaration"
    rw [bind_apply, h1]
    refine in_bind hp (.refl _ hi1) (hR.ev _ _ hi1) fun _ s2 _ _ h2 => ?_
    refine in_bind hp h2 (pres_resolveIdC _ _ h2.inv) fun _ s3 _ _ h3 => ?_
    refine in_bind hp h3 (pres_getSizeOfType hR _ _ h3.inv) fun _ s4 _ _ h4 => ?_
    refine in_bind hp h4 (hR.alignment _ _ h4.inv) fun _ s5 _ _ h5 => ?_
    refine in_bind hp h5 (Pres.node _ _ h5.inv) fun n s6 h6 _ _ => ?_
    obtain ⟨rfl, hn⟩ := node_ok h6
    cases n
    case decl specs decls off =>
      refine in_bind (m := Bic.setNode d _) hp h5 (by exact Evol.setNode h5.inv hn (.inr ⟨by rfl, by simp [mutKey]⟩) (.inr (by simp))) fun _ s7 _ _ h7 => ?_
      exact pop_bind hc hp h7 fun _ => ih _ _
    all_goals exact in_bind hp h5 (Pres.ub _ _ h5.inv) fun _ s7 h7 _ _ => by cases h7
macro_rules | `(tactic| pres1) => `(tactic| with_reducible exact pres_layoutLoop ‹_› _ _ _ _)

theorem pres_expandCompound (hR : RPres E R) (t) : Pres E (Bic.expandCompound R t) := by
  intro s hi
  unfold Bic.expandCompound
  refine EvolOut.bind (Pres.node _ _ hi) fun n s1 h1 _ => ?_
  obtain ⟨rfl, hn⟩ := node_ok h1
  split
  · have hk : HasKey s1 t .comp := ⟨_, hn, rfl⟩
    split
    · exact Pres.pure _ _ hi
    · refine EvolOut.bind (pres_chainElems _ _ hi) fun ds s2 _ e2 => ?_
      refine EvolOut.bind (pres_expandDecls _ _ e2.inv) fun es s3 _ e3 => ?_
      refine EvolOut.bind (Pres.mk (by simp) _ e3.inv) fun ch s4 _ e4 => ?_
      have hk4 := ((hk.evol e2).evol e3).evol e4
      refine EvolOut.bind (hk4.setNode rfl e4.inv) fun _ s5 _ e5 => ?_
      refine EvolOut.bind (pres_layoutLoop hR _ _ _ _ _ e5.inv) fun p s6 _ e6 => ?_
      refine EvolOut.bind (((hk4.evol e5).evol e6).setNode rfl e6.inv) fun _ s7 _ e7 => ?_
      exact Pres.pure _ _ e7.inv
  · exact Pres.ub _ _ hi
macro_rules | `(tactic| pres1) => `(tactic| with_reducible exact pres_expandCompound ‹_› _)

theorem findId_mem {name : String} {l : List Binding} {v : TId} (h : findId name l = some v) :
    ∃ b ∈ l, b.val = some v := by
  induction l with
  | nil => cases h
  | cons b l ih =>
    unfold findId at h
    split at h
    · exact ⟨b, List.mem_cons_self, h⟩
    · obtain ⟨b', hb, hv⟩ := ih h
      exact ⟨b', List.mem_cons_of_mem _ hb, hv⟩

theorem pres_evalDeclCompound (hR : RPres E R) (t : TId) (id decls : Ref) (isS : Bool) {s : St}
    (hi : Inv s) (hk : HasKey s t .comp) : EvolOut E s (Bic.evalDeclCompound R t id decls isS s) := by
  unfold Bic.evalDeclCompound
  split
  · refine Pres.at ?_ hi
    repeat' pres1
  · split
    · exact pres_expandCompound hR _ _ hi
    · refine EvolOut.bind (pres_idStr _ _ hi) fun nm s1 h1 _ => ?_
      have := idStr_ok h1; subst this
      refine EvolOut.bind (Pres.get _ hi) fun st s2 h2 _ => ?_
      cases h2
      cases hres : resolveCurrent nm (compNS isS) s1 with
      | some f =>
        have hkf : HasKey s1 f .comp := by
          unfold resolveCurrent at hres
          split at hres
          · rename_i c cs hc
            obtain ⟨b, hb, hv⟩ := findId_mem hres
            have ht := hi.tags c (by rw [hc]; exact List.mem_cons_self)
            cases isS
            · exact ht.2 b hb f hv
            · exact ht.1 b hb f hv
          · cases hres
        refine EvolOut.bind (Pres.node _ _ hi) fun n s3 h3 _ => ?_
        obtain ⟨rfl, hn⟩ := node_ok h3
        obtain ⟨n', hn', hk'⟩ := hk
        rw [hn] at hn'; cases hn'
        refine EvolOut.bind (hkf.setNode hk' hi) fun _ s4 _ e4 => ?_
        exact pres_expandCompound hR _ _ e4.inv
      | none =>
        refine EvolOut.bind (Pres.mapInTag _ _ _ hi hk) fun _ s4 _ e4 => ?_
        exact pres_expandCompound hR _ _ e4.inv

theorem pres_enumLoop (hR : RPres E R) (v l) : Pres E (Bic.enumLoop R v l) := by
  induction l generalizing v with
  | nil => unfold Bic.enumLoop; repeat' pres1
  | cons _ _ ih =>
    unfold Bic.enumLoop
    repeat' first | with_reducible exact ih _ | pres1
macro_rules | `(tactic| pres1) => `(tactic| with_reducible exact pres_enumLoop ‹_› _ _)

theorem pres_evalEnumerator (hR : RPres E R) (a b) : Pres E (Bic.evalEnumerator R a b) := by
  unfold Bic.evalEnumerator
  repeat' pres1
macro_rules | `(tactic| pres1) => `(tactic| with_reducible exact pres_evalEnumerator ‹_› _ _)

theorem pres_evalCompAccess (hR : RPres E R) (a b) : Pres E (Bic.evalCompAccess R a b) := by
  unfold Bic.evalCompAccess
  repeat' pres1
macro_rules | `(tactic| pres1) => `(tactic| with_reducible exact pres_evalCompAccess ‹_› _ _)

theorem pres_evalDeref (hR : RPres E R) (a) : Pres E (Bic.evalDeref R a) := by
  unfold Bic.evalDeref
  repeat' pres1
macro_rules | `(tactic| pres1) => `(tactic| with_reducible exact pres_evalDeref ‹_› _)

theorem pres_evalArrayAccess (hR : RPres E R) (a b) : Pres E (Bic.evalArrayAccess R a b) := by
  unfold Bic.evalArrayAccess
  repeat' pres1
macro_rules | `(tactic| pres1) => `(tactic| with_reducible exact pres_evalArrayAccess ‹_› _ _)

theorem pres_sizeofType (a b) : Pres E (Bic.sizeofType a b) := by
  unfold Bic.sizeofType
  repeat' pres1
macro_rules | `(tactic| pres1) => `(tactic| with_reducible exact pres_sizeofType _ _)

theorem pres_evalSizeof (hR : RPres E R) (a) : Pres E (Bic.evalSizeof R a) := by
  unfold Bic.evalSizeof
  repeat' pres1
macro_rules | `(tactic| pres1) => `(tactic| with_reducible exact pres_evalSizeof ‹_› _)

theorem pres_evalTypeSpec (hR : RPres E R) (a b) : Pres E (Bic.evalTypeSpec R a b) := by
  unfold Bic.evalTypeSpec
  repeat' pres1
macro_rules | `(tactic| pres1) => `(tactic| with_reducible exact pres_evalTypeSpec ‹_› _ _)

theorem pres_closureArgTypes (hR : RPres E R) (n l) : Pres E (Bic.closureArgTypes R n l) := by
  induction l generalizing n with
  | nil => unfold Bic.closureArgTypes; repeat' pres1
  | cons _ _ ih =>
    unfold Bic.closureArgTypes
    repeat' first | with_reducible exact ih _ | pres1
macro_rules | `(tactic| pres1) => `(tactic| with_reducible exact pres_closureArgTypes ‹_› _ _)

theorem pres_modifyClosures (a c) : Pres E (modify fun s => { s with closures := (a, c) :: s.closures }) :=
  fun s h =>
    { inv := ⟨h.wf, h.uids, h.tags⟩
      next := Nat.le_refl _
      nodes := fun _ n hn => ⟨n, hn, .refl n⟩
      nobrk := fun h => h
      ctxs := ⟨[], s.ctxs, rfl, .refl _, fun _ _ => rfl⟩
      nextUid := Nat.le_refl _
      includeCtx := rfl
      includes := rfl
      closures := List.suffix_cons _ _
      events := List.prefix_rfl
      mem := fun _ => ⟨fun _ h => h, Nat.le_refl _, id⟩
      outer := .refl _
      statics := fun _ _ _ h => h }
macro_rules | `(tactic| pres1) => `(tactic| with_reducible exact pres_modifyClosures _ _)

theorem pres_entryPointForFn (hR : RPres E R) (f) : Pres E (Bic.entryPointForFn R f) := by
  unfold Bic.entryPointForFn
  repeat' pres1
macro_rules | `(tactic| pres1) => `(tactic| with_reducible exact pres_entryPointForFn ‹_› _)

theorem pres_evalAddr (hR : RPres E R) (a) : Pres E (Bic.evalAddr R a) := by
  unfold Bic.evalAddr
  repeat' pres1
macro_rules | `(tactic| pres1) => `(tactic| with_reducible exact pres_evalAddr ‹_› _)

theorem pres_evalStaticCtx (a l) : Pres E (Bic.evalStaticCtx a l) := by
  induction l generalizing a with
  | nil => unfold Bic.evalStaticCtx; repeat' pres1
  | cons _ _ ih =>
    unfold Bic.evalStaticCtx
    repeat' first | with_reducible exact ih _ | pres1
macro_rules | `(tactic| pres1) => `(tactic| with_reducible exact pres_evalStaticCtx _ _)

theorem pres_marshalArg (a b) : Pres E (Bic.marshalArg E a b) := by
  unfold Bic.marshalArg
  repeat' pres1
macro_rules | `(tactic| pres1) => `(tactic| with_reducible exact pres_marshalArg _ _)

theorem pres_marshalArgs (a n l) : Pres E (Bic.marshalArgs E a n l) := by
  induction l generalizing a n with
  | nil => unfold Bic.marshalArgs; repeat' pres1
  | cons _ _ ih =>
    unfold Bic.marshalArgs
    repeat' first | with_reducible exact ih _ _ | pres1
macro_rules | `(tactic| pres1) => `(tactic| with_reducible exact pres_marshalArgs _ _ _)

theorem pres_closureArgs (l : List TId) (as : List FfiArg) : Pres E (Bic.closureArgs l as) := by
  induction l generalizing as with
  | nil => unfold Bic.closureArgs; exact Pres.pure _
  | cons t ts ih =>
    cases as with
    | nil => unfold Bic.closureArgs; exact Pres.ub _
    | cons a as =>
      unfold Bic.closureArgs
      repeat' first | with_reducible exact ih _ | pres1
macro_rules | `(tactic| pres1) => `(tactic| with_reducible exact pres_closureArgs _ _)

theorem pres_extEvent (fa as variadic) : Pres E (do
    let s ← Bic.get
    let (m, bytes) := E.extCall fa as s.mem
    modify fun s => { s with mem := m, events := s.events ++ [{ addr := fa, args := as, variadic }] }
    Pure.pure bytes) := by
  intro s h
  exact
    { inv := ⟨h.wf, h.uids, h.tags⟩
      next := Nat.le_refl _
      nodes := fun _ n hn => ⟨n, hn, .refl n⟩
      nobrk := fun h => h
      ctxs := ⟨[], s.ctxs, rfl, .refl _, fun _ _ => rfl⟩
      nextUid := Nat.le_refl _
      includeCtx := rfl
      includes := rfl
      closures := List.suffix_rfl
      events := List.prefix_append _ _
      outer := .refl _
      statics := fun _ _ _ h => h
      mem := fun hE => hE fa as s.mem }

theorem pres_doExtCall (hR : RPres E R) (fa args retLv variadic) :
    Pres E (Bic.doExtCall E R fa args retLv variadic) := by
  unfold Bic.doExtCall
  refine Pres.bind (pres_marshalArgs _ _ _) fun as => ?_
  have hext : ∀ bytesTo : List Byte → M Unit, (∀ b, Pres E (bytesTo b)) → Pres E (do
      let s ← Bic.get
      let (m, bytes) := E.extCall fa as s.mem
      modify fun s => { s with mem := m, events := s.events ++ [{ addr := fa, args := as, variadic }] }
      bytesTo bytes) := by
    intro f hf s hi
    have h : Evol E true s _ := pres_extEvent (E := E) fa as variadic s hi
    exact Pres.out_trans h (hf _ _ h.inv)
  cases retLv with
  | none =>
    refine Pres.bind Pres.get fun st => ?_
    cases findClosure fa st.closures with
    | none => exact hext (fun _ => Pure.pure ()) fun _ => Pres.pure _
    | some c => simp only; repeat' pres1
  | some r =>
    refine Pres.bind (pres_lvFields _) fun p => Pres.bind (pres_typeOf _) fun ty => ?_
    cases ty with
    | none =>
      refine Pres.bind (Pres.stop _) fun _ => ?_
      refine Pres.bind Pres.get fun st => ?_
      cases findClosure fa st.closures with
      | none =>
        refine hext (fun bytes => do
            let (_, a) ← Bic.lvFields r
            modify fun s => { s with mem := s.mem.storeBytes a bytes }) fun _ => ?_
        repeat' pres1
      | some c => simp only; repeat' pres1
    | some ty =>
      refine Pres.bind Pres.get fun st => ?_
      cases findClosure fa st.closures with
      | none =>
        refine hext (fun bytes => do
            let (_, a) ← Bic.lvFields r
            modify fun s => { s with mem := s.mem.storeBytes a bytes }) fun _ => ?_
        repeat' pres1
      | some c => simp only; repeat' pres1
macro_rules | `(tactic| pres1) => `(tactic| with_reducible exact pres_doExtCall ‹_› _ _ _ _)

theorem pres_evalFnArgs (hR : RPres E R) (l) : Pres E (Bic.evalFnArgs R l) := by
  induction l with
  | nil => unfold Bic.evalFnArgs; repeat' pres1
  | cons _ _ ih =>
    unfold Bic.evalFnArgs
    repeat' first | with_reducible exact ih | pres1
macro_rules | `(tactic| pres1) => `(tactic| with_reducible exact pres_evalFnArgs ‹_› _)

theorem pres_variadicPos (n l) : Pres E (Bic.variadicPos n l) := by
  induction l generalizing n with
  | nil => unfold Bic.variadicPos; repeat' pres1
  | cons _ _ ih =>
    unfold Bic.variadicPos
    repeat' first | with_reducible exact ih _ | pres1
macro_rules | `(tactic| pres1) => `(tactic| with_reducible exact pres_variadicPos _ _)

theorem pres_bindParams (hR : RPres E R) (l l') : Pres E (Bic.bindParams R l l') := by
  induction l generalizing l' with
  | nil => unfold Bic.bindParams; exact Pres.pure _
  | cons d ds ih =>
    cases l' with
    | nil => unfold Bic.bindParams; exact Pres.pure _
    | cons a as =>
      unfold Bic.bindParams
      repeat' first | with_reducible exact ih _ | pres1
macro_rules | `(tactic| pres1) => `(tactic| with_reducible exact pres_bindParams ‹_› _ _)

/-- entering the scope of a call -/
theorem pushFn {s : St} (hi : Inv s) (name) : ∃ c s',
    (∀ {β} (f : Unit → M β), (pushCtx name >>= fun _ => modCur (fun c => { c with isFn := true }) >>= f) s = f () s') ∧
    s'.ctxs = c :: s.ctxs ∧ Evol E false s s' ∧ Inv s' ∧ c.uid = s.nextUid ∧ c.isFn = true := by
  have hi' : Inv { s with
    ctxs := { uid := s.nextUid, name, ids := [], structs := [], unions := [], allocs := [],
              retval := none, shouldBreak := false, isFn := true } :: s.ctxs,
    nextUid := s.nextUid + 1 } := by
    refine ⟨hi.wf, ⟨Nat.lt_succ_self _, hi.uids⟩, ?_⟩
    intro c hc
    rcases List.mem_cons.mp hc with rfl | hc
    · exact ⟨fun b hb => by simp at hb, fun b hb => by simp at hb⟩
    · exact hi.tags c hc
  refine ⟨_, _, fun f => rfl, rfl, ?_, hi', rfl, rfl⟩
  exact
    { inv := hi'
      next := Nat.le_refl _
      nodes := fun t n hn => ⟨n, hn, .refl n⟩
      nobrk := fun h => ⟨h.1, fun c hc => by
        rcases List.mem_cons.mp hc with rfl | hc
        · rfl
        · exact h.2 c hc⟩
      ctxs := ⟨[_], s.ctxs, rfl, .refl _, fun h => by cases h⟩
      nextUid := Nat.le_succ _
      includeCtx := rfl
      includes := rfl
      closures := List.suffix_rfl
      events := List.prefix_rfl
      mem := fun _ => ⟨fun _ h => h, Nat.le_refl _, id⟩
      outer := .push _ _
      statics := fun _ _ _ h => h }

/-- leaving a call by `return`, from whatever depth -/
theorem jump_evol {s s1 s2 : St} {c : Ctx} (hc : s1.ctxs = c :: s.ctxs) (hp : Evol E false s s1)
    (h : Evol E false s1 s2) : ∃ c' rest', popTo c.uid s2.ctxs = some (c' :: rest') ∧
      CtxEvol c c' ∧ CtxsEvol s.ctxs rest' ∧
      EvolOut E s (popCtx { s2 with ctxs := c' :: rest' }) := by
  have hF := hp.transF h
  obtain ⟨top, rest, e1, c1, t1⟩ := h.ctxs
  rw [hc] at c1
  cases c1 with
  | @cons _ c' _ rest' hcc hcr =>
  have hu := h.inv.uids
  rw [e1] at hu
  refine ⟨c', rest', ?_, hcc, hcr, ?_⟩
  · rw [e1, ← hcc.uid]; exact popTo_exact hu
  have hsub : ∀ d ∈ c' :: rest', d ∈ s2.ctxs := fun d hd => by rw [e1]; exact List.mem_append_right _ hd
  have hu2 : ∀ (n : Nat) (top : List Ctx), UidsOk n (top ++ c' :: rest') → UidsOk n (c' :: rest') := by
    intro n top
    induction top generalizing n with
    | nil => exact id
    | cons x top ih => exact fun h => (ih _ h.2).mono (Nat.le_of_lt h.1)
  have hu3 := hu2 _ _ hu
  unfold popCtx
  cases hr : rest' with
  | nil =>
    subst hr
    exact
      { inv := ⟨h.inv.wf, hu3, fun d hd => h.inv.tags d (hsub d hd)⟩
        next := hF.next
        nodes := hF.nodes
        nobrk := fun hb => ⟨(hF.nobrk hb).1, fun d hd => (hF.nobrk hb).2 d (hsub d hd)⟩
        ctxs := ⟨[c'], [], rfl, hcr, fun h => by cases h⟩
        nextUid := hF.nextUid
        includeCtx := hF.includeCtx
        includes := hF.includes
        closures := hF.closures
        events := hF.events
        mem := hF.mem
        outer := fun i x hi hx => by
          have := hcr.length; simp at this; rw [this] at hi; simp at hi
        statics := hF.statics }
  | cons y cs =>
    subst hr
    exact
      { inv := ⟨h.inv.wf, hu3.2.mono (Nat.le_of_lt hu3.1),
          fun d hd => h.inv.tags d (hsub d (List.mem_cons_of_mem _ hd))⟩
        next := hF.next
        nodes := hF.nodes
        nobrk := fun hb => ⟨(hF.nobrk hb).1,
          fun d hd => (hF.nobrk hb).2 d (hsub d (List.mem_cons_of_mem _ hd))⟩
        ctxs := ⟨[], _, rfl, hcr, fun _ _ => rfl⟩
        nextUid := hF.nextUid
        includeCtx := hF.includeCtx
        includes := hF.includes
        closures := hF.closures
        events := hF.events
        mem := hF.mem
        outer := by
          have ho := h.outer; rw [hc, e1] at ho
          exact Outer.pop (top := top ++ [c']) (by simpa using ho) (Nat.le_of_eq hcr.length)
        statics := hF.statics }

/-- a call of an interpreted function: whatever happens inside, the caller's
scopes are back afterwards -/
theorem pres_callUser (hR : RPres E R) (fd args stmts callArgs) :
    Pres E (Bic.callUser R fd args stmts callArgs) := by
  unfold Bic.callUser
  refine Pres.bind (pres_idStr _) fun name => ?_
  intro s hi
  obtain ⟨c, s1, h1, hc, hp, hi1, hu, -⟩ := pushFn (E := E) hi name
  rw [h1]
  rw [bind_apply]
  have hcur : curCtx s1 = .ok c s1 := by unfold curCtx; rw [hc]
  rw [hcur]
  simp only
  have htail : ∀ s2, Evol E true s1 s2 → EvolOut E s ((do
      let k ← curCtx
      let r ← runBody R k.uid c.uid stmts
      popCtx
      Pure.pure r) s2) := by
    intro s2 h2
    refine in_bind hp h2 (Pres.curCtx _ h2.inv) fun k s3 hk h3' h3 => ?_
    rw [bind_apply]
    unfold Bic.runBody
    have hev := pres_evaluate hR stmts s3 h3.inv
    cases hm : Bic.evaluate R stmts s3 with
    | fuel => trivial
    | ok r s4 =>
      rw [hm] at hev
      exact pop_bind hc hp (h3.trans hev) fun _ => Pres.pure _
    | stop w s4 =>
      rw [hm] at hev
      have h4 := h3.transF hev
      cases w
      case jump u =>
        simp only
        split
        · rename_i o hu' hs
          split at hs
          · obtain ⟨c', rest', hpt, -, -, e⟩ := jump_evol hc hp h4
            rw [hpt] at hs
            cases hs
            rw [bind_apply]
            generalize popCtx _ = o at e
            cases o with
            | ok _ s5 => exact e
            | stop w s5 => exact e
            | fuel => trivial
          · cases hs
        · rename_i w' s5 hs
          split at hs
          · obtain ⟨c', rest', hpt, -, -, e⟩ := jump_evol hc hp h4
            rw [hpt] at hs
            cases hs
          · cases hs; exact hp.transF h4
        · trivial
      all_goals exact hp.transF h4
  cases args with
  | none => exact htail s1 (.refl _ hi1)
  | some a =>
    refine in_bind hp (.refl _ hi1) (pres_chainElems _ _ hi1) fun ds s2 _ _ h2 => ?_
    refine in_bind hp h2 (pres_chainElems _ _ h2.inv) fun vs s3 _ _ h3 => ?_
    split
    · exact in_bind hp h3 (Pres.die _ _ h3.inv) fun _ s4 h _ _ => by cases h
    · exact in_bind hp h3 (pres_bindParams hR _ _ _ h3.inv) fun _ s4 _ _ h4 => htail s4 h4
macro_rules | `(tactic| pres1) => `(tactic| with_reducible exact pres_callUser ‹_› _ _ _ _)

theorem pres_callExtDecl (hR : RPres E R) (a b c d) : Pres E (Bic.callExtDecl E R a b c d) := by
  unfold Bic.callExtDecl
  repeat' pres1
macro_rules | `(tactic| pres1) => `(tactic| with_reducible exact pres_callExtDecl ‹_› _ _ _ _)

theorem pres_callLive (hR : RPres E R) (a b) : Pres E (Bic.callLive E R a b) := by
  unfold Bic.callLive
  repeat' pres1
macro_rules | `(tactic| pres1) => `(tactic| with_reducible exact pres_callLive ‹_› _ _)

theorem pres_callBuiltin (hR : RPres E R) (target args) : Pres E (Bic.callBuiltin R target args) := by
  unfold Bic.callBuiltin
  refine Pres.bind (Pres.mk (by simp)) fun id => ?_
  split
  · repeat' pres1
  · rename_i ch
    intro s hi
    refine EvolOut.bind (Pres.node _ _ hi) fun n s1 h1 _ => ?_
    obtain ⟨rfl, hn⟩ := node_ok h1
    split
    · refine EvolOut.bind ((show HasKey s1 ch .chain from ⟨_, hn, rfl⟩).setNode rfl hi) fun _ s2 _ e2 => ?_
      refine Pres.at ?_ e2.inv
      repeat' pres1
    · exact Pres.ub _ _ hi
macro_rules | `(tactic| pres1) => `(tactic| with_reducible exact pres_callBuiltin ‹_› _ _)

theorem pres_evalFnCall (hR : RPres E R) (a b) : Pres E (Bic.evalFnCall E R a b) := by
  unfold Bic.evalFnCall
  repeat' pres1
macro_rules | `(tactic| pres1) => `(tactic| with_reducible exact pres_evalFnCall ‹_› _ _)

theorem pres_evalNode (hR : RPres E R) (t : TId) (n : Node) {s : St} (hi : Inv s)
    (hn : s.nodes t = some n) : EvolOut E s (Bic.evalNode E R t n s) := by
  cases n
  case decl specs decls off => exact pres_evalDecl hR _ _ _ _ hi hn
  case ret e => exact pres_evalReturn hR _ _ hi ⟨_, hn, rfl⟩
  case brk => exact Pres.evalBreak hi hn
  case compound => exact pres_evalDeclCompound hR _ _ _ _ hi ⟨_, hn, rfl⟩
  case kw k => cases k <;> exact Evol.refl _ hi
  all_goals
    refine Pres.at ?_ hi
    unfold Bic.evalNode
    repeat' pres1

theorem pres_evStep (hR : RPres E R) (r) : Pres E (Bic.evStep E R r) := by
  intro s hi
  unfold Bic.evStep
  split
  · exact Pres.pure _ _ hi
  · refine EvolOut.bind (Pres.node _ _ hi) fun n s1 h1 _ => ?_
    obtain ⟨rfl, hn⟩ := node_ok h1
    exact pres_evalNode hR _ _ hi hn

theorem pres_step (hR : RPres E R) : RPres E (step E R) where
  ev x := pres_evStep hR x
  loopWhile x y := pres_loopWhileStep hR x y
  loopFor x y z := pres_loopForStep hR x y z
  resolvePtr x y := pres_resolvePtrStep hR x y
  handleDecl x y := pres_handleDeclStep hR x y
  mapTypedef x y := pres_mapTypedefStep hR x y
  instStruct x y := pres_instStructStep hR x y
  alignment x := pres_alignmentStep hR x


end

/-- Every evaluation, of whatever program and with whatever budget, relates the
states before and after by `Evol`. -/
theorem run_pres (E : Env) (n : Nat) : RPres E (run E n) := by
  induction n with
  | zero => constructor <;> intros <;> exact fun _ _ => trivial
  | succ n ih => exact pres_step ih

end Bic
