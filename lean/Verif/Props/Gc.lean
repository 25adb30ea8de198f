import Verif.Proofs.GcHist
import Verif.Spec.Histories
/-!
# Garbage collection (C45 to C49)
-/

namespace Bic
namespace Gc

theorem write_good {s : State} (hg : Good s) {a : Nat} {o o' : Obj} (hl : Legal s (.write a o)) (ho : s.heap a = some o') :
    Good { s with heap := s.heap.set a (some { o with reach := o'.reach }) } := by
  have hsome : ∀ x, ((s.heap.set a (some { o with reach := o'.reach })) x).isSome = (s.heap x).isSome := by
    intro x
    by_cases hx : x = a
    · subst hx; simp [Heap.set, ho]
    · simp [Heap.set, hx]
  refine ⟨hg.sz, ?_, hg.clean, ?_, ?_⟩
  · rcases hg.shape with ⟨_, _, _, h⟩ | ⟨used, z, u, h1, h2, h3, h4, h5, h6⟩
    · rw [h a] at ho; cases ho
    · exact .inr ⟨used, z, u, h1, h2, h3, h4, fun x => by rw [← h5]; exact Bool.eq_iff_iff.mp (hsome x), h6⟩
  · intro x ox hx
    have hx' : (s.heap.set a (some { o with reach := o'.reach })) x = some ox := hx
    by_cases hxa : x = a
    · simp only [Heap.set, if_pos hxa] at hx'
      cases hx'
      exact hg.flags a o' ho
    · simp only [Heap.set, if_neg hxa] at hx'
      exact hg.flags x ox hx'
  · rintro x y ⟨ox, hx, hy0, hy⟩
    have hx' : (s.heap.set a (some { o with reach := o'.reach })) x = some ox := hx
    show ((s.heap.set a (some { o with reach := o'.reach })) y).isSome
    rw [hsome]
    by_cases hxa : x = a
    · simp only [Heap.set, if_pos hxa] at hx'
      cases hx'
      exact hl.2 y hy0 hy
    · simp only [Heap.set, if_neg hxa] at hx'
      exact hg.closed x y ⟨ox, hx', hy0, hy⟩

theorem step_good {s s' : State} {e : Ev} {fuel : Nat} (hg : Good s) (hl : Legal s e) (he : step fuel e s = .ok s') :
    Good s' := by
  cases e with
  | alloc a stack statics =>
    obtain ⟨s1, e1, e2⟩ := Res.bind_eq_ok he
    have hfresh := hl.2 _ _ e1
    by_cases hi : s.inhibited = 0
    · by_cases hc : 2000 < s.counter
      · rw [maybeCollect_due hi hc] at e1
        obtain ⟨s2, e3, e4⟩ := Res.bind_eq_ok e1
        cases e4
        obtain ⟨_, _, _, _, _, g⟩ := collect_ok hg (hg.nonempty (by omega)) e3
        obtain ⟨s3, e5, g3, _⟩ := trackNewAlloc_good g hl.1 hfresh (c := 0) (by omega)
        rw [e5] at e2; cases e2; exact g3
      · rw [maybeCollect, if_neg (by simpa using hi)] at e1
        simp only at e1
        rw [if_neg hc] at e1
        cases e1
        obtain ⟨s2, e3, g, _⟩ := trackNewAlloc_good hg hl.1 hfresh (c := s.counter + 1) (by omega)
        rw [e3] at e2; cases e2; exact g
    · rw [maybeCollect, if_pos hi] at e1
      cases e1
      obtain ⟨s2, e3, g, _⟩ := trackNewAlloc_good hg hl.1 hfresh (c := s.counter) (by omega)
      rw [e3] at e2; cases e2; exact g
  | write a o =>
    rw [step] at he
    cases ho : s.heap a with
    | none => rw [ho] at he; cases he
    | some o' =>
      simp only [ho] at he
      cases he
      exact write_good hg hl ho
  | inhibit => cases he; exact ⟨hg.sz, hg.shape, hg.clean, hg.flags, hg.closed⟩
  | enable =>
    have : s' = enableGc s := by cases he; rfl
    rw [this, enableGc]
    split
    · exact hg
    · exact ⟨hg.sz, hg.shape, hg.clean, hg.flags, hg.closed⟩

theorem Hist.good {P : State → Prop} {s : State} (h : Hist P s) : Good s := by
  induction h with
  | start => exact init_good
  | event _ _ hl he ih => exact step_good ih hl he

theorem Hist.any {P : State → Prop} {s : State} (h : Hist P s) : Hist Any s := by
  induction h with
  | start => exact .start
  | event _ _ hl he ih => exact ih.event trivial hl he

/-- in small histories the table is never enlarged -/
theorem Hist.small {s : State} (h : Hist Small s) : s.sz = 10000 := by
  induction h with
  | start => rfl
  | @event s e fuel s' h hp hl he ih =>
    have hg := h.good
    cases e with
    | alloc a stack statics =>
      obtain ⟨s1, e1, e2⟩ := Res.bind_eq_ok he
      have hfresh := hl.2 _ _ e1
      by_cases hi : s.inhibited = 0
      · by_cases hc : 2000 < s.counter
        · rw [maybeCollect_due hi hc] at e1
          obtain ⟨s2, e3, e4⟩ := Res.bind_eq_ok e1
          cases e4
          obtain ⟨_, hle, _, hsz, _, g⟩ := collect_ok hg (hg.nonempty (by omega)) e3
          obtain ⟨s3, e5, g3, _, _, _, _, hk⟩ := trackNewAlloc_good g hl.1 hfresh (c := 0) (by omega)
          rw [e5] at e2; cases e2
          rw [hk (by show s2.ptr < s2.sz; have : s.ptr < 10000 := hp; omega)]
          exact hsz.trans ih
        · rw [maybeCollect, if_neg (by simpa using hi)] at e1
          simp only at e1
          rw [if_neg hc] at e1
          cases e1
          obtain ⟨s2, e3, g, _, _, _, _, hk⟩ := trackNewAlloc_good hg hl.1 hfresh (c := s.counter + 1) (by omega)
          rw [e3] at e2; cases e2
          rw [hk (by have : s.ptr < 10000 := hp; omega), ih]
      · rw [maybeCollect, if_pos hi] at e1
        cases e1
        obtain ⟨s2, e3, g, _, _, _, _, hk⟩ := trackNewAlloc_good hg hl.1 hfresh (c := s.counter) (by omega)
        rw [e3] at e2; cases e2
        rw [hk (by have : s.ptr < 10000 := hp; omega), ih]
    | write a o =>
      rw [step] at he
      cases ho : s.heap a with
      | none => rw [ho] at he; cases he
      | some o' =>
        simp only [ho] at he
        cases he
        exact ih
    | inhibit => cases he; exact ih
    | enable =>
      have : s' = enableGc s := by cases he; rfl
      rw [this, enableGc]
      split <;> exact ih

theorem Hist.slack {s : State} (h : Hist Small s) (hp : s.ptr < 10000) (hne : ∃ a, (s.heap a).isSome) : Slack s := by
  have hg := h.good
  have hsz := h.small
  rcases hg.shape with ⟨_, _, _, hh⟩ | ⟨used, z, u, h1, h2, h3, _⟩
  · obtain ⟨a, ha⟩ := hne
    rw [hh a] at ha; cases ha
  · have hu : u = 0 := by
      by_contra hu
      exact hg.clean hsz _ h1 (by simp [hu])
    refine ⟨_, h1, ?_⟩
    rw [h2, List.getElem?_append_right (by simp), List.getElem?_append_left (by simp; omega)]
    rw [List.getElem?_replicate, if_pos (by simp; omega)]

/-! ## C45 -/

/-- the collection ends, and keeps exactly what can be reached from the roots -/
def Exact (s : State) (stack statics : List Nat) : Prop :=
  ∃ N s', (∀ fuel ≥ N, collect fuel stack statics s = .ok s') ∧
    ∀ x, (Rooted s.heap (stack ++ statics) x → s'.heap x = s.heap x) ∧ (¬ Rooted s.heap (stack ++ statics) x → s'.heap x = none)

/-- every collection in a history that keeps the table small -/
def C45_statement : Prop := ∀ s stack statics, Hist Small s → Small s → (∃ a, (s.heap a).isSome) → Exact s stack statics

/-- What is missing: collections with a cycle of references in reach of the roots. -/
theorem C45_collect_partial (s : State) (stack statics : List Nat) (h : Hist Small s) (hs : Small s)
    (hne : ∃ a, (s.heap a).isSome) (ha : ∀ x, Rooted s.heap (stack ++ statics) x → ¬ Relation.TransGen (Edge s.heap) x x) :
    Exact s stack statics := by
  obtain ⟨N, s', h1, h2, _⟩ := collect_spec h.good (h.slack hs hne) hne stack statics ha
  refine ⟨N, s', h1, fun x => ⟨fun hr => ?_, fun hr => ?_⟩⟩
  · rw [h2, if_pos hr]
  · rw [h2, if_neg hr]

/-- whatever the history: a collection that ends keeps exactly what can be reached -/
theorem C45_kept (s s' : State) (stack statics : List Nat) (fuel : Nat) (h : Hist Any s) (hne : ∃ a, (s.heap a).isSome)
    (he : collect fuel stack statics s = .ok s') (x : Nat) :
    (Rooted s.heap (stack ++ statics) x → s'.heap x = s.heap x) ∧ (¬ Rooted s.heap (stack ++ statics) x → s'.heap x = none) :=
  (collect_ok h.good hne he).1 x

/-- a collection never ends if a cycle is in reach -/
theorem C45_endless (s : State) (stack statics : List Nat) (fuel : Nat) (h : Hist Any s) (x : Nat)
    (hx : Rooted s.heap (stack ++ statics) x) (hc : Relation.TransGen (Edge s.heap) x x) (s' : State) :
    collect fuel stack statics s ≠ .ok s' := by
  intro e
  have hne : ∃ a, (s.heap a).isSome := by
    obtain ⟨w, _, hw, _⟩ := hx
    exact ⟨w, hw⟩
  have hs : Slack s := by
    by_contra hs
    rw [collect_ub h.good hs hne] at e; cases e
  exact collect_acyclic h.good hs e x hx hc

/-! ### histories -/

/-- an allocation without collection -/
theorem Hist.alloc {P : State → Prop} {s : State} (h : Hist P s) (hp : P s) {a : Nat} (h0 : a ≠ 0) (hfresh : s.heap a = none)
    (hn : s.inhibited ≠ 0 ∨ s.counter ≤ 2000) (stack statics : List Nat) :
    ∃ s', Hist P s' ∧ s'.heap = s.heap.set a (some Obj.fresh) ∧ s'.inhibited = s.inhibited ∧
      s'.counter = (if s.inhibited = 0 then s.counter + 1 else s.counter) ∧ s'.ptr = s.ptr + 1 ∧
      (s.ptr < s.sz → s'.sz = s.sz) := by
  by_cases hi : s.inhibited = 0
  · have hc : ¬ 2000 < s.counter := by omega
    obtain ⟨s', e, _, h1, h2, h3, h4, h5⟩ := trackNewAlloc_good h.good h0 hfresh (c := s.counter + 1) (by omega)
    have em : ∀ fuel, maybeCollect fuel stack statics s = .ok { s with counter := s.counter + 1 } := by
      intro fuel
      rw [maybeCollect, if_neg (by simpa using hi)]
      simp only
      rw [if_neg hc]
    refine ⟨s', h.event hp (e := .alloc a stack statics) ⟨h0, fun f s1 e1 => ?_⟩ (fuel := 0) ?_, h1, h2, by rw [h3, if_pos hi], h4, h5⟩
    · rw [em] at e1; cases e1; exact hfresh
    · rw [step, allocTree, em]; exact e
  · obtain ⟨s', e, _, h1, h2, h3, h4, h5⟩ := trackNewAlloc_good h.good h0 hfresh (c := s.counter) (by omega)
    have em : ∀ fuel, maybeCollect fuel stack statics s = .ok s := by
      intro fuel
      rw [maybeCollect, if_pos hi]
    refine ⟨s', h.event hp (e := .alloc a stack statics) ⟨h0, fun f s1 e1 => ?_⟩ (fuel := 0) ?_, h1, h2, by rw [h3, if_neg hi], h4, h5⟩
    · rw [em] at e1; cases e1; exact hfresh
    · rw [step, allocTree, em]; exact e

/-- an object's fields are set -/
theorem Hist.write {P : State → Prop} {s : State} (h : Hist P s) (hp : P s) {a : Nat} (o : Obj) {o' : Obj} (ho : s.heap a = some o')
    (hl : ∀ b, b ≠ 0 → (b = o.file ∨ b ∈ o.kids) → (s.heap b).isSome) :
    Hist P { s with heap := s.heap.set a (some { o with reach := o'.reach }) } :=
  h.event hp (e := .write a o) (fuel := 0) ⟨by rw [ho]; rfl, hl⟩ (by rw [step]; simp only [ho])

/-- one object referring to itself, as `return f;` inside `f` makes (evaluate.c:2071
puts the function into the return statement that is part of its body) -/
theorem loop_hist : ∃ s, Hist Small s ∧ s.ptr = 1 ∧ s.heap = fun x => if x = 1 then
    some { file := 0, kids := [1], reach := false, frees := none, uses := none } else none := by
  obtain ⟨s, h, h1, _, _, h2, _⟩ := (Hist.start (P := Small)).alloc (by decide) (a := 1) (by decide) rfl (.inr (by decide)) [] []
  have ho : s.heap 1 = some Obj.fresh := by rw [h1]; rfl
  have h' := h.write (by rw [Small, h2]; decide) { file := 0, kids := [1], reach := false, frees := none, uses := none } ho
    (by
      intro b hb hb'
      have : b = 1 := by rcases hb' with h | h; exacts [absurd h hb, by simpa using h]
      subst this; rw [ho]; rfl)
  refine ⟨_, h', h2, ?_⟩
  funext x
  show (s.heap.set 1 _) x = _
  rw [h1]
  by_cases hx : x = 1 <;> simp [Heap.set, hx, Obj.fresh, init]

theorem C45_refuted : ¬ C45_statement := by
  intro hst
  obtain ⟨s, h, hp, hh⟩ := loop_hist
  have hlive : (s.heap 1).isSome := by rw [hh]; rfl
  have hed : Edge s.heap 1 1 := ⟨{ file := 0, kids := [1], reach := false, frees := none, uses := none }, by rw [hh]; rfl,
    by decide, .inr (by simp)⟩
  obtain ⟨N, s', h1, _⟩ := hst s [1] [] h (by rw [Small, hp]; decide) ⟨1, hlive⟩
  have hany := h.any
  exact C45_endless s [1] [] N hany 1 ⟨1, by simp, hlive, .refl⟩ (.single hed) s' (h1 N (le_refl _))

/-- three objects, the first referring to the second -/
theorem three_hist : ∃ s, Hist Small s ∧ s.ptr = 3 ∧ s.counter = 3 ∧ s.inhibited = 0 ∧ s.heap = fun x =>
    if x = 8 then some { file := 0, kids := [16], reach := false, frees := none, uses := none }
    else if x = 16 then some Obj.fresh else if x = 24 then some Obj.fresh else none := by
  obtain ⟨s1, h1, e1, i1, c1, p1, _⟩ :=
    (Hist.start (P := Small)).alloc (by decide) (a := 8) (by decide) rfl (.inr (by decide)) [] []
  have i1' : s1.inhibited = 0 := i1
  have c1' : s1.counter = 1 := c1
  have p1' : s1.ptr = 1 := p1
  obtain ⟨s2, h2, e2, i2, c2, p2, _⟩ :=
    h1.alloc (by rw [Small, p1']; decide) (a := 16) (by decide) (by rw [e1]; rfl) (.inr (by omega)) [] []
  have i2' : s2.inhibited = 0 := i2.trans i1'
  rw [if_pos i1'] at c2
  obtain ⟨s3, h3, e3, i3, c3, p3, _⟩ :=
    h2.alloc (by rw [Small, p2, p1']; decide) (a := 24) (by decide) (by rw [e2, e1]; rfl) (.inr (by omega)) [] []
  rw [if_pos i2'] at c3
  have ho : s3.heap 8 = some Obj.fresh := by rw [e3, e2, e1]; rfl
  have h4 := h3.write (by show s3.ptr < 10000; omega) { file := 0, kids := [16], reach := false, frees := none, uses := none } ho
    (by
      intro b hb hb'
      have : b = 16 := by rcases hb' with h | h; exacts [absurd h hb, by simpa using h]
      subst this; rw [e3, e2]; rfl)
  refine ⟨_, h4, by show s3.ptr = 3; omega, by show s3.counter = 3; omega, by show s3.inhibited = 0; omega, ?_⟩
  funext x
  show (s3.heap.set 8 _) x = _
  rw [e3, e2, e1]
  by_cases hx : x = 8
  · simp [Heap.set, hx, Obj.fresh]
  · by_cases hy : x = 16
    · simp [Heap.set, hy]
    · by_cases hz : x = 24
      · simp [Heap.set, hz]
      · simp [Heap.set, hx, hy, hz, init]

/-- collecting with the first as only root keeps two of them -/
example : ∃ s, Hist Small s ∧ Exact s [5, 8] [0] ∧ Rooted s.heap [5, 8, 0] 16 ∧ ¬ Rooted s.heap [5, 8, 0] 24 ∧
    (s.heap 24).isSome := by
  obtain ⟨s, h, hp, _, _, hh⟩ := three_hist
  have edge : ∀ a b, Edge s.heap a b → a = 8 ∧ b = 16 := by
    rintro a b ⟨o, ho, hb0, hb⟩
    rw [hh] at ho
    by_cases h8 : a = 8
    · subst h8
      simp at ho
      subst ho
      rcases hb with hb | hb
      · exact absurd hb hb0
      · exact ⟨rfl, by simpa using hb⟩
    · by_cases h16 : a = 16
      · subst h16; simp [Obj.fresh] at ho; subst ho; simp at hb; exact absurd hb hb0
      · by_cases h24 : a = 24
        · subst h24; simp [Obj.fresh] at ho; subst ho; simp at hb; exact absurd hb hb0
        · simp [h8, h16, h24] at ho
  refine ⟨s, h, C45_collect_partial s [5, 8] [0] h (by rw [Small, hp]; decide) ⟨8, by rw [hh]; rfl⟩ ?_, ?_, ?_, by rw [hh]; rfl⟩
  · intro x _ hc
    have hl : ∃ y, Edge s.heap x y := by
      rcases Relation.TransGen.head'_iff.mp hc with ⟨y, hy, _⟩
      exact ⟨y, hy⟩
    have hr : ∃ y, Edge s.heap y x := by
      rcases Relation.TransGen.tail'_iff.mp hc with ⟨y, _, hy⟩
      exact ⟨y, hy⟩
    obtain ⟨y, hy⟩ := hl
    obtain ⟨z, hz⟩ := hr
    have := (edge _ _ hy).1
    have := (edge _ _ hz).2
    omega
  · exact ⟨8, by simp, by rw [hh]; rfl, .single ⟨_, by rw [hh]; rfl, by decide, .inr (by simp)⟩⟩
  · rintro ⟨w, hw, hl, hr⟩
    rcases Relation.ReflTransGen.cases_tail hr with e | ⟨y, _, hy⟩
    · subst e; simp at hw
    · have := (edge _ _ hy).2; omega

/-! ## C46 -/

/-- nothing done with the collector reads outside the table, reads an entry never
written or touches a freed object -/
def C46_statement : Prop := ∀ s e fuel, Hist Any s → Legal s e → step fuel e s ≠ .ub

/-- What is missing: histories in which 10000 or more table entries are in use. -/
theorem C46_history_partial (s : State) (e : Ev) (fuel : Nat) (h : Hist Small s) (hs : Small s) (hl : Legal s e) :
    step fuel e s ≠ .ub := by
  have hg := h.good
  cases e with
  | alloc a stack statics =>
    rw [step, allocTree]
    cases em : maybeCollect fuel stack statics s with
    | ub =>
      exfalso
      by_cases hi : s.inhibited = 0
      · by_cases hc : 2000 < s.counter
        · have hne := hg.nonempty (by omega)
          rw [maybeCollect_due hi hc] at em
          cases ec : collect fuel stack statics s with
          | ub => exact collect_noub hg (h.slack hs hne) hne fuel stack statics ec
          | fuel => rw [ec] at em; cases em
          | ok s1 => rw [ec] at em; cases em
        · rw [maybeCollect, if_neg (by simpa using hi)] at em
          simp only at em
          rw [if_neg hc] at em
          cases em
      · rw [maybeCollect, if_pos hi] at em; cases em
    | fuel => exact fun h => nomatch h
    | ok s1 =>
      have hfresh := hl.2 _ _ em
      simp only [Res.bind_ok]
      intro hub
      by_cases hi : s.inhibited = 0
      · by_cases hc : 2000 < s.counter
        · have hne := hg.nonempty (by omega)
          rw [maybeCollect_due hi hc] at em
          obtain ⟨s2, e3, e4⟩ := Res.bind_eq_ok em
          cases e4
          obtain ⟨_, _, _, _, _, g⟩ := collect_ok hg hne e3
          obtain ⟨s3, e5, _⟩ := trackNewAlloc_good g hl.1 hfresh (c := 0) (by omega)
          rw [hub] at e5; cases e5
        · rw [maybeCollect, if_neg (by simpa using hi)] at em
          simp only at em
          rw [if_neg hc] at em
          cases em
          obtain ⟨s3, e5, _⟩ := trackNewAlloc_good hg hl.1 hfresh (c := s.counter + 1) (by omega)
          rw [hub] at e5; cases e5
      · rw [maybeCollect, if_pos hi] at em
        cases em
        obtain ⟨s3, e5, _⟩ := trackNewAlloc_good hg hl.1 hfresh (c := s.counter) (by omega)
        rw [hub] at e5; cases e5
  | write a o =>
    obtain ⟨o', ho⟩ := Option.isSome_iff_exists.mp hl.1
    rw [step]
    simp only [ho]
    exact fun h => nomatch h
  | inhibit => exact fun h => nomatch h
  | enable => exact fun h => nomatch h

/-- Exactly when a collection goes wrong: the entry after the last one in use is outside
the table or has not been cleared. -/
theorem C46_exact (s : State) (a fuel : Nat) (stack statics : List Nat) (h : Hist Any s) (hl : Legal s (.alloc a stack statics))
    (hi : s.inhibited = 0) (hc : 2000 < s.counter) :
    step fuel (.alloc a stack statics) s = .ub ↔ ∀ t, s.tab = some t → t[s.ptr]? ≠ some (some 0) := by
  have hg := h.good
  have hne := hg.nonempty (by omega)
  have hsl : (∀ t, s.tab = some t → t[s.ptr]? ≠ some (some 0)) ↔ ¬ Slack s := by
    constructor
    · rintro hn ⟨t, h1, h2⟩; exact hn t h1 h2
    · intro hn t h1 h2; exact hn ⟨t, h1, h2⟩
  rw [hsl]
  constructor
  · intro hub hs
    rw [step, allocTree, maybeCollect_due hi hc] at hub
    cases ec : collect fuel stack statics s with
    | ub => exact collect_noub hg hs hne fuel stack statics ec
    | fuel => rw [ec] at hub; cases hub
    | ok s1 =>
      rw [ec] at hub
      simp only [Res.bind_ok] at hub
      have hfresh := hl.2 fuel { s1 with counter := 0 } (by rw [maybeCollect_due hi hc, ec]; rfl)
      obtain ⟨_, _, _, _, _, g⟩ := collect_ok hg hne ec
      obtain ⟨s3, e5, _⟩ := trackNewAlloc_good g hl.1 hfresh (c := 0) (by omega)
      rw [hub] at e5; cases e5
  · intro hs
    rw [step, allocTree, maybeCollect_due hi hc, collect_ub hg hs hne]
    rfl

/-- `n` allocations in a row without collection -/
theorem Hist.allocs : ∀ (n : Nat) {s : State} {base : Nat}, Hist Any s → s.ptr + n ≤ s.sz → 0 < base →
    (∀ a, base ≤ a → s.heap a = none) → (s.inhibited ≠ 0 ∨ s.counter + n ≤ 2001) →
    ∃ s', Hist Any s' ∧ s'.ptr = s.ptr + n ∧ s'.sz = s.sz ∧ s'.inhibited = s.inhibited ∧
      s'.counter = (if s.inhibited = 0 then s.counter + n else s.counter) ∧ (∀ a, base + n ≤ a → s'.heap a = none)
  | 0, s, base, h, _, _, hf, _ => ⟨s, h, rfl, rfl, rfl, by simp, hf⟩
  | n + 1, s, base, h, hp, hb, hf, hc => by
    obtain ⟨s1, h1, e1, i1, c1, p1, z1⟩ := h.alloc trivial (a := base) (by omega) (hf _ (le_refl _))
      (by rcases hc with hc | hc; exacts [.inl hc, .inr (by omega)]) [] []
    have z1' := z1 (by omega)
    have hfree : ∀ a, base + 1 ≤ a → s1.heap a = none := by
      intro a ha
      rw [e1]
      simp only [Heap.set]
      rw [if_neg (by omega)]
      exact hf a (by omega)
    have hc1 : s1.inhibited ≠ 0 ∨ s1.counter + n ≤ 2001 := by
      rcases hc with hc | hc
      · exact .inl (by omega)
      · right; rw [c1]; split <;> omega
    obtain ⟨s2, h2, p2, z2, i2, c2, f2⟩ := Hist.allocs n h1 (by omega) (by omega : 0 < base + 1) hfree hc1
    refine ⟨s2, h2, by omega, by omega, by omega, ?_, fun a ha => f2 a (by omega)⟩
    rw [c2, c1, i1]
    split <;> omega

/-- 7999 allocations while collection is inhibited and 2001 after it is enabled fill the
table exactly; the next allocation collects and reads past its end. -/
theorem full_hist : ∃ s, Hist Any s ∧ s.inhibited = 0 ∧ s.counter = 2001 ∧ s.ptr = 10000 ∧ s.sz = 10000 := by
  have h0 : Hist Any (inhibitGc init) := Hist.event (e := .inhibit) (fuel := 0) .start trivial trivial rfl
  obtain ⟨s1, h1, p1, z1, i1, c1, f1⟩ := Hist.allocs 7999 h0 (by decide) (base := 1) (by omega) (fun _ _ => rfl) (.inl (by decide))
  have i1' : s1.inhibited = 1 := i1
  have c1' : s1.counter = 0 := c1
  have p1' : s1.ptr = 7999 := p1
  have z1' : s1.sz = 10000 := z1
  have h2 : Hist Any (enableGc s1) := Hist.event (e := .enable) (fuel := 0) h1 trivial trivial rfl
  have e2 : enableGc s1 = { s1 with inhibited := 0 } := by
    rw [enableGc, if_neg (by omega), i1']
  rw [e2] at h2
  obtain ⟨s3, h3, p3, z3, i3, c3, f3⟩ := Hist.allocs 2001 h2 (by show s1.ptr + 2001 ≤ s1.sz; omega) (base := 8000) (by omega)
    (fun a ha => f1 a (by omega)) (.inr (by show s1.counter + 2001 ≤ 2001; omega))
  refine ⟨s3, h3, i3, ?_, ?_, ?_⟩
  · rw [c3, if_pos rfl]; show s1.counter + 2001 = 2001; omega
  · rw [p3]; show s1.ptr + 2001 = 10000; omega
  · rw [z3]; exact z1'

theorem C46_refuted : ¬ C46_statement := by
  intro hst
  obtain ⟨s, h, hi, hc, hp, hz⟩ := full_hist
  have hg := h.good
  have hne := hg.nonempty (by omega)
  have hns : ¬ Slack s := by
    rintro ⟨t, ht, hget⟩
    rcases hg.shape with ⟨h1, _⟩ | ⟨used, z, u, h1, h2, h3, _⟩
    · rw [h1] at ht; cases ht
    · rw [h1] at ht
      cases ht
      rw [List.getElem?_eq_none (by simp; omega)] at hget
      cases hget
  have hub : ∀ fuel, maybeCollect fuel [] [] s = .ub := by
    intro fuel
    rw [maybeCollect_due hi (by omega), collect_ub hg hns hne]; rfl
  refine hst s (.alloc 1 [] []) 0 h ⟨by decide, fun fuel s1 e => ?_⟩ ?_
  · rw [hub] at e; cases e
  · rw [step, allocTree, hub]; rfl

/-! ## C47 -/

/-- an event that happens with collection inhibited frees nothing -/
theorem step_inhibited {s s' : State} {e : Ev} {fuel : Nat} (hi : s.inhibited ≠ 0) (he : step fuel e s = .ok s') :
    (∀ a, (s.heap a).isSome → (s'.heap a).isSome ∧ (¬ e.touches a → s'.heap a = s.heap a)) ∧
      (s'.inhibited : Int) = s.inhibited + e.nest := by
  cases e with
  | alloc b stack statics =>
    rw [step, allocTree, maybeCollect, if_pos hi] at he
    simp only [Res.bind_ok] at he
    have key := trackNewAlloc_heap he
    rw [key.1, key.2]
    refine ⟨fun a ha => ?_, by simp [Ev.nest]⟩
    by_cases hab : a = b
    · subst hab
      exact ⟨by simp [Heap.set], fun h => absurd (show Ev.touches a (.alloc a stack statics) from Eq.refl a) h⟩
    · simp only [Heap.set, if_neg hab]
      exact ⟨ha, fun _ => trivial⟩
  | write b o =>
    rw [step] at he
    cases ho : s.heap b with
    | none => rw [ho] at he; cases he
    | some o' =>
      simp only [ho] at he
      cases he
      refine ⟨fun a ha => ?_, by simp [Ev.nest]⟩
      by_cases hab : a = b
      · subst hab
        exact ⟨by simp [Heap.set], fun h => absurd (show Ev.touches a (.write a o) from Eq.refl a) h⟩
      · simp only [Heap.set, if_neg hab]
        exact ⟨ha, fun _ => trivial⟩
  | inhibit =>
    cases he
    exact ⟨fun a ha => ⟨ha, fun _ => rfl⟩, by simp [inhibitGc, Ev.nest]⟩
  | enable =>
    have : s' = enableGc s := by cases he; rfl
    rw [this, enableGc, if_neg hi]
    exact ⟨fun a ha => ⟨ha, fun _ => rfl⟩, by simp only [Ev.nest]; omega⟩

theorem runs_append {fuel : Nat} : ∀ {es es' : List Ev} {s s1 : State}, runs fuel es s = .ok s1 →
    runs fuel (es ++ es') s = runs fuel es' s1
  | [], _, _, _, h => by cases h; rfl
  | e :: es, es', s, s1, h => by
    obtain ⟨s2, e1, e2⟩ := Res.bind_eq_ok h
    rw [List.cons_append, runs, e1]
    exact runs_append e2

theorem runs_inhibited {fuel : Nat} : ∀ (es : List Ev) (s s' : State),
    (∀ l, l <+: es → 0 < (s.inhibited : Int) + (l.map Ev.nest).sum) →
    runs fuel es s = .ok s' → (s'.inhibited : Int) = s.inhibited + (es.map Ev.nest).sum ∧ ∀ a, (s.heap a).isSome →
    (s'.heap a).isSome ∧ ((∀ e ∈ es, ¬ e.touches a) → s'.heap a = s.heap a) := by
  intro es
  induction es with
  | nil => intro s s' _ he; cases he; exact ⟨by simp, fun a ha => ⟨ha, fun _ => rfl⟩⟩
  | cons e es ih =>
    intro s s' hn he
    obtain ⟨s1, e1, e2⟩ := Res.bind_eq_ok he
    have hi : s.inhibited ≠ 0 := by have := hn [] (by simp); simp at this; omega
    obtain ⟨h1, h2⟩ := step_inhibited hi e1
    have hn1 : ∀ l, l <+: es → 0 < (s1.inhibited : Int) + (l.map Ev.nest).sum := by
      intro l hl
      have := hn (e :: l) (by simpa using hl)
      rw [List.map_cons, List.sum_cons] at this
      omega
    obtain ⟨h0, h5⟩ := ih s1 s' hn1 e2
    refine ⟨by rw [List.map_cons, List.sum_cons]; omega, fun a ha => ?_⟩
    obtain ⟨h3, h4⟩ := h5 a (h1 a ha).1
    refine ⟨h3, fun ht => ?_⟩
    rw [h4 fun e he => ht e (by simp [he])]
    exact (h1 a ha).2 (ht e (by simp))

/-- Between an inhibit and its matching enable no object is freed, and no object changes
unless it is written to, whatever else happens in between: `es ++ es'` is a part of
the history after the inhibit, and all objects there after `es` are there after `es'`. -/
theorem C47_inhibited (fuel : Nat) (es es' : List Ev) (s s1 s2 : State) (hn : Nested (es ++ es'))
    (h1 : runs fuel (.inhibit :: es) s = .ok s1) (h2 : runs fuel (.inhibit :: (es ++ es')) s = .ok s2)
    (a : Nat) (ha : (s1.heap a).isSome) :
    (s2.heap a).isSome ∧ ((∀ e ∈ es', ¬ e.touches a) → s2.heap a = s1.heap a) := by
  have e1 : runs fuel es (inhibitGc s) = .ok s1 := h1
  have e2 : runs fuel (es ++ es') (inhibitGc s) = .ok s2 := h2
  have hi : ((inhibitGc s).inhibited : Int) = s.inhibited + 1 := by simp [inhibitGc]
  rw [runs_append e1] at e2
  obtain ⟨h3, _⟩ := runs_inhibited es (inhibitGc s) s1
    (fun l hl => by have := hn l (hl.trans (List.prefix_append _ _)); omega) e1
  refine (runs_inhibited es' s1 s2 (fun l hl => ?_) e2).2 a ha
  have := hn (es ++ l) ((List.prefix_append_right_inj es).mpr hl)
  rw [List.map_append, List.sum_append] at this
  omega

/-- a nested pair inside -/
example : Nested [.inhibit, .alloc 8 [] [], .enable, .write 8 Obj.fresh] := by
  intro l hl
  simp only [List.prefix_cons_iff, List.prefix_nil] at hl
  rcases hl with rfl | ⟨_, rfl, rfl | ⟨_, rfl, rfl | ⟨_, rfl, rfl | ⟨_, rfl, rfl⟩⟩⟩⟩ <;> decide

/-! ## C48 -/

/-- Whatever the history: when the collector looks at the stack, a word counts as an
object exactly if it is the address of one. -/
theorem C48_recognised (s s1 : State) (tab : List Cell) (t : List Nat) (h : Hist Any s) (hne : ∃ a, (s.heap a).isSome)
    (hf : fixup s = .ok s1) (ht : s1.tab = some tab) (hw : words (tab.take s1.ptr) = some t) (w : Nat) :
    isObject t w = true ↔ (s.heap w).isSome := by
  have hg := h.good
  have hs : Slack s := by
    by_contra hs
    rw [fixup_ub hg hs hne] at hf
    cases hf
  obtain ⟨used, m, u, ht', hptr, hlen, hnd, hlive, hcnt⟩ := hg.slack hs
  obtain ⟨nz, hnz, hle, hfix⟩ := fixup_eq ht' hptr (by
    obtain ⟨a, ha⟩ := hne
    exact ⟨a, ((hlive a).mp ha).2, ((hlive a).mp ha).1⟩)
  rw [hf] at hfix
  cases hfix
  cases ht
  rw [List.take_append_of_le_length (by simp), List.take_of_length_le (by simp), words_map] at hw
  obtain rfl : nz = t := by simpa using hw
  have hdesc : Desc nz := by rw [hnz]; exact (sortDesc_desc used).filter _
  rw [isObject_iff hdesc, hlive, hnz, List.mem_filter, (sortDesc_perm used).mem_iff]
  simp [and_comm]

/-- there is such a moment: the three objects of `three_hist` -/
example : ∃ s s1 tab t, Hist Any s ∧ (∃ a, (s.heap a).isSome) ∧ fixup s = .ok s1 ∧ s1.tab = some tab ∧
    words (tab.take s1.ptr) = some t ∧ isObject t 16 = true ∧ isObject t 17 = false := by
  obtain ⟨s, h, hp, _, _, hh⟩ := three_hist
  have hne : ∃ a, (s.heap a).isSome := ⟨8, by rw [hh]; rfl⟩
  have hany : Hist Any s := h.any
  obtain ⟨used, m, u, ht', hptr, hlen, hnd, hlive, hcnt⟩ := h.good.slack (h.slack (by rw [hp]; decide) hne)
  obtain ⟨nz, hnz, hle, hfix⟩ := fixup_eq ht' hptr ⟨8, ((hlive 8).mp (by rw [hh]; rfl)).2, by decide⟩
  have hw : words ((nz.map some ++ (List.replicate (used.length - nz.length + (m + 1)) (some 0) ++ List.replicate u none)).take
      nz.length) = some nz := by
    rw [List.take_append_of_le_length (by simp), List.take_of_length_le (by simp), words_map]
  have hob := fun w => C48_recognised s _ _ nz hany hne hfix rfl hw w
  refine ⟨s, _, _, nz, hany, hne, hfix, rfl, hw, (hob 16).mpr (by rw [hh]; rfl), ?_⟩
  rw [Bool.eq_false_iff]
  intro hc
  have := (hob 17).mp hc
  rw [hh] at this
  cases this

/-! ## C49 -/

/-- the memory at `m` belongs to a variable the program can still reach -/
def InUse (h : Heap) (roots : List Nat) (m : Nat) : Prop := ∃ x o, Rooted h roots x ∧ h x = some o ∧ o.uses = some m

/-- the collection from `s` to `s'` releases the memory at `m` -/
def Releases (s s' : State) (m : Nat) : Prop := ∃ y o, s.heap y = some o ∧ o.frees = some m ∧ s'.heap y = none

/-- no collection releases the storage of a variable that can be reached -/
def C49_statement : Prop := ∀ s s' stack statics fuel m, Hist Any s → (∃ a, (s.heap a).isSome) →
  collect fuel stack statics s = .ok s' → InUse s.heap (stack ++ statics) m → ¬ Releases s s' m

/-- What is missing: variables that can be reached although the allocation record of
their storage, which hangs on the scope they were declared in, cannot. -/
theorem C49_storage_partial (s s' : State) (stack statics : List Nat) (fuel m : Nat) (h : Hist Any s)
    (hne : ∃ a, (s.heap a).isSome) (he : collect fuel stack statics s = .ok s')
    (hown : ∀ y o, s.heap y = some o → o.frees = some m → Rooted s.heap (stack ++ statics) y) : ¬ Releases s s' m := by
  rintro ⟨y, o, h1, h2, h3⟩
  have := (C45_kept s s' stack statics fuel h hne he y).1 (hown y o h1 h2)
  rw [h3, h1] at this
  cases this

/-- Storage of a variable is released exactly if no allocation record for it can be
reached: reaching the variable itself does not help. -/
theorem C49_exact (s s' : State) (stack statics : List Nat) (fuel m : Nat) (h : Hist Any s)
    (hne : ∃ a, (s.heap a).isSome) (he : collect fuel stack statics s = .ok s') :
    Releases s s' m ↔ ∃ y o, s.heap y = some o ∧ o.frees = some m ∧ ¬ Rooted s.heap (stack ++ statics) y := by
  constructor
  · rintro ⟨y, o, h1, h2, h3⟩
    refine ⟨y, o, h1, h2, fun hr => ?_⟩
    have := (C45_kept s s' stack statics fuel h hne he y).1 hr
    rw [h3, h1] at this
    cases this
  · rintro ⟨y, o, h1, h2, h3⟩
    exact ⟨y, o, h1, h2, (C45_kept s s' stack statics fuel h hne he y).2 h3⟩

/-- the live variable returned by `int f(void) { int x = 5; return x; }`: the function's
scope and the allocation record on it (evaluate.c:85-94, 304) are out of reach once
the call is over, the variable is the value of the call (evaluate.c:2069-2074) -/
theorem returned_hist : ∃ s, Hist Any s ∧ s.inhibited = 0 ∧ s.ptr = 2 ∧ s.sz = 10000 ∧ s.heap = fun x =>
    if x = 16 then some { file := 0, kids := [], reach := false, frees := some 1000, uses := none }
    else if x = 8 then some { file := 0, kids := [], reach := false, frees := none, uses := some 1000 } else none := by
  obtain ⟨s1, h1, e1, i1, c1, p1, z1⟩ :=
    (Hist.start (P := Any)).alloc trivial (a := 8) (by decide) rfl (.inr (by decide)) [] []
  have i1' : s1.inhibited = 0 := i1
  have c1' : s1.counter = 1 := c1
  have p1' : s1.ptr = 1 := p1
  have z1' : s1.sz = 10000 := z1 (by decide)
  obtain ⟨s2, h2, e2, i2, c2, p2, z2⟩ :=
    h1.alloc trivial (a := 16) (by decide) (by rw [e1]; rfl) (.inr (by omega)) [] []
  have z2' := z2 (by omega)
  have ho1 : s2.heap 8 = some Obj.fresh := by rw [e2, e1]; rfl
  have h3 := h2.write trivial { file := 0, kids := [], reach := false, frees := none, uses := some 1000 } ho1
    (by intro b hb hb'; simp at hb'; exact absurd hb' hb)
  have ho2 : (s2.heap.set 8 (some { file := 0, kids := [], reach := false, frees := none, uses := some 1000 })) 16 =
      some Obj.fresh := by rw [e2, e1]; rfl
  have h4 := h3.write trivial { file := 0, kids := [], reach := false, frees := some 1000, uses := none } (a := 16) (o' := Obj.fresh) ho2
    (by intro b hb hb'; simp at hb'; exact absurd hb' hb)
  refine ⟨_, h4, by show s2.inhibited = 0; omega, by show s2.ptr = 2; omega, by show s2.sz = 10000; omega, ?_⟩
  funext x
  show ((s2.heap.set 8 _).set 16 _) x = _
  rw [e2, e1]
  by_cases hx : x = 16
  · simp [Heap.set, hx, Obj.fresh]
  · by_cases hy : x = 8
    · simp [Heap.set, hy, Obj.fresh]
    · simp [Heap.set, hx, hy, init]

theorem C49_refuted : ¬ C49_statement := by
  intro hst
  obtain ⟨s, h, hi, hp, hz, hh⟩ := returned_hist
  have hne : ∃ a, (s.heap a).isSome := ⟨8, by rw [hh]; rfl⟩
  have hg := h.good
  have noedge : ∀ a b, ¬ Edge s.heap a b := by
    rintro a b ⟨o, ho, hb0, hb⟩
    rw [hh] at ho
    by_cases h16 : a = 16
    · simp [h16] at ho; subst ho; simp at hb; exact hb0 hb
    · by_cases h8 : a = 8
      · simp [h8] at ho; subst ho; simp at hb; exact hb0 hb
      · simp [h16, h8] at ho
  have hs : Slack s := by
    rcases hg.shape with ⟨_, _, _, hn⟩ | ⟨used, z, u, h1, h2, h3, _⟩
    · obtain ⟨a, ha⟩ := hne
      rw [hn a] at ha; cases ha
    · have hu : u = 0 := by
        by_contra hu
        exact hg.clean hz _ h1 (by simp [hu])
      refine ⟨_, h1, ?_⟩
      rw [h2, List.getElem?_append_right (by simp), List.getElem?_append_left (by simp; omega)]
      rw [List.getElem?_replicate, if_pos (by simp; omega)]
  obtain ⟨N, s', h1, _⟩ := collect_spec hg hs hne [8] [] (by
    intro x _ hc
    rcases Relation.TransGen.head'_iff.mp hc with ⟨y, hy, _⟩
    exact noedge _ _ hy)
  refine hst s s' [8] [] N 1000 h hne (h1 N (le_refl _))
    ⟨8, _, ⟨8, by simp, by rw [hh]; rfl, .refl⟩, by rw [hh]; rfl, rfl⟩ ?_
  rw [C49_exact s s' [8] [] N 1000 h hne (h1 N (le_refl _))]
  refine ⟨16, _, by rw [hh]; rfl, rfl, ?_⟩
  rintro ⟨w, hw, _, hr⟩
  rcases Relation.ReflTransGen.cases_tail hr with e | ⟨y, _, hy⟩
  · subst e; simp at hw
  · exact noedge _ _ hy

end Gc
end Bic
