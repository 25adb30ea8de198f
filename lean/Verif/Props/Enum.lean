import Verif.Spec.Enum
import Verif.Proofs.Pointers
import Verif.Proofs.Static
import Verif.Props.Expr
/-!
# C37: enumerators
-/

namespace Bic
open Spec

/-- the trees parser.m4 (enumerator, 805-811) makes of enumerators -/
inductive EnumRep (nd : TId → Option Node) : List TId → List (String × Option Expr) → Prop
  | nil : EnumRep nd [] []
  | next {t x ts es} : nd t = some (.ident x) → EnumRep nd ts es → EnumRep nd (t :: ts) ((x, none) :: es)
  | explicit {t l r x e ts es} : nd t = some (.assign (some l) (some r)) → nd l = some (.ident x) → ERep nd r e →
      EnumRep nd ts es → EnumRep nd (t :: ts) ((x, some e) :: es)

theorem EnumRep.mono {nd nd' : TId → Option Node} (h : ∀ t n, nd t = some n → nd' t = some n) {ts es} (k : EnumRep nd ts es) :
    EnumRep nd' ts es := by
  induction k with
  | nil => exact .nil
  | next h1 _ ih => exact .next (h _ _ h1) ih
  | explicit h1 h2 h3 _ ih => exact .explicit (h _ _ h1) (h _ _ h2) (h3.mono h) ih

/-- the name of the enumeration, if it has one -/
def TagRep (nd : TId → Option Node) : Ref → Option String → Prop
  | none, none => True
  | some t, some x => nd t = some (.ident x)
  | _, _ => False

/-- **C37.** An enumeration is declared whose names are not declared in the scope yet:
it is executed and every enumerator then has the value C gives it.  (C's enumerators
are of type int.) -/
def C37_statement : Prop :=
  ∀ (E : Env) (s : St) (t l : TId) (ts : List TId) (name : Ref) (tag : Option String) (es vs), WF s → s.ctxs ≠ [] →
    s.nodes t = some (.enumr name (some l)) → s.nodes l = some (.chain ts) → TagRep s.nodes name tag → EnumRep s.nodes ts es →
    (∀ x ∈ tag.toList ++ es.map Prod.fst, ¬ DeclaredHere s x) → (tag.toList ++ es.map Prod.fst).Nodup →
    Enumerate CVal (InRange .int) (VarC s) 0 es vs →
    ∃ r s', Conv E (fun R => R.ev (some t)) s (.ok r s') ∧ ∀ x v, (x, v) ∈ vs → VarC s' x v

theorem DeclaredHere.fresh {s : St} {x : String} (h : ¬ DeclaredHere s x) : Fresh s x := by
  intro c cs hc b hb hx
  exact h ⟨b, by unfold localIds; rw [hc]; exact hb, hx⟩

theorem localIds_bind {s : St} (hc : s.ctxs ≠ []) (b : Binding) : localIds (bindSt s b) = localIds s ++ [b] := by
  unfold localIds bindSt
  cases h : s.ctxs with
  | nil => exact absurd h hc
  | cons c cs => rfl

theorem DeclaredHere.bind {s : St} {x y : String} {i : TId} {v : Ref} (hc : s.ctxs ≠ []) :
    DeclaredHere (bindSt s ⟨x, i, v⟩) y ↔ DeclaredHere s y ∨ y = x := by
  unfold DeclaredHere
  rw [localIds_bind hc]
  constructor
  · rintro ⟨b, hb, rfl⟩
    rcases List.mem_append.mp hb with h | h
    · exact .inl ⟨b, h, rfl⟩
    · rw [List.mem_singleton.mp h]; exact .inr rfl
  · rintro (⟨b, hb, rfl⟩ | rfl)
    · exact ⟨b, by simp [hb], rfl⟩
    · exact ⟨⟨_, i, v⟩, by simp, rfl⟩

theorem findId_other {x y : String} (h : y ≠ x) (l : List Binding) (i : TId) (v : Ref) :
    findId y (l ++ [⟨x, i, v⟩]) = findId y l := by
  induction l with
  | nil => simp [findId, Ne.symm h]
  | cons b l ih => simp only [List.cons_append, findId]; split <;> simp [*]

/-- binding a name does not change what the others mean -/
theorem resolveGlobal_other {s : St} {x y : String} (h : y ≠ x) (i : TId) (v : Ref) :
    resolveGlobal y .normal (bindSt s ⟨x, i, v⟩) = resolveGlobal y .normal s := by
  unfold resolveGlobal bindSt
  cases hs : s.ctxs with
  | nil => rfl
  | cons c cs => simp [bindCur, findInChain, Ctx.map, findId_other h]

theorem Ext.localIds {s s' : St} (x : Ext s s') : localIds s' = localIds s := by
  unfold Bic.localIds; rw [x.ctxs]

/-- what executing the enumerators does -/
structure Enumerated (s s' : St) (names : List String) (vs : List (String × Int)) : Prop where
  wf : WF s'
  nodes : ∀ t n, s.nodes t = some n → s'.nodes t = some n
  mem : s'.mem = s.mem
  includes : s'.includes = s.includes
  ctxs : s'.ctxs ≠ []
  declared : ∀ y, DeclaredHere s' y ↔ DeclaredHere s y ∨ y ∈ names
  values : ∀ x v, (x, v) ∈ vs → ∃ t, resolveGlobal x .normal s' = some t ∧ s'.nodes t = some (.integer v)
  others : ∀ y, y ∉ names → resolveGlobal y .normal s' = resolveGlobal y .normal s

theorem DeclaredHere.ext {s s' : St} (x : Ext s s') (y) : DeclaredHere s' y ↔ DeclaredHere s y := by
  unfold DeclaredHere; rw [x.localIds]

/-- the state after giving one enumerator its value -/
def enumSt (s : St) (i : TId) (x : String) (v : Int) : St := bindSt (addNode s (.integer v)) ⟨x, i, some s.next⟩

theorem enum_bind {s : St} (w : WF s) (hc : s.ctxs ≠ []) {i : TId} {x : String} (hi : s.nodes i = some (.ident x))
    (hx : ¬ DeclaredHere s x) (v : Int) (f : M α) :
    (do let o ← mkInt v; mapIdentifier (some i) o; f : M α) s = f (enumSt s i x v) := by
  have x1 := addNode_ext w (.integer v)
  have hc1 : (addNode s (.integer v)).ctxs ≠ [] := by rw [x1.ctxs]; exact hc
  have hx1 : ¬ DeclaredHere (addNode s (.integer v)) x := fun h => hx ((DeclaredHere.ext x1 x).mp h)
  simp only [bind_apply, mkInt_apply]
  rw [mapIdentifier_apply (x1.nodes _ _ hi) hc1 (DeclaredHere.fresh hx1).resolve]
  rfl

theorem enumSt_enumerated {s : St} (w : WF s) (hc : s.ctxs ≠ []) {i : TId} {x : String}
    (hx : ¬ DeclaredHere s x) (v : Int) : Enumerated s (enumSt s i x v) [x] [(x, v)] := by
  have x1 := addNode_ext w (.integer v)
  have hc1 : (addNode s (.integer v)).ctxs ≠ [] := by rw [x1.ctxs]; exact hc
  have hx1 : ¬ DeclaredHere (addNode s (.integer v)) x := fun h => hx ((DeclaredHere.ext x1 x).mp h)
  refine ⟨x1.wf w, x1.nodes, x1.mem, x1.includes, ?_, fun y => ?_, fun y v' h => ?_, fun y h => ?_⟩
  · show bindCur _ _ ≠ []
    cases h : (addNode s (.integer v)).ctxs with
    | nil => exact absurd h hc1
    | cons c cs => simp [bindCur]
  · rw [enumSt, DeclaredHere.bind hc1, DeclaredHere.ext x1, List.mem_singleton]
  · cases List.mem_singleton.mp h
    exact ⟨s.next, resolveGlobal_bind (DeclaredHere.fresh hx1) hc1, addNode_self s _⟩
  · rw [enumSt, resolveGlobal_other (fun e => h (by simp [e])), x1.resolveGlobal]

theorem Enumerated.start {s s1 s' : St} {names vs} (x : Ext s s1) (h : Enumerated s1 s' names vs) : Enumerated s s' names vs :=
  ⟨h.wf, fun t n ht => h.nodes t n (x.nodes t n ht), h.mem.trans x.mem, h.includes.trans x.includes, h.ctxs,
    fun y => (h.declared y).trans (or_congr (DeclaredHere.ext x y) Iff.rfl), h.values,
    fun y hy => (h.others y hy).trans (x.resolveGlobal y _)⟩

theorem Enumerated.trans {s s1 s2 : St} {x : String} {v : Int} {names vs} (h1 : Enumerated s s1 [x] [(x, v)])
    (h2 : Enumerated s1 s2 names vs) (hx : x ∉ names) : Enumerated s s2 (x :: names) ((x, v) :: vs) := by
  refine ⟨h2.wf, fun t n h => h2.nodes t n (h1.nodes t n h), h2.mem.trans h1.mem, h2.includes.trans h1.includes, h2.ctxs, fun y => ?_, fun y v' h => ?_, fun y h => ?_⟩
  · rw [h2.declared, h1.declared]
    simp [or_assoc]
  · rcases List.mem_cons.mp h with h | h
    · obtain ⟨rfl, rfl⟩ := Prod.mk.inj h
      obtain ⟨t, g1, g2⟩ := h1.values y v' (by simp)
      exact ⟨t, (h2.others y hx).trans g1, h2.nodes _ _ g2⟩
    · exact h2.values y v' h
  · rw [h2.others y (fun e => h (by simp [e])), h1.others y (fun e => h (by simp [List.mem_singleton.mp e]))]

/-- names known before are known afterwards, the new one has its value -/
theorem Enumerated.knows {s s1 : St} {x : String} {v : Int} (h : Enumerated s s1 [x] [(x, v)]) {ρ : String → Int → Prop}
    (hρ : ∀ y w, ρ y w → VarIs s y w) : ∀ y w, hide ρ x v y w → VarIs s1 y w := by
  intro y w hy
  unfold hide at hy
  split at hy
  · rename_i e
    subst e hy
    obtain ⟨t, g1, g2⟩ := h.values y w (by simp)
    exact ⟨t, g1, .inl g2⟩
  · rename_i e
    obtain ⟨t, g1, g2⟩ := hρ y w hy
    refine ⟨t, (h.others y (by simpa using e)).trans g1, ?_⟩
    rcases g2 with g2 | ⟨c, ⟨τ, a, g2, g3⟩, g4⟩
    · exact .inl (h.nodes _ _ g2)
    · refine .inr ⟨c, ⟨τ, a, ?_, ?_⟩, g4⟩
      · obtain ⟨⟨b, m, k1⟩, ⟨e', k2⟩, k3, k4⟩ := g2
        exact ⟨⟨b, m, h.nodes _ _ k1⟩, ⟨e', h.nodes _ _ k2⟩, k3, by rw [h.mem]; exact k4⟩
      · rw [h.mem]; exact g3

theorem enumLoop_conv {E : Env} {ρ : String → Int → Prop} {n : Int} {es vs}
    (h : Enumerate (Val okOp okTruth) (InRange .uint) ρ n es vs) :
    ∀ {s : St} {ts : List TId} {m : Nat}, WF s → s.ctxs ≠ [] → (∀ y w, ρ y w → VarIs s y w) → EnumRep s.nodes ts es →
      (∀ x ∈ es.map Prod.fst, ¬ DeclaredHere s x) → (es.map Prod.fst).Nodup → (InRange .uint n → (m : Int) = n) →
      ∃ s', Conv E (fun R => enumLoop R m ts) s (.ok () s') ∧ Enumerated s s' (es.map Prod.fst) vs := by
  induction h with
  | nil =>
    intro s ts m w hc _ hr _ _ _
    cases hr
    exact ⟨s, Conv.fixed fun R => rfl, w, fun _ _ h => h, rfl, rfl, hc, by simp, by simp, by simp⟩
  | @next ρ n x es vs hn _ ih =>
    intro s ts m w hc hρ hr hx hd hm
    cases hr with
    | @next t _ ts _ ht hr =>
      obtain rfl : (m : Int) = n := hm hn
      simp only [List.map_cons, List.nodup_cons, List.forall_mem_cons] at hx hd ⊢
      have k1 := enumSt_enumerated w hc (i := t) hx.1 (m : Int)
      obtain ⟨s2, e2, k2⟩ := ih (ts := ts) (m := (m + 1) % 2 ^ 32) k1.wf k1.ctxs (k1.knows hρ) (hr.mono k1.nodes)
        (fun y hy hy1 => by
          rcases (k1.declared y).mp hy1 with h | h
          · exact hx.2 y hy h
          · rw [List.mem_singleton.mp h] at hy; exact hd.1 hy) hd.2
        (fun h => by simp [InRange, lo, hi, signed, width] at h ⊢; omega)
      refine ⟨s2, e2.of_eq fun R => ?_, k1.trans k2 hd.1⟩
      rw [enumLoop, bind_apply, node_apply ht]
      exact enum_bind w hc ht hx.1 _ _
  | @explicit ρ n x e v es vs hv hn _ ih =>
    intro s ts m w hc hρ hr hx hd hm
    cases hr with
    | @explicit t l r _ _ ts _ ht hl he hr =>
      simp only [List.map_cons, List.nodup_cons, List.forall_mem_cons] at hx hd ⊢
      obtain ⟨s0, c0, x0⟩ := (eval_expr (E := E) w (hv.mono (fun _ _ _ _ h => h) (fun _ _ h => h) hρ) he).comparable w
      have w0 := x0.wf w
      have hx0 : ¬ DeclaredHere s0 x := fun h => hx.1 ((DeclaredHere.ext x0 x).mp h)
      have hc0 : s0.ctxs ≠ [] := by rw [x0.ctxs]; exact hc
      have hv32 : ((mpzGetUi v % 2 ^ 32 : Nat) : Int) = v := by
        simp [InRange, lo, hi, signed, width] at hn
        unfold mpzGetUi; omega
      have k1 := enumSt_enumerated w0 hc0 (i := l) hx0 v
      have k01 := k1.start x0
      obtain ⟨s2, e2, k2⟩ := ih (ts := ts) (m := (mpzGetUi v % 2 ^ 32 + 1) % 2 ^ 32) k1.wf k1.ctxs (k01.knows hρ) (hr.mono k01.nodes)
        (fun y hy hy1 => by
          rcases (k01.declared y).mp hy1 with h | h
          · exact hx.2 y hy h
          · rw [List.mem_singleton.mp h] at hy; exact hd.1 hy) hd.2
        (fun h => by simp [InRange, lo, hi, signed, width] at h ⊢; omega)
      refine ⟨s2, ?_, k01.trans k2 hd.1⟩
      have e3 := Conv.bind (g := fun R x => (do
        let i ← mkInt ((mpzGetUi x % 2 ^ 32 : Nat) : Int)
        mapIdentifier (some l) i
        enumLoop R ((mpzGetUi x % 2 ^ 32 + 1) % 2 ^ 32) ts : M Unit)) c0 (e2.of_eq fun R => by
          show (do let i ← mkInt ((mpzGetUi v % 2 ^ 32 : Nat) : Int); mapIdentifier (some l) i; enumLoop R _ ts : M Unit) s0 = _
          rw [hv32]
          exact enum_bind w0 hc0 (x0.nodes _ _ hl) hx0 _ _)
      refine e3.of_eq fun R => ?_
      rw [enumLoop, bind_apply, node_apply ht]

/-- **C37, part.** Enumerators whose values lie in 0 … 2^32 - 1 (they are counted with an
unsigned int), with expressions that bic gets right and that do not mention the
name of the enumeration itself: every enumerator has the value C gives it, nothing
else is declared, other names keep their meaning and memory is not changed. -/
theorem C37_enumerators_partial (E : Env) (s : St) (t l : TId) (ts : List TId) (name : Ref) (tag : Option String) (es vs)
    (w : WF s) (hc : s.ctxs ≠ []) (ht : s.nodes t = some (.enumr name (some l))) (hl : s.nodes l = some (.chain ts))
    (htag : TagRep s.nodes name tag) (hr : EnumRep s.nodes ts es)
    (hx : ∀ x ∈ tag.toList ++ es.map Prod.fst, ¬ DeclaredHere s x) (hd : (tag.toList ++ es.map Prod.fst).Nodup)
    (h : Enumerate (Val okOp okTruth) (InRange .uint) (fun y v => VarIs s y v ∧ y ∉ tag) 0 es vs) :
    ∃ r s', Conv E (fun R => R.ev (some t)) s (.ok r s') ∧ (∀ x v, (x, v) ∈ vs → VarIs s' x v) ∧
      (∀ y, DeclaredHere s' y ↔ DeclaredHere s y ∨ y ∈ tag ∨ y ∈ es.map Prod.fst) ∧
      (∀ y v, VarIs s y v → y ∉ tag → y ∉ es.map Prod.fst → VarIs s' y v) ∧
      (∀ u n, s.nodes u = some n → s'.nodes u = some n) ∧ s'.mem = s.mem ∧ WF s' ∧ s'.includes = s.includes ∧
      (∀ x v, (x, v) ∈ vs → ∃ o, resolveGlobal x .normal s' = some o ∧ s'.nodes o = some (.integer v)) ∧
      ∀ y, y ∉ tag → y ∉ es.map Prod.fst → resolveGlobal y .normal s' = resolveGlobal y .normal s := by
  have x1 := addNode_ext w (.ctype .uint none)
  have hs1 : ∀ y, DeclaredHere (addNode s (.ctype .uint none)) y ↔ DeclaredHere s y := DeclaredHere.ext x1
  have hc1 : (addNode s (.ctype .uint none)).ctxs ≠ [] := by rw [x1.ctxs]; exact hc
  have w1 := x1.wf w
  -- the state in which the enumerators are executed
  obtain ⟨s2, e2, n2, m2, i2, w2, hc2, d2, r2⟩ : ∃ s2, (∀ R, evalEnumerator R name (some l) s =
        (do enumLoop R 0 (← chainElems (some l)); pure (some s.next) : M Ref) s2) ∧
      (∀ u n, s.nodes u = some n → s2.nodes u = some n) ∧ s2.mem = s.mem ∧ s2.includes = s.includes ∧ WF s2 ∧ s2.ctxs ≠ [] ∧
      (∀ y, DeclaredHere s2 y ↔ DeclaredHere s y ∨ y ∈ tag) ∧
      (∀ y, y ∉ tag → resolveGlobal y .normal s2 = resolveGlobal y .normal s) := by
    cases name with
    | none =>
      cases tag with
      | none =>
        exact ⟨addNode s (.ctype .uint none), fun R => rfl, x1.nodes, x1.mem, x1.includes, w1, hc1, fun y => by simp [hs1],
          fun y _ => x1.resolveGlobal y _⟩
      | some x => exact htag.elim
    | some i =>
      cases tag with
      | none => exact htag.elim
      | some x =>
        have hx1 : ¬ DeclaredHere (addNode s (.ctype .uint none)) x := fun h => hx x (by simp) ((hs1 x).mp h)
        refine ⟨bindSt (addNode s (.ctype .uint none)) ⟨x, i, some s.next⟩, fun R => ?_, x1.nodes, x1.mem, x1.includes, w1, ?_, fun y => ?_,
          fun y hy => ?_⟩
        · unfold evalEnumerator
          simp only [bind_apply, mk_apply, mapIdentifier_apply (x1.nodes _ _ htag) hc1 (DeclaredHere.fresh hx1).resolve]
        · show bindCur _ _ ≠ []
          cases h : (addNode s (.ctype .uint none)).ctxs with
          | nil => exact absurd h hc1
          | cons c cs => simp [bindCur]
        · rw [DeclaredHere.bind hc1, hs1]
          simp [eq_comm]
        · rw [resolveGlobal_other (fun e => hy (by simp [e])), x1.resolveGlobal]
  have keep : ∀ y v, VarIs s y v → y ∉ tag → VarIs s2 y v := by
    rintro y v ⟨o, g1, g2⟩ hy
    refine ⟨o, (r2 y hy).trans g1, ?_⟩
    rcases g2 with g2 | ⟨c, ⟨τ, a, g2, g3⟩, g4⟩
    · exact .inl (n2 _ _ g2)
    · refine .inr ⟨c, ⟨τ, a, ?_, ?_⟩, g4⟩
      · obtain ⟨⟨b, m, k1⟩, ⟨e', k2⟩, k3, k4⟩ := g2
        exact ⟨⟨b, m, n2 _ _ k1⟩, ⟨e', n2 _ _ k2⟩, k3, by rw [m2]; exact k4⟩
      · rw [m2]; exact g3
  have hd' := List.nodup_append.mp hd
  obtain ⟨s3, c3, k3⟩ := enumLoop_conv (E := E) h (s := s2) (ts := ts) (m := 0) w2 hc2 (fun y v hy => keep y v hy.1 hy.2) (hr.mono n2)
    (fun y hy h => by
      rcases (d2 y).mp h with h | h
      · exact hx y (by simp [hy]) h
      · exact hd'.2.2 y (by simpa using h) y hy rfl) hd'.2.1 (fun _ => rfl)
  refine ⟨some s.next, s3, Conv.evNode ht ?_, fun x v hv => ?_, fun y => ?_, fun y v hy h1 h2 => ?_,
    fun u n hu => k3.nodes u n (n2 u n hu), k3.mem.trans m2, k3.wf, k3.includes.trans i2, k3.values,
    fun y h1 h2 => (k3.others y h2).trans (r2 y h1)⟩
  · have e3 := Conv.bind (g := fun R _ => (pure (some s.next) : M Ref)) c3 (Conv.pure _)
    refine e3.of_eq fun R => ?_
    refine (e2 R).trans ?_
    simp only [bind_apply, chainElems, peek_apply (n2 _ _ hl)]
    rfl
  · obtain ⟨o, g1, g2⟩ := k3.values x v hv
    exact ⟨o, g1, .inl g2⟩
  · rw [k3.declared, d2, or_assoc]
  · obtain ⟨o, g1, g2⟩ := keep y v hy h1
    refine ⟨o, (k3.others y h2).trans g1, ?_⟩
    rcases g2 with g2 | ⟨c, ⟨τ, a, g2, g3⟩, g4⟩
    · exact .inl (k3.nodes _ _ g2)
    · refine .inr ⟨c, ⟨τ, a, ?_, ?_⟩, g4⟩
      · obtain ⟨⟨b, m, k1⟩, ⟨e', k2⟩, kk, k4⟩ := g2
        exact ⟨⟨b, m, k3.nodes _ _ k1⟩, ⟨e', k3.nodes _ _ k2⟩, kk, by rw [k3.mem]; exact k4⟩
      · rw [k3.mem]; exact g3

/-- `enum { A, B = A + 3, C };` -/
def stEnum : St :=
  stOf [.ident "A", .ident "B", .integer 3, .bin .add (some 0) (some 2), .assign (some 1) (some 3), .ident "C",
    .chain [0, 4, 5], .enumr none (some 6)] [] []

example : ∃ r s', Conv E0 (fun R => R.ev (some 7)) stEnum (.ok r s') ∧ VarIs s' "A" 0 ∧ VarIs s' "B" 3 ∧ VarIs s' "C" 4 := by
  obtain ⟨r, s', h1, h2, -⟩ := C37_enumerators_partial E0 stEnum 7 6 [0, 4, 5] none none
    [("A", none), ("B", some (.bin .add (.var "A") (.lit 3))), ("C", none)] [("A", 0), ("B", 3), ("C", 4)]
    (stOf_WF _ _ _) (List.cons_ne_nil _ _) rfl rfl trivial
    (.next rfl (.explicit rfl rfl (.bin (o := .add) rfl (.var rfl) (.lit rfl)) (.next rfl .nil)))
    (fun x _ ⟨b, hb, _⟩ => (List.not_mem_nil hb).elim) (by decide)
    (.next (by decide) (.explicit (.bin (x := 0) (.var (by simp [hide])) (.lit _) ⟨rfl, trivial⟩) (by decide) (.next (by decide) .nil)))
  exact ⟨r, s', h1, h2 _ _ (by simp), h2 _ _ (by simp), h2 _ _ (by simp)⟩

/-- `enum { A = -1 };` -/
def stEnumNeg : St :=
  stOf [.ident "A", .integer (-1), .assign (some 0) (some 1), .chain [2], .enumr none (some 3)] [] []

theorem stEnumNeg_run : Conv E0 (fun R => R.ev (some 4)) stEnumNeg (.ok (some 5) (evTo 20 4 stEnumNeg)) :=
  evTo_conv 20 4 stEnumNeg _ (by decide +kernel) (by decide +kernel)

/-- C37 in full is false: the -1 becomes 1 -/
theorem C37_refuted : ¬ C37_statement := by
  intro h
  obtain ⟨r, s', h1, h2⟩ := h E0 stEnumNeg 4 3 [2] none none [("A", some (.lit (-1)))] [("A", -1)] (stOf_WF _ _ _)
    (List.cons_ne_nil _ _) rfl rfl trivial (.explicit rfl rfl (.lit rfl) .nil)
    (fun x _ ⟨b, hb, _⟩ => (List.not_mem_nil hb).elim) (by decide) (.explicit (.lit _) (by decide) .nil)
  obtain ⟨-, rfl⟩ : r = some 5 ∧ s' = evTo 20 4 stEnumNeg := by
    have := h1.unique stEnumNeg_run
    simpa using this
  obtain ⟨o, g1, g2⟩ := h2 "A" (-1) (by simp)
  have e1 : resolveGlobal "A" .normal (evTo 20 4 stEnumNeg) = some 6 := by decide +kernel
  rw [e1] at g1
  cases g1
  have e2 : (evTo 20 4 stEnumNeg).nodes 6 = some (.integer 1) := by decide +kernel
  rcases g2 with g2 | ⟨c, τ, a, ⟨⟨b, m, g2⟩, _⟩, _⟩
  · rw [e2] at g2; cases g2
  · rw [e2] at g2; cases g2

end Bic
