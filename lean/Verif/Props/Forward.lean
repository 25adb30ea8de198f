import Verif.Props.Links
/-!
# C118: structures declared first and defined later
-/

namespace Bic
open Spec

/-! ## The declarations -/

/-- `t` is `struct S;` (or `union S;`); `i` is the identifier -/
structure TagDecl (s : St) (t i : TId) (isS : Bool) (nm : String) : Prop where
  trees : ∃ specs u off sz b, s.nodes t = some (.decl (some specs) none off) ∧ s.nodes specs = some (.chain [u]) ∧
    s.nodes u = some (.compound (some i) none sz b isS) ∧ s.nodes i = some (.ident nm)

/-- `t` is `struct S *p;` (or `union`); `e` is the identifier `p` -/
structure TagPtr (s : St) (t e : TId) (isS : Bool) (nm p : String) : Prop where
  trees : ∃ specs u i ds dd off sz b, s.nodes t = some (.decl (some specs) (some ds) off) ∧ s.nodes specs = some (.chain [u]) ∧
    s.nodes u = some (.compound (some i) none sz b isS) ∧ s.nodes i = some (.ident nm) ∧
    s.nodes ds = some (.chain [dd]) ∧ s.nodes dd = some (.pointer (some e)) ∧ s.nodes e = some (.ident p)

/-- `t` is `struct S { … };` (or `union`) with the members `L`, of basic types, pointers and arrays of those, and
pointers to structures and unions known in `s` -/
structure TagDef (s : St) (t : TId) (isS : Bool) (nm : String) (L : List Item) : Prop where
  trees : ∃ specs c ch0 i ts off sz, s.nodes t = some (.decl (some specs) none off) ∧ s.nodes specs = some (.chain [c]) ∧
    s.nodes c = some (.compound (some i) (some ch0) sz false isS) ∧ s.nodes i = some (.ident nm) ∧
    s.nodes ch0 = some (.chain ts) ∧ Decls s.nodes ts L
  fine : ∀ i ∈ L, i.Fine s

/-- the tag is not declared anywhere, or in this scope only and without members -/
def Undefined (s : St) (isS : Bool) (nm : String) : Prop :=
  ∀ f, resolveGlobal nm (compNS isS) s = some f → resolveCurrent nm (compNS isS) s = some f ∧ s.nodes f = some .incomp

/-- the variable `v` is a pointer to the type `c` -/
def PtrVar (s : St) (v c : TId) : Prop :=
  ∃ τ a arr sz, s.nodes v = some (.lv (some τ) a arr sz) ∧ s.nodes τ = some (.ctype .ptr (some c))

/-- C118 in full: wherever a program gets, when the structure or union `S` is not defined yet, `struct S *p;` followed by the
definition of `S` makes `p` a pointer to the type that `S` then stands for. -/
def C118_statement : Prop :=
  ∀ (E : Env) (l : List Node) (s s1 s2 : St) (t t' e v c : TId) (isS : Bool) (nm p : String) (L : List Item) (r r' : Ref),
    (∀ n ∈ l, Parsed n) → Reach E (stOf l [] []) s → Undefined s isS nm → TagPtr s t e isS nm p →
    Conv E (fun R => R.ev (some t)) s (.ok r s1) → TagDef s1 t' isS nm L → Conv E (fun R => R.ev (some t')) s1 (.ok r' s2) →
    resolveGlobal p .normal s2 = some v → resolveGlobal nm (compNS isS) s2 = some c → PtrVar s2 v c

/-! ## Declared without members -/

/-- no scope declares the tag -/
def NewTag (s : St) (isS : Bool) (nm : String) : Prop :=
  FreshTag s isS nm ∧ resolveGlobal nm (compNS isS) s = none

/-- C118: `struct S;` makes an incomplete type of that name in this scope. -/
theorem C118_forward (E : Env) (s : St) (t i : TId) (isS : Bool) (nm : String) (w : WF s) (hc : s.ctxs ≠ [])
    (ht : TagDecl s t i isS nm) (hu : NewTag s isS nm) :
    Conv E (fun R => R.ev (some t)) s (.ok (some i) (tagSt (addNode s .incomp) isS ⟨nm, i, some s.next⟩)) := by
  obtain ⟨specs, u, off, sz, b, h1, h2, h3, h4⟩ := ht.trees
  have x1 := addNode_ext w .incomp
  have e0 : resolveSpecs (some specs) s = .ok (some u) s := by
    simp [resolveSpecs, chainElems_apply h2, resolveSpecsLoop, node_apply h3]
  have hmap : mapIn (compNS isS) (some i) (some s.next) (addNode s .incomp) =
      .ok () (tagSt (addNode s .incomp) isS ⟨nm, i, some s.next⟩) := by
    have hcx : (addNode s .incomp).ctxs = s.ctxs := rfl
    have hn := x1.nodes _ _ h4
    generalize addNode s .incomp = s1 at hcx hn
    cases h : s1.ctxs with
    | nil => rw [← hcx] at hc; exact absurd h hc
    | cons a as => cases isS <;> simp [mapIn, node_apply hn, modCur, h, tagSt, compNS]
  refine Conv.evNode h1 (Conv.fixed fun R => ?_)
  show evalDecl E R t (some specs) none s = _
  simp [evalDecl, e0, peek_apply h3, handleForwardDecl, nodeR, node_apply h3, idStr, node_apply h4, get, hu.2, mk_apply, hmap]

/-! ## Pointers to it -/

/-- C118: `struct S *p;`, when the tag is known, makes `p` a pointer to its type, complete or not. -/
theorem C118_pointer (E : Env) (s : St) (t e c : TId) (isS : Bool) (nm p : String) (w : WF s) (ht : TagPtr s t e isS nm p)
    (hr : resolveGlobal nm (compNS isS) s = some c) (hx : resolveCurrent p .normal s = none) (hroom : Room s 1) :
    ∃ v s', Conv E (fun R => R.ev (some t)) s (.ok (some e) (bindSt s' ⟨p, e, some v⟩)) ∧ Grow s s' ∧ PtrVar s' v c ∧
      s'.mem.brk = s.mem.brk + 48 := by
  obtain ⟨specs, u, i, ds, dd, off, sz, b, h1, h2, h3, h4, h5, h6, h7⟩ := ht.trees
  have x1 := addNode_ext w (.ctype .ptr (some c))
  have w1 := x1.wf w
  have self1 := addNode_self s (.ctype .ptr (some c))
  have b1 : (addNode s (.ctype .ptr (some c))).mem.brk = s.mem.brk := rfl
  have r1 := hroom.ext x1
  have c1 : Conv E (fun R => R.resolvePtr (some dd) (some c)) s (.ok (some e, some s.next) (addNode s (.ctype .ptr (some c)))) := by
    have c2 : Conv E (fun R => R.resolvePtr (some e) (some s.next)) (addNode s (.ctype .ptr (some c)))
        (.ok (some e, some s.next) (addNode s (.ctype .ptr (some c)))) :=
      Conv.resolvePtr (Conv.fixed fun R => by simp [resolvePtrStep, peek_apply (x1.nodes _ _ h7)])
    refine Conv.resolvePtr (Conv.of_eq c2 fun R => ?_)
    simp [resolvePtrStep, peek_apply h6, mk_apply]
  generalize addNode s (.ctype .ptr (some c)) = s1 at x1 w1 self1 b1 c1 r1
  have hx1 : resolveCurrent p .normal s1 = none := by rw [x1.grow.resolveCurrent]; exact hx
  have hid := handleDecl_ident_conv (E := E) w1 (x1.nodes _ _ h7) self1 r1 hx1
  have hh := handleDecl_ptr_conv c1 ⟨_, x1.nodes _ _ h7, by intros; simp⟩ hid
  refine ⟨s1.next, newVar s1 (some s.next), ?_, x1.grow.trans (newVar_grow w1 _),
    ⟨s.next, s1.mem.brk, false, 0, newVar_self _ _, (newVar_grow w1 _).nodes _ _ self1⟩, ?_⟩
  · refine Conv.evNode h1 ?_
    have hev : Conv E (fun R => R.ev (some u)) s (.ok (some c) s) := by
      refine Conv.evNode h3 (Conv.fixed fun R => ?_)
      show evalDeclCompound R u (some i) none isS s = _
      simp [evalDeclCompound, idStr, nodeR, node_apply h4, get, hr]
    have hall : Conv E (fun R => (do
        let ty ← R.ev (some u)
        let ks ← chainElems (some specs)
        if ← chainHasKw .typedef ks then eachDecl (fun d => R.mapTypedef d ty) (some ds)
        else if ← chainHasKw .extern ks then eachDecl (handleExternDecl E R ty) (some ds)
        else if ← chainHasKw .static ks then handleStaticDecl R ty t (some ds)
        else eachDecl (fun d => R.handleDecl d ty) (some ds) : M Ref)) s
        (.ok (some e) (bindSt (newVar s1 (some s.next)) ⟨p, e, some s1.next⟩)) := by
      refine Conv.bind hev (Conv.of_eq hh fun R => ?_)
      have hkw : ∀ kw, chainHasKw kw [u] s = .ok false s := by
        intro kw
        simp [chainHasKw, node_apply h3]
      simp [chainElems_apply h2, hkw, eachDecl, peek_apply h5, forEachLast]
      cases R.handleDecl (some dd) (some c) s <;> rfl
    refine Conv.of_eq hall fun R => ?_
    have e0 : resolveSpecs (some specs) s = .ok (some u) s := by
      simp [resolveSpecs, chainElems_apply h2, resolveSpecsLoop, node_apply h3]
    show evalDecl E R t (some specs) (some ds) s = _
    simp [evalDecl, e0, peek_apply h3]
  · show s1.mem.brk + 48 = _
    omega

/-! ## The definition -/

theorem resolveGlobal_of_current {s : St} {x : String} {ns : NS} {f : TId} (h : resolveCurrent x ns s = some f) :
    resolveGlobal x ns s = some f := by
  unfold resolveCurrent at h
  cases hc : s.ctxs with
  | nil => rw [hc] at h; cases h
  | cons c cs =>
    rw [hc] at h
    simp only at h
    simp [resolveGlobal, hc, findInChain, h]

theorem Item.Fine.notBit {s : St} {i : Item} (h : i.Fine s) : ∃ n, s.nodes i.dd = some n ∧ ∀ a, n ≠ .bitfield a none := by
  rcases h with h | ⟨c, isS, tag, ⟨u, tid, sz, b, e, h1, h2, h3, h4, h5, h6⟩, _⟩
  · exact h.2.notBit
  · exact ⟨_, h4, by intros; simp⟩

theorem Decls.keeps {nd nd' : TId → Option Node} (h1 : ∀ t a b o, nd t = some (.decl a b o) → nd' t = some (.decl a b o))
    (h2 : ∀ t l, nd t = some (.chain l) → nd' t = some (.chain l)) {ts L}
    (hd : Decls nd ts L) (hb : ∀ i ∈ L, ∃ n, nd' i.dd = some n ∧ ∀ a, n ≠ .bitfield a none) : Decls nd' ts L := by
  induction hd with
  | nil => exact .nil
  | cons g1 g2 g3 g4 _ ih =>
    exact .cons (h1 _ _ _ _ g1) (h2 _ _ g2) g3
      (fun i hi => ⟨(g4 i hi).1, hb i (List.mem_append_left _ hi)⟩) (ih fun i hi => hb i (List.mem_append_right _ hi))

/-- the type `f` of this name gets the members that `t` gives: it is incomplete, or it has members but is not the very tree in `t` -/
def Retypable (s : St) (t f : TId) : Prop :=
  s.nodes f = some .incomp ∨ ((∃ a b sz x isS, s.nodes f = some (.compound a (some b) sz x isS)) ∧
    ∀ specs off c, s.nodes t = some (.decl (some specs) none off) → s.nodes specs = some (.chain [c]) → c ≠ f)

theorem Retypable.for {s : St} {t f specs c i ch0 : TId} {off sz : Nat} {isS : Bool} (h : Retypable s t f)
    (h1 : s.nodes t = some (.decl (some specs) none off)) (h2 : s.nodes specs = some (.chain [c]))
    (h3 : s.nodes c = some (.compound (some i) (some ch0) sz false isS)) :
    ∃ n0, s.nodes f = some n0 ∧ c ≠ f ∧ (n0 = .incomp ∨ ∃ a b sz x isS, n0 = .compound a (some b) sz x isS) := by
  rcases h with h | ⟨⟨a, b, sz', x, isS', h⟩, hc⟩
  · refine ⟨_, h, ?_, .inl rfl⟩
    rintro rfl; rw [h3] at h; cases h
  · exact ⟨_, h, hc _ _ _ h1 h2, .inr ⟨_, _, _, _, _, rfl⟩⟩

theorem completeTag_conv {E : Env} {s : St} {t f : TId} {isS : Bool} {nm : String} {L : List Item} (w : WF s)
    (ht : TagDef s t isS nm L) (hf : resolveCurrent nm (compNS isS) s = some f) (hi : Retypable s t f)
    (hcap : Cap s ((L.map fun i => mcost i.m).sum)) :
    ∃ s', Conv E (fun R => R.ev (some t)) s (.ok none s') ∧
      Laid s' f (withDecls s.next L) isS ∧ resolveGlobal nm (compNS isS) s' = some f ∧ GrowD [f] s s' ∧
      s'.mem.brk ≤ s.mem.brk + (L.map fun i => mcost i.m).sum := by
  obtain ⟨specs, c, ch0, i, ts, off, sz, h1, h2, h3, h4, h5, h6⟩ := ht.trees
  obtain ⟨n0, hi, hcf, hin⟩ := hi.for h1 h2 h3
  let s0 : St := { s with nodes := fun x => if x = f then some (.compound (some i) (some ch0) sz false isS) else s.nodes x }
  have g0 : GrowD [f] s s0 := (GrowD.refl [f] s).set (by simp) (w.lt hi) _
  have w0 : WF s0 := g0.wf w
  have hk : ∀ t n, Plain n ∨ (∃ a b o, n = .decl a b o) → s.nodes t = some n → s0.nodes t = some n := by
    intro t n hn h
    refine g0.nodes _ _ ?_ h
    simp only [List.mem_singleton]
    rintro rfl
    rw [hi] at h; cases h
    rcases hn with hn | ⟨a, b, o, rfl⟩ <;> rcases hin with hin | ⟨_, _, _, _, _, hin⟩ <;> first | cases hin; done | (subst hin; exact hn)
  have hfine : ∀ j ∈ L, j.Fine s0 := by
    intro j hj
    refine Item.Fine.keeps (s := s) ?_ (fun x ns => g0.resolveGlobal x ns) (ht.fine j hj)
    exact fun t n hp h => hk t n (.inl hp) h
  have hd := Decls.keeps (fun t a b o => hk t _ (.inr ⟨_, _, _, rfl⟩)) (fun t l => hk t _ (.inl trivial)) h6 fun j hj => (hfine j hj).notBit
  have hff : s0.nodes f = some (.compound (some i) (some ch0) sz false isS) := by simp [s0]
  obtain ⟨s1, c1, g1, l1, b1⟩ := expandCompound_conv (E := E) (s := s0) w0 hff (hk _ _ (.inl trivial) h5) hd hfine
    ⟨hcap.brk, hcap.ctxs, hcap.livelt⟩
  have g := g0.trans g1
  have nc : ∀ {y n}, y ≠ f → s.nodes y = some n → s1.nodes y = some n := by
    intro y n hn hy
    exact g.nodes _ _ (by simpa using hn) hy
  have hsf : specs ≠ f := by
    rintro rfl
    rw [h2] at hi; cases hi
    rcases hin with hin | ⟨_, _, _, _, _, hin⟩ <;> cases hin
  refine ⟨s1, ?_, l1, ?_, g, b1⟩
  · refine Conv.evNode h1 ?_
    have hev : Conv E (fun R => R.ev (some c)) s (.ok (some f) s1) := by
      refine Conv.evNode h3 ?_
      refine Conv.of_eq c1 fun R => ?_
      show evalDeclCompound R c (some i) (some ch0) isS s = _
      simp [evalDeclCompound, idStr, nodeR, node_apply h4, get, hf, node_apply h3, setNode_apply]
      rfl
    have hall : Conv E (fun R => (do
        let ty ← R.ev (some c)
        let ks ← chainElems (some specs)
        if ← chainHasKw .typedef ks then eachDecl (fun d => R.mapTypedef d ty) none
        else if ← chainHasKw .extern ks then eachDecl (handleExternDecl E R ty) none
        else if ← chainHasKw .static ks then handleStaticDecl R ty t none
        else pure none : M Ref)) s (.ok none s1) := by
      refine Conv.bind hev (Conv.fixed fun R => ?_)
      have hkw : ∀ kw, chainHasKw kw [c] s1 = .ok false s1 := by
        intro kw
        simp [chainHasKw, node_apply (nc hcf h3)]
      simp [chainElems_apply (nc hsf h2), hkw]
    refine Conv.of_eq hall fun R => ?_
    have e : resolveSpecs (some specs) s = .ok (some c) s := by
      simp [resolveSpecs, chainElems_apply h2, resolveSpecsLoop, node_apply h3]
    show evalDecl E R t (some specs) none s = _
    simp [evalDecl, e, peek_apply h3]
  · rw [g.resolveGlobal]; exact resolveGlobal_of_current hf

/-- C118: the definition `struct S { … };`, when this scope has declared `S` without members: the incomplete type becomes
the complete one, nothing else changes, and `S` stands for it. -/
theorem C118_complete (E : Env) (s : St) (t f : TId) (isS : Bool) (nm : String) (L : List Item) (w : WF s)
    (ht : TagDef s t isS nm L) (hf : resolveCurrent nm (compNS isS) s = some f) (hi : s.nodes f = some .incomp)
    (hcap : Cap s ((L.map fun i => mcost i.m).sum)) :
    ∃ L' s', Conv E (fun R => R.ev (some t)) s (.ok none s') ∧ L'.map Item.m = L.map Item.m ∧ L'.map Item.x = L.map Item.x ∧
      Laid s' f L' isS ∧ resolveGlobal nm (compNS isS) s' = some f ∧ GrowD [f] s s' ∧
      s'.mem.brk ≤ s.mem.brk + (L.map fun i => mcost i.m).sum := by
  obtain ⟨s', h1, h2, h3, h4, h5⟩ := completeTag_conv (E := E) w ht hf (.inl hi) hcap
  exact ⟨_, s', h1, withDecls_m _ _, withDecls_x _ _, h2, h3, h4, h5⟩

/-! ## All together -/

theorem tagSt_current {s : St} {isS : Bool} {nm : String} {i c : TId} (hx : FreshTag s isS nm) (hc : s.ctxs ≠ []) :
    resolveCurrent nm (compNS isS) (tagSt s isS ⟨nm, i, some c⟩) = some c := by
  cases h : s.ctxs with
  | nil => exact absurd h hc
  | cons a as =>
    have := findId_append_fresh (d := i) (t := c) (hx a as h)
    cases isS with
    | true =>
      simp only [compNS, if_true, Ctx.map] at this
      simp [resolveCurrent, tagSt, h, Ctx.map, compNS, this]
    | false =>
      simp only [compNS, Bool.false_eq_true, if_false, Ctx.map] at this
      simp [resolveCurrent, tagSt, h, Ctx.map, compNS, this]

theorem bindSt_tag {s : St} {b : Binding} {nm : String} {isS : Bool} :
    resolveCurrent nm (compNS isS) (bindSt s b) = resolveCurrent nm (compNS isS) s := by
  unfold resolveCurrent bindSt bindCur
  cases s.ctxs with
  | nil => rfl
  | cons c cs => cases isS <;> rfl

theorem findInChain_bind {b : Binding} {nm : String} {isS : Bool} {l : List Ctx} :
    findInChain nm (compNS isS) (bindCur b l) = findInChain nm (compNS isS) l := by
  cases l with
  | nil => rfl
  | cons c cs => cases isS <;> rfl

theorem bindSt_global {s : St} {b : Binding} {nm : String} {isS : Bool} :
    resolveGlobal nm (compNS isS) (bindSt s b) = resolveGlobal nm (compNS isS) s := by
  unfold resolveGlobal bindSt
  simp only [findInChain_bind]

/-- the trees of a definition whose members are of basic types, pointers and arrays of those, and pointers to `S` itself -/
structure TagDef0 (s : St) (t : TId) (isS : Bool) (nm : String) (L : List Item) : Prop where
  trees : ∃ specs c ch0 i ts off sz, s.nodes t = some (.decl (some specs) none off) ∧ s.nodes specs = some (.chain [c]) ∧
    s.nodes c = some (.compound (some i) (some ch0) sz false isS) ∧ s.nodes i = some (.ident nm) ∧
    s.nodes ch0 = some (.chain ts) ∧ Decls s.nodes ts L
  members : ∀ i ∈ L, i.Ok s.nodes ∨ i.Link s.nodes isS nm

theorem TagDef0.known {s s' : St} {t : TId} {isS : Bool} {nm : String} {L : List Item} {c : TId} (h : TagDef0 s t isS nm L)
    (hn : ∀ t n, s.nodes t = some n → s'.nodes t = some n) (hr : resolveGlobal nm (compNS isS) s' = some c) :
    TagDef s' t isS nm L where
  trees := by
    obtain ⟨specs, c, ch0, i, ts, off, sz, h1, h2, h3, h4, h5, h6⟩ := h.trees
    refine ⟨specs, c, ch0, i, ts, off, sz, hn _ _ h1, hn _ _ h2, hn _ _ h3, hn _ _ h4, hn _ _ h5, ?_⟩
    refine Decls.keeps (fun t a b o => hn t _) (fun t l => hn t _) h6 fun j hj => ?_
    rcases h.members j hj with hm | ⟨u, tid, sz, b, e, g1, g2, g3, g4, g5, g6⟩
    · obtain ⟨n, g1, g2⟩ := hm.2.notBit
      exact ⟨n, hn _ _ g1, g2⟩
    · exact ⟨_, hn _ _ g4, by intros; simp⟩
  fine := by
    intro j hj
    rcases h.members j hj with hm | hm
    · exact .inl (hm.keeps fun t n _ => hn t n)
    · exact .inr ⟨c, isS, nm, hm.keeps fun t n _ => hn t n, hr⟩

theorem PtrVar.keep {s s' : St} {D : List TId} {v c : TId} (h : PtrVar s v c) (g : GrowD D s s')
    (hD : ∀ f ∈ D, s.nodes f = some .incomp) : PtrVar s' v c := by
  obtain ⟨τ, a, arr, sz, h1, h2⟩ := h
  refine ⟨τ, a, arr, sz, g.nodes _ _ (fun hm => ?_) h1, g.nodes _ _ (fun hm => ?_) h2⟩
  · rw [hD _ hm] at h1; cases h1
  · rw [hD _ hm] at h2; cases h2

/-- C118: `struct S;`, `struct S *p;` and `struct S { … };` one after the other: `p` is a pointer to the type that `S` stands
for, and this type has the members with the layout of C17 and C18. -/
theorem C118_partial (E : Env) (s : St) (t0 t1 t2 i e : TId) (isS : Bool) (nm p : String) (L : List Item) (w : WF s)
    (h0 : TagDecl s t0 i isS nm) (h1 : TagPtr s t1 e isS nm p) (h2 : TagDef0 s t2 isS nm L) (hu : NewTag s isS nm)
    (hp : Fresh s p) (hcap : Cap s ((L.map fun i => mcost i.m).sum + 48)) :
    ∃ s1 s2 s3 v c L', Conv E (fun R => R.ev (some t0)) s (.ok (some i) s1) ∧
      Conv E (fun R => R.ev (some t1)) s1 (.ok (some e) s2) ∧ Conv E (fun R => R.ev (some t2)) s2 (.ok none s3) ∧
      resolveGlobal p .normal s3 = some v ∧ resolveGlobal nm (compNS isS) s3 = some c ∧ PtrVar s3 v c ∧
      Laid s3 c L' isS ∧ L'.map Item.m = L.map Item.m ∧ L'.map Item.x = L.map Item.x := by
  have c1 := C118_forward E s t0 i isS nm w hcap.ctxs h0 hu
  have x1 := addNode_ext w .incomp
  have hinc := addNode_self s .incomp
  have hcx : (addNode s .incomp).ctxs = s.ctxs := rfl
  have hmem : (addNode s .incomp).mem = s.mem := rfl
  have w1 := x1.wf w
  have hfr : FreshTag (addNode s .incomp) isS nm := by intro a as h; rw [hcx] at h; exact hu.1 a as h
  have hp1 : Fresh (tagSt (addNode s .incomp) isS ⟨nm, i, some s.next⟩) p := by
    intro a as h
    simp only [tagSt, hcx] at h
    cases hs : s.ctxs with
    | nil => exact absurd hs hcap.ctxs
    | cons b bs =>
      rw [hs] at h
      simp only [List.cons.injEq] at h
      obtain ⟨h, _⟩ := h
      have := hp b bs hs
      cases isS <;> simp only [Bool.false_eq_true, if_true, if_false] at h <;> rw [← h] <;> exact this
  have hcur := tagSt_current (i := i) (c := s.next) hfr (by rw [hcx]; exact hcap.ctxs)
  have hn1 : ∀ t n, s.nodes t = some n → (tagSt (addNode s .incomp) isS ⟨nm, i, some s.next⟩).nodes t = some n := x1.nodes
  have hinc1 : (tagSt (addNode s .incomp) isS ⟨nm, i, some s.next⟩).nodes s.next = some .incomp := hinc
  have hctx1 : (tagSt (addNode s .incomp) isS ⟨nm, i, some s.next⟩).ctxs ≠ [] := by
    cases hs : s.ctxs with
    | nil => exact absurd hs hcap.ctxs
    | cons b bs => simp [tagSt, hcx, hs]
  have hm1 : (tagSt (addNode s .incomp) isS ⟨nm, i, some s.next⟩).mem = s.mem := rfl
  have w1' : WF (tagSt (addNode s .incomp) isS ⟨nm, i, some s.next⟩) := w1
  generalize tagSt (addNode s .incomp) isS ⟨nm, i, some s.next⟩ = s1 at c1 hp1 hcur hn1 hinc1 hctx1 hm1 w1'
  have hcap1 : Cap s1 ((L.map fun i => mcost i.m).sum + 48) :=
    ⟨by rw [hm1]; exact hcap.brk, hctx1, by rw [hm1]; exact hcap.livelt⟩
  have h1' : TagPtr s1 t1 e isS nm p := by
    obtain ⟨specs, u, i, ds, dd, off, sz, b, g1, g2, g3, g4, g5, g6, g7⟩ := h1.trees
    exact ⟨specs, u, i, ds, dd, off, sz, b, hn1 _ _ g1, hn1 _ _ g2, hn1 _ _ g3, hn1 _ _ g4, hn1 _ _ g5, hn1 _ _ g6, hn1 _ _ g7⟩
  obtain ⟨v, s2, c2, g2, p2, b2⟩ := C118_pointer E s1 t1 e s.next isS nm p w1' h1' (resolveGlobal_of_current hcur) (Fresh.resolve hp1)
    (hcap1.room (by omega))
  have hcur2 : resolveCurrent nm (compNS isS) (bindSt s2 ⟨p, e, some v⟩) = some s.next := by
    rw [bindSt_tag, g2.resolveCurrent]; exact hcur
  have hcap2 : Cap (bindSt s2 ⟨p, e, some v⟩) ((L.map fun i => mcost i.m).sum) := by
    have hb := hcap1.brk
    have := (hcap1.grow (n' := (L.map fun i => mcost i.m).sum) g2 (by omega))
    refine ⟨this.brk, ?_, this.livelt⟩
    have := this.ctxs
    cases hs : s2.ctxs with
    | nil => exact absurd hs this
    | cons b bs => simp [bindSt, bindCur, hs]
  have hinc2 : (bindSt s2 ⟨p, e, some v⟩).nodes s.next = some .incomp := g2.nodes _ _ hinc1
  obtain ⟨L', s3, c3, hm, hx, hl, hr, g3, b3⟩ := C118_complete E (bindSt s2 ⟨p, e, some v⟩) t2 s.next isS nm L (g2.wf w1')
    (h2.known (fun t n h => g2.nodes _ _ (hn1 _ _ h)) (resolveGlobal_of_current hcur2)) hcur2 hinc2 hcap2
  refine ⟨s1, _, s3, v, s.next, L', c1, c2, c3, ?_, hr, ?_, hl, hm, hx⟩
  · rw [g3.resolveGlobal]
    refine resolveGlobal_of_current (resolveCurrent_bind ?_ ?_)
    · exact hp1.grow g2
    · exact g2.ctxs_ne hctx1
  · refine PtrVar.keep (s := bindSt s2 ⟨p, e, some v⟩) p2 g3 ?_
    intro f hf
    rw [List.mem_singleton] at hf; subst hf; exact hinc2

/-! ## Structures that point to each other -/

theorem GrowD.resolveCurrent {D : List TId} {s s' : St} (h : GrowD D s s') (x ns) :
    Bic.resolveCurrent x ns s' = Bic.resolveCurrent x ns s := by
  unfold Bic.resolveCurrent
  have h1 := h.ctxs
  cases hs : s.ctxs with
  | nil => rw [hs] at h1; simp at h1; rw [h1]
  | cons c cs =>
    cases hs' : s'.ctxs with
    | nil => rw [hs, hs'] at h1; simp at h1
    | cons c' cs' =>
      rw [hs, hs'] at h1
      simp only [List.map_cons, List.cons.injEq, Ctx.core, Ctx.mk.injEq] at h1
      cases ns <;> simp [Ctx.map, h1]

/-- declaring a tag leaves the tags of the scope -/
theorem tagSt_keeps {s : St} {isA isB : Bool} {b : Binding} {nm : String} {f : TId}
    (h : resolveCurrent nm (compNS isB) s = some f) : resolveCurrent nm (compNS isB) (tagSt s isA b) = some f := by
  unfold resolveCurrent at h ⊢
  cases hs : s.ctxs with
  | nil => rw [hs] at h; cases h
  | cons c cs =>
    rw [hs] at h
    simp only at h
    cases isA <;> cases isB <;> simp only [tagSt, hs, compNS, Bool.false_eq_true, if_true, if_false, Ctx.map] at h ⊢ <;>
      first | exact h | exact findId_append _ h

theorem FreshTag.tag {s : St} {isA isB : Bool} {nA nB : String} {i : TId} {c : Ref} (h : FreshTag s isA nA)
    (hne : isA = isB → nA ≠ nB) : FreshTag (tagSt s isB ⟨nB, i, c⟩) isA nA := by
  intro a as hc b hb
  cases hs : s.ctxs with
  | nil => simp [tagSt, hs] at hc
  | cons d ds =>
    have h' := h d ds hs
    simp only [tagSt, hs, List.cons.injEq] at hc
    obtain ⟨rfl, _⟩ := hc
    cases isA <;> cases isB <;>
      simp only [compNS, Bool.false_eq_true, if_true, if_false, Ctx.map, List.mem_append, List.mem_singleton] at hb h'
    · rcases hb with hb | rfl
      · exact h' b hb
      · exact fun e => hne rfl e.symm
    · exact h' b hb
    · exact h' b hb
    · rcases hb with hb | rfl
      · exact h' b hb
      · exact fun e => hne rfl e.symm

/-- a type stays laid out when an incomplete type is completed -/
theorem Laid.keep {s s' : St} {c f : TId} {L : List Item} {isS : Bool} (h : Laid s c L isS) (g : GrowD [f] s s')
    (hf : s.nodes f = some .incomp) : Laid s' c L isS := by
  have nc : ∀ {y n}, n ≠ .incomp → s.nodes y = some n → s'.nodes y = some n := by
    intro y n hn hy
    refine g.nodes _ _ ?_ hy
    simp only [List.mem_singleton]; rintro rfl
    rw [hf] at hy; cases hy; exact hn rfl
  obtain ⟨id, ch, h1, h2⟩ := h.tree
  refine ⟨⟨id, ch, nc (by simp) h1, nc (by simp) h2⟩, ?_, All₂.imp (fun _ _ h => nc (by simp) h) h.offs⟩
  intro j hj
  refine Item.Fine.keeps (s := s) ?_ (fun x ns => g.resolveGlobal x ns) (h.items j hj)
  intro t n hp hn
  refine nc ?_ hn
  rintro rfl; exact hp

/-- the trees of a definition whose members are of basic types, pointers and arrays of those, and pointers to the structures or
unions `A` and `B` -/
structure TagDef2 (s : St) (t c : TId) (isS : Bool) (nm : String) (L : List Item) (isA isB : Bool) (nA nB : String) : Prop where
  trees : ∃ specs ch0 i ts off sz, s.nodes t = some (.decl (some specs) none off) ∧ s.nodes specs = some (.chain [c]) ∧
    s.nodes c = some (.compound (some i) (some ch0) sz false isS) ∧ s.nodes i = some (.ident nm) ∧
    s.nodes ch0 = some (.chain ts) ∧ Decls s.nodes ts L
  members : ∀ i ∈ L, i.Ok s.nodes ∨ i.Link s.nodes isA nA ∨ i.Link s.nodes isB nB

/-- the members of `L'` are those of `L`, and the pointers to `nm` among them point to the type `c` -/
def LinksTo (s s' : St) (L L' : List Item) (isS : Bool) (nm : String) (c : TId) : Prop :=
  L'.map Item.m = L.map Item.m ∧ L'.map Item.x = L.map Item.x ∧
  ∀ (j : Nat) it, L[j]? = some it → it.Link s.nodes isS nm → ∃ it', L'[j]? = some it' ∧ it'.To s' c

theorem LinksTo.of {s s' : St} {L : List Item} {isS : Bool} {nm : String} {c : TId} {n : Nat}
    (hk : Keeps s.nodes s'.nodes) (hr : resolveGlobal nm (compNS isS) s' = some c) : LinksTo s s' L (withDecls n L) isS nm c := by
  refine ⟨withDecls_m _ _, withDecls_x _ _, ?_⟩
  intro j it hj hl
  exact ⟨_, withDecls_get hj, isS, nm, Item.Link.keeps (i := { it with d := n + j }) hk hl, hr⟩

/-- C118: `struct B;`, then `struct A { … struct B *b; … };`, then `struct B { … struct A *a; … };`, where `A` and `B` are new:
both types are laid out, the pointers to `B` in `A` point to the type that `B` stands for, and the pointers to `A`
in `B` to the type that `A` stands for. -/
theorem C118_mutual (E : Env) (s : St) (t0 tA tB i cA cB : TId) (isA isB : Bool) (nA nB : String) (LA LB : List Item) (w : WF s)
    (h0 : TagDecl s t0 i isB nB) (hA : TagDef2 s tA cA isA nA LA isA isB nA nB) (hB : TagDef2 s tB cB isB nB LB isA isB nA nB)
    (hne : isA = isB → nA ≠ nB) (hc : cA ≠ cB) (huA : FreshTag s isA nA) (huB : NewTag s isB nB)
    (hcap : Cap s ((LA.map fun i => mcost i.m).sum + (LB.map fun i => mcost i.m).sum)) :
    ∃ s1 s2 s3 cB' LA' LB', Conv E (fun R => R.ev (some t0)) s (.ok (some i) s1) ∧
      Conv E (fun R => R.ev (some tA)) s1 (.ok none s2) ∧ Conv E (fun R => R.ev (some tB)) s2 (.ok none s3) ∧
      resolveGlobal nA (compNS isA) s3 = some cA ∧ resolveGlobal nB (compNS isB) s3 = some cB' ∧
      Laid s3 cA LA' isA ∧ Laid s3 cB' LB' isB ∧
      LinksTo s s3 LA LA' isA nA cA ∧ LinksTo s s3 LA LA' isB nB cB' ∧
      LinksTo s s3 LB LB' isA nA cA ∧ LinksTo s s3 LB LB' isB nB cB' := by
  obtain ⟨spA, chA, iA, tsA, offA, szA, a1, a2, a3, a4, a5, a6⟩ := hA.trees
  obtain ⟨spB, chB, iB, tsB, offB, szB, b1, b2, b3, b4, b5, b6⟩ := hB.trees
  have hcA := w.lt a3
  have c1 := C118_forward E s t0 i isB nB w hcap.ctxs h0 huB
  have x1 := addNode_ext w .incomp
  have hinc := addNode_self s .incomp
  have hcx : (addNode s .incomp).ctxs = s.ctxs := rfl
  have hfrB : FreshTag (addNode s .incomp) isB nB := by intro a as h; rw [hcx] at h; exact huB.1 a as h
  have hfrA : FreshTag (addNode s .incomp) isA nA := by intro a as h; rw [hcx] at h; exact huA a as h
  have hfr1 := hfrA.tag (i := i) (c := some s.next) hne
  have hcur := tagSt_current (i := i) (c := s.next) hfrB (by rw [hcx]; exact hcap.ctxs)
  have hn1 : ∀ t n, s.nodes t = some n → (tagSt (addNode s .incomp) isB ⟨nB, i, some s.next⟩).nodes t = some n := x1.nodes
  have hinc1 : (tagSt (addNode s .incomp) isB ⟨nB, i, some s.next⟩).nodes s.next = some .incomp := hinc
  have hctx1 : (tagSt (addNode s .incomp) isB ⟨nB, i, some s.next⟩).ctxs ≠ [] := by
    cases hs : s.ctxs with
    | nil => exact absurd hs hcap.ctxs
    | cons b bs => simp [tagSt, hcx, hs]
  have hm1 : (tagSt (addNode s .incomp) isB ⟨nB, i, some s.next⟩).mem = s.mem := rfl
  have w1 : WF (tagSt (addNode s .incomp) isB ⟨nB, i, some s.next⟩) := x1.wf w
  generalize tagSt (addNode s .incomp) isB ⟨nB, i, some s.next⟩ = s1 at c1 hfr1 hcur hn1 hinc1 hctx1 hm1 w1
  have hcap1 : Cap s1 ((LA.map fun i => mcost i.m).sum) :=
    ⟨by rw [hm1]; have := hcap.brk; omega, hctx1, by rw [hm1]; exact hcap.livelt⟩
  -- the members of A
  have hresA := tagSt_resolve (i := iA) (c := cA) hfr1 hctx1
  have hcurB := tagSt_keeps (isA := isA) (b := ⟨nA, iA, some cA⟩) hcur
  have hfineA : ∀ j ∈ LA, j.Fine (tagSt s1 isA ⟨nA, iA, some cA⟩) := by
    intro j hj
    rcases hA.members j hj with hm | hm | hm
    · exact .inl (hm.keeps fun t n _ => hn1 t n)
    · exact .inr ⟨cA, isA, nA, hm.keeps fun t n _ => hn1 t n, hresA⟩
    · exact .inr ⟨s.next, isB, nB, hm.keeps fun t n _ => hn1 t n, resolveGlobal_of_current hcurB⟩
  have hdA : Decls s1.nodes tsA LA :=
    Decls.keeps (fun t a b o => hn1 t _) (fun t l => hn1 t _) a6 fun j hj => (hfineA j hj).notBit
  obtain ⟨s2, c2, l2, r2, g2, m2⟩ := defTag_conv (E := E) w1 (hn1 _ _ a1) (hn1 _ _ a2) (hn1 _ _ a3) (hn1 _ _ a4) (hn1 _ _ a5)
    hdA hfineA hfr1 hcap1
  have w2 : WF s2 := g2.wf w1
  have nc2 : ∀ {y n}, y ≠ cA → s.nodes y = some n → s2.nodes y = some n := by
    intro y n hy h
    exact g2.nodes _ _ (by simpa using hy) (hn1 _ _ h)
  have k2 : Keeps s.nodes s2.nodes := by
    intro y n hp h
    refine nc2 ?_ h
    rintro rfl
    rw [a3] at h; cases h; exact hp
  have hcur2 : resolveCurrent nB (compNS isB) s2 = some s.next := by rw [g2.resolveCurrent]; exact hcurB
  have hinc2 : s2.nodes s.next = some .incomp := by
    refine g2.nodes _ _ ?_ hinc1
    simp only [List.mem_singleton]
    intro h; rw [← h] at hcA; exact absurd hcA (Nat.lt_irrefl _)
  -- the members of B
  have hfineB : ∀ j ∈ LB, j.Fine s2 := by
    intro j hj
    rcases hB.members j hj with hm | hm | hm
    · exact .inl (hm.keeps k2)
    · exact .inr ⟨cA, isA, nA, hm.keeps k2, r2⟩
    · exact .inr ⟨s.next, isB, nB, hm.keeps k2, resolveGlobal_of_current hcur2⟩
  have hdB : Decls s2.nodes tsB LB := by
    refine Decls.keeps (fun t a b o h => nc2 ?_ h) (fun t l h => nc2 ?_ h) b6 fun j hj => (hfineB j hj).notBit
    · rintro rfl; rw [a3] at h; cases h
    · rintro rfl; rw [a3] at h; cases h
  have hdefB : TagDef s2 tB isB nB LB := by
    refine ⟨⟨spB, cB, chB, iB, tsB, offB, szB, nc2 ?_ b1, nc2 ?_ b2, nc2 hc.symm b3, nc2 ?_ b4, nc2 ?_ b5, hdB⟩, hfineB⟩
    · rintro rfl; rw [a3] at b1; cases b1
    · rintro rfl; rw [a3] at b2; cases b2
    · rintro rfl; rw [a3] at b4; cases b4
    · rintro rfl; rw [a3] at b5; cases b5
  have hcap2 : Cap s2 ((LB.map fun i => mcost i.m).sum) := by
    refine ⟨?_, ?_, g2.livelt (by show LiveLt s1.mem; rw [hm1]; exact hcap.livelt)⟩
    · have := hcap.brk
      rw [hm1] at m2
      omega
    · refine g2.ctxs_ne ?_
      cases hs : s1.ctxs with
      | nil => exact absurd hs hctx1
      | cons b bs => simp [tagSt, hs]
  obtain ⟨s3, c3, l3, r3, g3, m3⟩ := completeTag_conv (E := E) w2 hdefB hcur2 (.inl hinc2) hcap2
  have k3 : Keeps s.nodes s3.nodes := by
    refine k2.trans ?_
    intro y n hp h
    refine g3.nodes _ _ ?_ h
    simp only [List.mem_singleton]
    rintro rfl
    rw [hinc2] at h; cases h; exact hp
  have rA : resolveGlobal nA (compNS isA) s3 = some cA := by rw [g3.resolveGlobal]; exact r2
  exact ⟨s1, s2, s3, s.next, _, _, c1, c2, c3, rA, r3, l2.keep g3 hinc2, l3, .of k3 rA, .of k3 r3, .of k3 rA, .of k3 r3⟩

/-! ## A pointer as the first mention -/

/-- `struct S *p;`, `struct S { int a; };` and `struct S;` -/
def nodes118 : List Node :=
  [.ident "S", .compound (some 0) none 0 false true, .chain [1], .ident "p", .pointer (some 3), .chain [4],
   .decl (some 2) (some 5) 0, .kw .int, .chain [7], .ident "a", .chain [9], .decl (some 8) (some 10) 0, .chain [11],
   .compound (some 0) (some 12) 0 false true, .chain [13], .decl (some 14) none 0, .decl (some 2) none 0]

def st118 : St := stOf nodes118 [] []

def items118 : List Item := [⟨0, 8, 9, .int, "a", .val .int⟩]

/-- C118 in full is false: when `struct S *p;` is the first mention of `S`, `p` becomes a pointer to the identifier `S`, and
stays so. -/
theorem C118_refuted : ¬ C118_statement := by
  intro h
  have hr : resolveGlobal "S" (compNS true) st118 = none := by decide +kernel
  obtain ⟨τ, a, arr, sz, h1, h2⟩ := h E0 nodes118 st118 (evTo 40 6 st118) (evTo 40 15 (evTo 40 6 st118)) 6 15 3 19 17 true "S" "p"
    items118 (some 3) none (by decide +kernel) .start (by intro f hf; rw [hr] at hf; cases hf)
    ⟨2, 1, 0, 5, 4, 0, 0, false, rfl, rfl, rfl, rfl, rfl, rfl, rfl⟩
    (evTo_conv _ _ _ _ (by decide +kernel) (by decide +kernel))
    ⟨⟨14, 13, 12, 0, [11], 0, 0, by decide +kernel, by decide +kernel, by decide +kernel, by decide +kernel, by decide +kernel,
      @Decls.cons _ 11 8 10 0 [9] [] items118 [] (by decide +kernel) (by decide +kernel) rfl
        (by intro i hi; simp only [items118, List.mem_singleton] at hi; subst hi; exact ⟨rfl, .ident "a", by decide +kernel, by simp⟩)
        .nil⟩,
      by
        intro i hi
        simp only [items118, List.mem_singleton] at hi
        subst hi
        exact .inl ⟨⟨[7], [.int], by decide +kernel, .cons (by decide +kernel) .nil, by decide, by decide⟩, .ident (by decide +kernel)⟩⟩
    (evTo_conv _ _ _ _ (by decide +kernel) (by decide +kernel))
    (by decide +kernel) (by decide +kernel)
  have h3 : (match (evTo 40 15 (evTo 40 6 st118)).nodes 19 with | some (.lv (some τ) _ _ _) => τ | _ => 0) = 18 := by decide +kernel
  rw [h1] at h3
  simp only at h3
  subst h3
  have h4 : (evTo 40 15 (evTo 40 6 st118)).nodes 18 = some (.ctype .ptr (some 0)) := by decide +kernel
  rw [h4] at h2; cases h2

/-! ## Examples -/

theorem st118_tag : NewTag st118 true "S" := by
  refine ⟨?_, by decide +kernel⟩
  intro c cs hc b hb
  have : c = ctx1 [] := by simp [st118, stOf] at hc; exact hc.1.symm
  subst this; simp [ctx1, compNS, Ctx.map] at hb

theorem st118_name : Fresh st118 "p" := by
  intro c cs hc b hb
  have : c = ctx1 [] := by simp [st118, stOf] at hc; exact hc.1.symm
  subst this; simp [ctx1] at hb

theorem st118_def : TagDef0 st118 15 true "S" items118 where
  trees := ⟨14, 13, 12, 0, [11], 0, 0, rfl, rfl, rfl, rfl, rfl,
      @Decls.cons _ 11 8 10 0 [9] [] items118 [] rfl rfl rfl
        (by intro i hi; simp only [items118, List.mem_singleton] at hi; subst hi; exact ⟨rfl, .ident "a", rfl, by simp⟩)
        .nil⟩
  members := by
    intro i hi
    simp only [items118, List.mem_singleton] at hi
    subst hi
    exact .inl ⟨⟨[7], [.int], rfl, .cons rfl .nil, by decide, by decide⟩, .ident rfl⟩

theorem st118_cap : Cap st118 ((items118.map fun i => mcost i.m).sum + 48) :=
  ⟨by decide +kernel, by simp [st118, stOf], memOf_livelt _⟩

theorem st118_decl : TagDecl st118 16 0 true "S" := ⟨2, 1, 0, 0, false, rfl, rfl, rfl, rfl⟩

theorem st118_ptr : TagPtr st118 6 3 true "S" "p" := ⟨2, 1, 0, 5, 4, 0, 0, false, rfl, rfl, rfl, rfl, rfl, rfl, rfl⟩

example := C118_forward E0 st118 16 0 true "S" (stOf_WF _ _ _) st118_cap.ctxs st118_decl st118_tag
example := C118_partial E0 st118 16 6 15 0 3 true "S" "p" items118 (stOf_WF _ _ _) st118_decl st118_ptr st118_def st118_tag
  st118_name st118_cap

/-- the same trees where `S` has been declared -/
def st118f : St :=
  { stOf (nodes118 ++ [.incomp]) [] [] with ctxs := [{ ctx1 [] with structs := [⟨"S", 0, some 17⟩] }] }

theorem st118f_WF : WF st118f := stOf_WF (nodes118 ++ [Node.incomp]) [] []

example := C118_pointer E0 st118f 6 3 17 true "S" "p" st118f_WF
  ⟨2, 1, 0, 5, 4, 0, 0, false, rfl, rfl, rfl, rfl, rfl, rfl, rfl⟩ (by decide +kernel) (by decide +kernel)
  (Cap.room (n := 48) ⟨by decide +kernel, by simp [st118f, stOf], memOf_livelt _⟩ (by decide))

example := C118_complete E0 st118f 15 17 true "S" items118 st118f_WF
  ⟨⟨14, 13, 12, 0, [11], 0, 0, rfl, rfl, rfl, rfl, rfl,
      @Decls.cons _ 11 8 10 0 [9] [] items118 [] rfl rfl rfl
        (by intro i hi; simp only [items118, List.mem_singleton] at hi; subst hi; exact ⟨rfl, .ident "a", rfl, by simp⟩)
        .nil⟩, by
    intro i hi
    simp only [items118, List.mem_singleton] at hi
    subst hi
    exact .inl ⟨⟨[7], [.int], rfl, .cons rfl .nil, by decide, by decide⟩, .ident rfl⟩⟩
  (by decide +kernel) rfl ⟨by decide +kernel, by simp [st118f, stOf], memOf_livelt _⟩

/-- `struct B;`, `struct A { struct B *b; };`, `struct B { struct A *a; };` -/
def nodesMutual : List Node :=
  [.ident "A", .ident "B", .compound (some 1) none 0 false true, .chain [2], .decl (some 3) none 0,
   .ident "b", .pointer (some 5), .chain [6], .decl (some 3) (some 7) 0, .chain [8], .compound (some 0) (some 9) 0 false true,
   .chain [10], .decl (some 11) none 0,
   .compound (some 0) none 0 false true, .chain [13], .ident "a", .pointer (some 15), .chain [16], .decl (some 14) (some 17) 0,
   .chain [18], .compound (some 1) (some 19) 0 false true, .chain [20], .decl (some 21) none 0]

def stMutual : St := stOf nodesMutual [] []

theorem stMutual_fresh (x : String) : FreshTag stMutual true x := by
  intro c cs hc b hb
  have : c = ctx1 [] := by simp [stMutual, stOf] at hc; exact hc.1.symm
  subst this; simp [ctx1, compNS, Ctx.map] at hb

example := C118_mutual E0 stMutual 4 12 22 1 10 20 true true "A" "B" [⟨0, 3, 6, .int, "b", .val .ptr⟩] [⟨0, 14, 16, .int, "a", .val .ptr⟩]
  (stOf_WF _ _ _) ⟨3, 2, 0, 0, false, rfl, rfl, rfl, rfl⟩
  ⟨⟨11, 9, 0, [8], 0, 0, rfl, rfl, rfl, rfl, rfl,
    @Decls.cons _ 8 3 7 0 [6] [] [⟨0, 3, 6, .int, "b", .val .ptr⟩] [] rfl rfl rfl
      (by intro i hi; simp only [List.mem_singleton] at hi; subst hi; exact ⟨rfl, .pointer (some 5), rfl, by simp⟩) .nil⟩, by
    intro i hi
    simp only [List.mem_singleton] at hi
    subst hi
    exact .inr (.inr ⟨2, 1, 0, false, 5, rfl, rfl, rfl, rfl, rfl, rfl⟩)⟩
  ⟨⟨21, 19, 1, [18], 0, 0, rfl, rfl, rfl, rfl, rfl,
    @Decls.cons _ 18 14 17 0 [16] [] [⟨0, 14, 16, .int, "a", .val .ptr⟩] [] rfl rfl rfl
      (by intro i hi; simp only [List.mem_singleton] at hi; subst hi; exact ⟨rfl, .pointer (some 15), rfl, by simp⟩) .nil⟩, by
    intro i hi
    simp only [List.mem_singleton] at hi
    subst hi
    exact .inr (.inl ⟨13, 0, 0, false, 15, rfl, rfl, rfl, rfl, rfl, rfl⟩)⟩
  (by decide) (by decide) (stMutual_fresh _) ⟨stMutual_fresh _, by decide +kernel⟩
  ⟨by decide +kernel, by simp [stMutual, stOf], memOf_livelt _⟩

end Bic
