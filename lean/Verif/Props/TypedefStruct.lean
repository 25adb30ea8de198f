import Verif.Props.Retag
import Verif.Props.StructAssign
/-!
# C121: names for structure types
-/

namespace Bic
open Spec

/-- `t` is `typedef struct S T;` (or `union`); `d` is the identifier `T` -/
structure TypedefTag (s : St) (t d : TId) (isS : Bool) (nm T : String) : Prop where
  trees : ∃ specs k u i ds off sz b, s.nodes t = some (.decl (some specs) (some ds) off) ∧ s.nodes specs = some (.chain [k, u]) ∧
    s.nodes k = some (.kw .typedef) ∧ s.nodes u = some (.compound (some i) none sz b isS) ∧ s.nodes i = some (.ident nm) ∧
    s.nodes ds = some (.chain [d]) ∧ s.nodes d = some (.ident T)

/-- C121 in full: wherever a program gets, when the structure or union `S` is not defined yet, `typedef struct S T;` followed by the
definition of `S` makes `T` a name of the type that `S` then stands for. -/
def C121_statement : Prop :=
  ∀ (E : Env) (l : List Node) (s s1 s2 : St) (t t' d : TId) (isS : Bool) (nm T : String) (L : List Item) (r r' : Ref),
    (∀ n ∈ l, Parsed n) → Reach E (stOf l [] []) s → Undefined s isS nm → TypedefTag s t d isS nm T →
    Conv E (fun R => R.ev (some t)) s (.ok r s1) → TagDef s1 t' isS nm L → Conv E (fun R => R.ev (some t')) s1 (.ok r' s2) →
    resolveGlobal T .normal s2 = resolveGlobal nm (compNS isS) s2

/-! ## The declaration of the name -/

/-- `typedef τ T;` once the type is evaluated -/
theorem mapTypedef_conv {E : Env} {s : St} {d : TId} {τ : Ref} {T : String} (hd : s.nodes d = some (.ident T)) (hc : s.ctxs ≠ [])
    (hx : resolveCurrent T .normal s = none) :
    Conv E (fun R => R.mapTypedef (some d) τ) s (.ok (some d) (bindSt s ⟨T, d, τ⟩)) := by
  refine Conv.mapTypedef ?_
  unfold mapTypedefStep
  refine Conv.bind (a := (some d, τ)) (s' := s) (Conv.resolvePtr ?_) (Conv.fixed fun R => ?_)
  · exact Conv.fixed fun R => by simp [resolvePtrStep, peek_apply hd]
  · simp [peek_apply hd, mapIdentifier_apply hd hc hx]

/-- `typedef C T;`, where `C` is a structure or union type evaluated to `τ` -/
theorem typedefComp_conv {E : Env} {s s' : St} {t specs k u ds d : TId} {off : Nat} {i c : Ref} {sz : Nat} {b isS : Bool} {T : String}
    {τ : Ref} (h1 : s.nodes t = some (.decl (some specs) (some ds) off)) (h2 : s.nodes specs = some (.chain [k, u]))
    (h3 : s.nodes k = some (.kw .typedef)) (h4 : s.nodes u = some (.compound i c sz b isS))
    (h2' : s'.nodes specs = some (.chain [k, u])) (h3' : s'.nodes k = some (.kw .typedef))
    (h5 : s'.nodes ds = some (.chain [d])) (h6 : s'.nodes d = some (.ident T)) (hc : s'.ctxs ≠ [])
    (hx : resolveCurrent T .normal s' = none) (hev : Conv E (fun R => R.ev (some u)) s (.ok τ s')) :
    Conv E (fun R => R.ev (some t)) s (.ok (some d) (bindSt s' ⟨T, d, τ⟩)) := by
  refine Conv.evNode h1 ?_
  have hall : Conv E (fun R => (do
      let ty ← R.ev (some u)
      let ks ← chainElems (some specs)
      if ← chainHasKw .typedef ks then eachDecl (fun d => R.mapTypedef d ty) (some ds)
      else if ← chainHasKw .extern ks then eachDecl (handleExternDecl E R ty) (some ds)
      else if ← chainHasKw .static ks then handleStaticDecl R ty t (some ds)
      else eachDecl (fun d => R.handleDecl d ty) (some ds) : M Ref)) s (.ok (some d) (bindSt s' ⟨T, d, τ⟩)) := by
    refine Conv.bind hev (Conv.of_eq (mapTypedef_conv (E := E) (τ := τ) h6 hc hx) fun R => ?_)
    simp [chainElems_apply h2', chainHasKw, node_apply h3', eachDecl, peek_apply h5, forEachLast]
    cases R.mapTypedef (some d) τ s' <;> rfl
  refine Conv.of_eq hall fun R => ?_
  have e0 : resolveSpecs (some specs) s = .ok (some u) s := by
    simp [resolveSpecs, chainElems_apply h2, resolveSpecsLoop, node_apply h3, node_apply h4, ignoredSpec]
  show evalDecl E R t (some specs) (some ds) s = _
  simp [evalDecl, e0, peek_apply h4]

/-- C121: `typedef struct S T;`, when the tag is known, makes `T` stand for its type, complete or not. -/
theorem C121_known (E : Env) (s : St) (t d c : TId) (isS : Bool) (nm T : String) (ht : TypedefTag s t d isS nm T)
    (hr : resolveGlobal nm (compNS isS) s = some c) (hc : s.ctxs ≠ []) (hx : Fresh s T) :
    ∃ s', Conv E (fun R => R.ev (some t)) s (.ok (some d) s') ∧ resolveGlobal T .normal s' = some c ∧
      resolveGlobal nm (compNS isS) s' = some c ∧ (∀ y, y ≠ T → resolveGlobal y .normal s' = resolveGlobal y .normal s) ∧
      s'.nodes = s.nodes ∧ s'.mem = s.mem := by
  obtain ⟨specs, k, u, i, ds, off, sz, b, h1, h2, h3, h4, h5, h6, h7⟩ := ht.trees
  refine ⟨bindSt s ⟨T, d, some c⟩, typedefComp_conv h1 h2 h3 h4 h2 h3 h6 h7 hc hx.resolve ?_, resolveGlobal_bind hx hc, ?_, ?_, rfl, rfl⟩
  · refine Conv.evNode h4 (Conv.fixed fun R => ?_)
    show evalDeclCompound R u (some i) none isS s = _
    simp [evalDeclCompound, idStr, nodeR, node_apply h5, get, hr]
  · rw [bindSt_global]; exact hr
  · intro y hy; exact resolveGlobal_other hy _ _

/-- `t` is `typedef struct S { … } T;` or `typedef struct { … } T;` (or `union`) with the members `L`; `d` is the identifier `T`, `c`
the type -/
structure TypedefDef (s : St) (t d c : TId) (isS : Bool) (tag : Option (TId × String)) (T : String) (L : List Item) : Prop where
  trees : ∃ specs k ch0 ds ts off sz, s.nodes t = some (.decl (some specs) (some ds) off) ∧ s.nodes specs = some (.chain [k, c]) ∧
    s.nodes k = some (.kw .typedef) ∧ s.nodes c = some (.compound (tag.map Prod.fst) (some ch0) sz false isS) ∧
    s.nodes ds = some (.chain [d]) ∧ s.nodes d = some (.ident T) ∧ s.nodes ch0 = some (.chain ts) ∧ Decls s.nodes ts L
  named : ∀ i nm, tag = some (i, nm) → s.nodes i = some (.ident nm) ∧ FreshTag s isS nm
  fine : ∀ i ∈ L, i.Fine (tagged s isS c tag)

theorem Fresh.growD {D : List TId} {s s' : St} {x : String} (h : Fresh s x) (g : GrowD D s s') : Fresh s' x := by
  intro c cs hc b hb
  have h1 := g.ctxs
  cases hs : s.ctxs with
  | nil => rw [hs, hc] at h1; simp at h1
  | cons c' cs' =>
    rw [hs, hc] at h1
    simp only [List.map_cons, List.cons.injEq, Ctx.core, Ctx.mk.injEq] at h1
    exact h c' cs' hs b (by rw [← h1.1.2.2.1]; exact hb)

theorem Laid.bind {s : St} {c : TId} {L : List Item} {isS : Bool} (h : Laid s c L isS) (b : Binding) : Laid (bindSt s b) c L isS where
  tree := h.tree
  items := by
    intro i hi
    rcases h.items i hi with h | ⟨c, isS, nm, h, hr⟩
    · exact .inl h
    · exact .inr ⟨c, isS, nm, h, by rw [bindSt_global]; exact hr⟩
  offs := h.offs

theorem CompAt.bind {s : St} {v c : TId} {L : List Item} {isS : Bool} {base : Nat} {bs : List Binding} (h : CompAt s v c L isS base bs)
    (b : Binding) : CompAt (bindSt s b) v c L isS base bs := by
  refine ⟨h.obj, ?_, ?_, h.ok⟩
  · refine All₂.imp (fun p b hpb => ?_) h.members
    obtain ⟨h1, v, h2, h3, ⟨ty, a, arr, n, h4, h5⟩⟩ := hpb
    refine ⟨h1, v, h2, ?_, ⟨ty, a, arr, n, h4, h5⟩⟩
    cases hm : p.1.m with
    | val c => rw [hm] at h3; exact h3
    | arr c n =>
      rw [hm] at h3
      obtain ⟨bt, e, ha, h4⟩ := h3
      exact ⟨bt, e, ⟨ha.lv⟩, h4⟩
  · have hsz := h.size
    generalize Laid.bytes L isS = n at hsz
    cases hsz with
    | ctype h => exact .ctype h
    | comp h => exact .comp h
    | var h1 h2 h3 => exact .var h1 h2 h3
    | array h1 h2 => exact .array h1 h2
    | lcomp h1 h2 => exact .lcomp h1 h2

/-- C121: `typedef struct S { … } T;`, with or without a tag, makes `T` stand for the new type, which has the members of the definition. -/
theorem C121_defined (E : Env) (s : St) (t d c : TId) (isS : Bool) (tag : Option (TId × String)) (T : String) (L : List Item) (w : WF s)
    (ht : TypedefDef s t d c isS tag T L) (hx : Fresh s T) (hcap : Cap s ((L.map fun i => mcost i.m).sum)) :
    ∃ L' s', Conv E (fun R => R.ev (some t)) s (.ok (some d) s') ∧ resolveGlobal T .normal s' = some c ∧
      (∀ i nm, tag = some (i, nm) → resolveGlobal nm (compNS isS) s' = some c) ∧
      Laid s' c L' isS ∧ L'.map Item.m = L.map Item.m ∧ L'.map Item.x = L.map Item.x := by
  obtain ⟨specs, k, ch0, ds, ts, off, sz, h1, h2, h3, h4, h5, h6, h7, h8⟩ := ht.trees
  obtain ⟨s1, c1, g1, l1, b1⟩ := newComp_conv (E := E) w h4 ht.named h7 h8 ht.fine hcap
  have nc : ∀ {y n}, s.nodes y = some n → Plain n → s1.nodes y = some n := by
    intro y n hy hp
    refine g1.nodes _ _ ?_ (by rw [tagged_nodes]; exact hy)
    simp only [List.mem_singleton]; rintro rfl
    rw [h4] at hy; cases hy; exact hp
  have hcx := g1.ctxs_ne (tagged_ctxs s isS c tag hcap.ctxs)
  have hf := (fresh_tagged hx isS c tag).growD g1
  refine ⟨withDecls s.next L, bindSt s1 ⟨T, d, some c⟩,
    typedefComp_conv h1 h2 h3 h4 (nc h2 trivial) (nc h3 trivial) (nc h5 trivial) (nc h6 trivial) hcx hf.resolve c1,
    resolveGlobal_bind hf hcx, ?_, ?_, withDecls_m _ _, withDecls_x _ _⟩
  · rintro i nm rfl
    rw [bindSt_global, g1.resolveGlobal]
    exact tagSt_resolve (ht.named i nm rfl).2 hcap.ctxs
  · exact l1.bind _

/-- C121, the part of the statement that holds: when `struct S;` came before in the same scope, `typedef struct S T;` followed by the
definition of `S` makes `T` a name of the type that `S` then stands for, with the members of the definition. -/
theorem C121_partial (E : Env) (s : St) (t t' d f : TId) (isS : Bool) (nm T : String) (L : List Item) (w : WF s)
    (ht : TypedefTag s t d isS nm T) (ht' : TagDef s t' isS nm L) (hf : resolveCurrent nm (compNS isS) s = some f)
    (hi : s.nodes f = some .incomp) (hx : Fresh s T) (hcap : Cap s ((L.map fun i => mcost i.m).sum)) :
    ∃ L' s1 s2, Conv E (fun R => R.ev (some t)) s (.ok (some d) s1) ∧ Conv E (fun R => R.ev (some t')) s1 (.ok none s2) ∧
      resolveGlobal T .normal s2 = some f ∧ resolveGlobal nm (compNS isS) s2 = some f ∧
      Laid s2 f L' isS ∧ L'.map Item.m = L.map Item.m ∧ L'.map Item.x = L.map Item.x := by
  obtain ⟨specs, k, u, i, ds, off, sz, b, h1, h2, h3, h4, h5, h6, h7⟩ := ht.trees
  have c1 : Conv E (fun R => R.ev (some t)) s (.ok (some d) (bindSt s ⟨T, d, some f⟩)) := by
    refine typedefComp_conv h1 h2 h3 h4 h2 h3 h6 h7 hcap.ctxs hx.resolve (Conv.evNode h4 (Conv.fixed fun R => ?_))
    show evalDeclCompound R u (some i) none isS s = _
    simp [evalDeclCompound, idStr, nodeR, node_apply h5, get, resolveGlobal_of_current hf]
  have hcx : (bindSt s ⟨T, d, some f⟩).ctxs ≠ [] := by
    cases hs : s.ctxs with
    | nil => exact absurd hs hcap.ctxs
    | cons b bs => simp [bindSt, bindCur, hs]
  obtain ⟨L', s2, c2, hm, hn, hl, hr, g, _⟩ := C118_complete E (bindSt s ⟨T, d, some f⟩) t' f isS nm L w
    ⟨ht'.trees, fun i hi => by
      rcases ht'.fine i hi with h | ⟨c, isS, nm, h, hr⟩
      · exact .inl h
      · exact .inr ⟨c, isS, nm, h, by rw [bindSt_global]; exact hr⟩⟩
    (by rw [bindSt_tag]; exact hf) hi ⟨hcap.brk, hcx, hcap.livelt⟩
  exact ⟨L', _, s2, c1, c2, by rw [g.resolveGlobal]; exact resolveGlobal_bind hx hcap.ctxs, hr, hl, hm, hn⟩

/-! ## Its use -/

/-- `t` is `T x;`, `T *x;` when `ptr`; `e` is the identifier `x` -/
structure NamedVar (s : St) (t e : TId) (ptr : Bool) (T x : String) : Prop where
  trees : ∃ specs u ds dd off, s.nodes t = some (.decl (some specs) (some ds) off) ∧ s.nodes specs = some (.chain [u]) ∧
    s.nodes u = some (.ident T) ∧ s.nodes ds = some (.chain [dd]) ∧ (if ptr then s.nodes dd = some (.pointer (some e)) else dd = e) ∧
    s.nodes e = some (.ident x)

theorem namedVar_conv {E : Env} {s : St} {t specs u ds dd c : TId} {off : Nat} {T : String} {o : Out Ref}
    (h1 : s.nodes t = some (.decl (some specs) (some ds) off)) (h2 : s.nodes specs = some (.chain [u]))
    (h3 : s.nodes u = some (.ident T)) (h4 : s.nodes ds = some (.chain [dd])) (hT : resolveGlobal T .normal s = some c)
    (hh : Conv E (fun R => R.handleDecl (some dd) (some c)) s o) : Conv E (fun R => R.ev (some t)) s o := by
  refine Conv.evNode h1 ?_
  have hall : Conv E (fun R => (do
      let ty ← R.ev (some u)
      let ks ← chainElems (some specs)
      if ← chainHasKw .typedef ks then eachDecl (fun d => R.mapTypedef d ty) (some ds)
      else if ← chainHasKw .extern ks then eachDecl (handleExternDecl E R ty) (some ds)
      else if ← chainHasKw .static ks then handleStaticDecl R ty t (some ds)
      else eachDecl (fun d => R.handleDecl d ty) (some ds) : M Ref)) s o := by
    refine Conv.bind (ident_conv h3 hT) (Conv.of_eq hh fun R => ?_)
    simp [chainElems_apply h2, chainHasKw, node_apply h3, eachDecl, peek_apply h4, forEachLast]
    cases R.handleDecl (some dd) (some c) s <;> rfl
  refine Conv.of_eq hall fun R => ?_
  have e0 : resolveSpecs (some specs) s = .ok (some u) s := by
    simp [resolveSpecs, chainElems_apply h2, resolveSpecsLoop, node_apply h3]
  show evalDecl E R t (some specs) (some ds) s = _
  simp [evalDecl, e0, peek_apply h3]

/-- C121: `T x;` declares an object of the type, as `struct S x;` does. -/
theorem C121_variable (E : Env) (s : St) (t e c : TId) (isS : Bool) (T x : String) (L : List Item) (w : WF s)
    (ht : NamedVar s t e false T x) (hT : resolveGlobal T .normal s = some c) (hL : Laid s c L isS) (hx : Fresh s x)
    (hoff : ∀ o ∈ (layoutPure isS 0 0 (L.map Item.m)).1, o < 2 ^ 63)
    (hcap : Cap s ((L.map fun i => mcost i.m).sum + Laid.bytes L isS + 48)) :
    ∃ v bs s', Conv E (fun R => R.ev (some t)) s (.ok (some e) s') ∧ resolveGlobal x .normal s' = some v ∧
      CompAt s' v c L isS s.mem.brk bs := by
  obtain ⟨specs, u, ds, dd, off, h1, h2, h3, h4, h5, h6⟩ := ht.trees
  simp only [Bool.false_eq_true, if_false] at h5
  subst h5
  obtain ⟨v, bs, s', hc, g, m⟩ := declComp_conv (E := E) w hL h6 hx.resolve hoff hcap
  exact ⟨v, bs, bindSt s' ⟨x, dd, some v⟩, namedVar_conv h1 h2 h3 h4 hT hc, resolveGlobal_bind (hx.grow g) (g.ctxs_ne hcap.ctxs), m.bind _⟩

/-- C121: `T *p;` declares a pointer to the type, complete or not. -/
theorem C121_pointer (E : Env) (s : St) (t e c : TId) (T p : String) (w : WF s) (ht : NamedVar s t e true T p)
    (hT : resolveGlobal T .normal s = some c) (hx : Fresh s p) (hroom : Room s 1) :
    ∃ v s', Conv E (fun R => R.ev (some t)) s (.ok (some e) s') ∧ resolveGlobal p .normal s' = some v ∧ PtrVar s' v c := by
  obtain ⟨specs, u, ds, dd, off, h1, h2, h3, h4, h5, h6⟩ := ht.trees
  simp only [if_true] at h5
  have x1 := addNode_ext w (.ctype .ptr (some c))
  have w1 := x1.wf w
  have self1 := addNode_self s (.ctype .ptr (some c))
  have r1 := hroom.ext x1
  have c1 : Conv E (fun R => R.resolvePtr (some dd) (some c)) s (.ok (some e, some s.next) (addNode s (.ctype .ptr (some c)))) := by
    have c2 : Conv E (fun R => R.resolvePtr (some e) (some s.next)) (addNode s (.ctype .ptr (some c)))
        (.ok (some e, some s.next) (addNode s (.ctype .ptr (some c)))) :=
      Conv.resolvePtr (Conv.fixed fun R => by simp [resolvePtrStep, peek_apply (x1.nodes _ _ h6)])
    refine Conv.resolvePtr (Conv.of_eq c2 fun R => ?_)
    simp [resolvePtrStep, peek_apply h5, mk_apply]
  generalize addNode s (.ctype .ptr (some c)) = s1 at x1 w1 self1 c1 r1
  have hx1 : Fresh s1 p := hx.grow x1.grow
  have hid := handleDecl_ident_conv (E := E) w1 (x1.nodes _ _ h6) self1 r1 hx1.resolve
  have hh := handleDecl_ptr_conv c1 ⟨_, x1.nodes _ _ h6, by intros; simp⟩ hid
  have g := newVar_grow w1 (some s.next)
  exact ⟨s1.next, bindSt (newVar s1 (some s.next)) ⟨p, e, some s1.next⟩, namedVar_conv h1 h2 h3 h4 hT hh,
    resolveGlobal_bind (hx1.grow g) (g.ctxs_ne r1.ctxs), ⟨s.next, s1.mem.brk, false, 0, newVar_self _ _, g.nodes _ _ self1⟩⟩

/-! ## Examples -/

/-- `typedef struct S T;`, `struct S { int a; };`, `T x;`, `T *p;`, `typedef struct R { int a; } U;` -/
def nodes121 : List Node :=
  [.ident "S", .compound (some 0) none 0 false true, .kw .typedef, .chain [2, 1], .ident "T", .chain [4], .decl (some 3) (some 5) 0,
   .kw .int, .chain [7], .ident "a", .chain [9], .decl (some 8) (some 10) 0, .chain [11],
   .compound (some 0) (some 12) 0 false true, .chain [13], .decl (some 14) none 0,
   .chain [4], .ident "x", .chain [17], .decl (some 16) (some 18) 0, .ident "p", .pointer (some 20), .chain [21], .decl (some 16) (some 22) 0,
   .ident "R", .compound (some 24) (some 12) 0 false true, .chain [2, 25], .ident "U", .chain [27], .decl (some 26) (some 28) 0]

def st121 : St := stOf nodes121 [] []

def items121 : List Item := [⟨0, 8, 9, .int, "a", .val .int⟩]

/-- C121 in full is false: when `typedef struct S T;` is the first mention of `S`, `T` becomes a name of the identifier `S`, and
stays so. -/
theorem C121_refuted : ¬ C121_statement := by
  intro h
  have hr : resolveGlobal "S" (compNS true) st121 = none := by decide +kernel
  have := h E0 nodes121 st121 (evTo 40 6 st121) (evTo 40 15 (evTo 40 6 st121)) 6 15 4 true "S" "T"
    items121 (some 4) none (by decide +kernel) .start (by intro f hf; rw [hr] at hf; cases hf)
    ⟨3, 2, 1, 0, 5, 0, 0, false, rfl, rfl, rfl, rfl, rfl, rfl, rfl⟩
    (evTo_conv _ _ _ _ (by decide +kernel) (by decide +kernel))
    ⟨⟨14, 13, 12, 0, [11], 0, 0, by decide +kernel, by decide +kernel, by decide +kernel, by decide +kernel, by decide +kernel,
      @Decls.cons _ 11 8 10 0 [9] [] items121 [] (by decide +kernel) (by decide +kernel) rfl
        (by intro i hi; simp only [items121, List.mem_singleton] at hi; subst hi; exact ⟨rfl, .ident "a", by decide +kernel, by simp⟩)
        .nil⟩,
      by
        intro i hi
        simp only [items121, List.mem_singleton] at hi
        subst hi
        exact .inl ⟨⟨[7], [.int], by decide +kernel, .cons (by decide +kernel) .nil, by decide, by decide⟩, .ident (by decide +kernel)⟩⟩
    (evTo_conv _ _ _ _ (by decide +kernel) (by decide +kernel))
  revert this
  decide +kernel

theorem st121_fresh (x : String) : Fresh st121 x := by
  intro c cs hc b hb
  have : c = ctx1 [] := by simp [st121, stOf] at hc; exact hc.1.symm
  subst this; simp [ctx1] at hb

theorem st121_tagFresh (x : String) : FreshTag st121 true x := by
  intro c cs hc b hb
  have : c = ctx1 [] := by simp [st121, stOf] at hc; exact hc.1.symm
  subst this; simp [ctx1, compNS, Ctx.map] at hb

example := C121_defined E0 st121 29 27 25 true (some (24, "R")) "U" items121 (stOf_WF _ _ _)
  ⟨⟨26, 2, 12, 28, [11], 0, 0, rfl, rfl, rfl, rfl, rfl, rfl, rfl,
      @Decls.cons _ 11 8 10 0 [9] [] items121 [] rfl rfl rfl
        (by intro i hi; simp only [items121, List.mem_singleton] at hi; subst hi; exact ⟨rfl, .ident "a", rfl, by simp⟩)
        .nil⟩,
    by rintro i nm h; cases h; exact ⟨rfl, st121_tagFresh _⟩,
    by
      intro i hi
      simp only [items121, List.mem_singleton] at hi
      subst hi
      exact .inl ⟨⟨[7], [.int], rfl, .cons rfl .nil, by decide, by decide⟩, .ident rfl⟩⟩
  (st121_fresh _) ⟨by decide +kernel, by simp [st121, stOf], memOf_livelt _⟩

/-- the same after `struct S;` -/
def st121f : St := { stOf (nodes121 ++ [.incomp]) [] [] with ctxs := [{ ctx1 [] with structs := [⟨"S", 0, some 30⟩] }] }

theorem st121f_WF : WF st121f := stOf_WF (nodes121 ++ [Node.incomp]) [] []

theorem st121f_fresh (x : String) : Fresh st121f x := by
  intro c cs hc b hb
  simp only [st121f, List.cons.injEq] at hc
  obtain ⟨rfl, _⟩ := hc
  simp [ctx1] at hb

example := C121_known E0 st121f 6 4 30 true "S" "T" ⟨3, 2, 1, 0, 5, 0, 0, false, rfl, rfl, rfl, rfl, rfl, rfl, rfl⟩
  (by decide +kernel) (by simp [st121f]) (st121f_fresh _)

example := C121_partial E0 st121f 6 15 4 30 true "S" "T" items121 st121f_WF ⟨3, 2, 1, 0, 5, 0, 0, false, rfl, rfl, rfl, rfl, rfl, rfl, rfl⟩
  ⟨⟨14, 13, 12, 0, [11], 0, 0, rfl, rfl, rfl, rfl, rfl,
      @Decls.cons _ 11 8 10 0 [9] [] items121 [] rfl rfl rfl
        (by intro i hi; simp only [items121, List.mem_singleton] at hi; subst hi; exact ⟨rfl, .ident "a", rfl, by simp⟩)
        .nil⟩, by
    intro i hi
    simp only [items121, List.mem_singleton] at hi
    subst hi
    exact .inl ⟨⟨[7], [.int], rfl, .cons rfl .nil, by decide, by decide⟩, .ident rfl⟩⟩
  (by decide +kernel) rfl (st121f_fresh _) ⟨by decide +kernel, by simp [st121f], memOf_livelt _⟩

/-- `T` names the type of `S`, laid out; `T x;`, `T *p;` -/
def nodes121v : List Node :=
  (nodes121.set 11 (.decl (some 8) (some 9) 0)).set 13 (.compound (some 0) (some 12) 4 true true)

def st121v : St := stOf nodes121v [⟨"T", 4, some 13⟩] []

theorem st121v_fresh (x : String) (h : x ≠ "T") : Fresh st121v x := by
  intro c cs hc b hb
  have : c = ctx1 [⟨"T", 4, some 13⟩] := by simp [st121v, stOf] at hc; exact hc.1.symm
  subst this
  simp [ctx1] at hb
  subst hb; exact fun h' => h h'.symm

example := C121_variable E0 st121v 19 17 13 true "T" "x" [⟨11, 8, 9, .int, "a", .val .int⟩] (stOf_WF _ _ _)
  ⟨16, 4, 18, 17, 0, rfl, rfl, rfl, rfl, rfl, rfl⟩ (by decide +kernel)
  { tree := ⟨some 0, 12, by decide +kernel, by decide +kernel⟩
    items := by
      intro i hi
      simp only [List.mem_singleton] at hi
      subst hi
      exact .inl ⟨⟨[7], [.int], rfl, .cons rfl .nil, by decide, by decide⟩, .ident rfl⟩
    offs := .cons rfl .nil }
  (st121v_fresh _ (by decide)) (by decide +kernel) ⟨by decide +kernel, by simp [st121v, stOf], memOf_livelt _⟩

example := C121_pointer E0 st121v 23 20 13 "T" "p" (stOf_WF _ _ _)
  ⟨16, 4, 22, 21, 0, rfl, rfl, rfl, rfl, rfl, rfl⟩ (by decide +kernel) (st121v_fresh _ (by decide))
  (Cap.room (n := 48) ⟨by decide +kernel, by simp [st121v, stOf], memOf_livelt _⟩ (by decide))

end Bic
