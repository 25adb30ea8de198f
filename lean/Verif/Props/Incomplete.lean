import Verif.Proofs.Pointers
import Verif.Proofs.Witness
/-!
# C93: variables of incomplete types
-/

namespace Bic

/-- no scope declares the tag -/
def UnknownTag (s : St) (isS : Bool) (tag : String) : Prop :=
  (∀ c ∈ s.ctxs, ∀ b ∈ c.map (compNS isS), b.name ≠ tag) ∧ ∀ c, s.includeCtx = some c → ∀ b ∈ c.map (compNS isS), b.name ≠ tag

/-- no scope declares the tag, or the innermost one that does has not defined its members -/
def IncompleteTag (s : St) (isS : Bool) (tag : String) : Prop :=
  UnknownTag s isS tag ∨ ∃ f, resolveGlobal tag (compNS isS) s = some f ∧ s.nodes f = some .incomp

/-- `t` is the tree of `struct tag x;` or `union tag x;`; `id` is the object of the tag -/
def TagVar (nd : TId → Option Node) (t id : TId) (isS : Bool) (tag x : String) : Prop :=
  ∃ specs ds off cd sz ex d, nd t = some (.decl (some specs) (some ds) off) ∧ nd specs = some (.chain [cd]) ∧
    nd cd = some (.compound (some id) none sz ex isS) ∧ nd id = some (.ident tag) ∧ nd ds = some (.chain [d]) ∧ nd d = some (.ident x)

/-- `t` is the tree of `struct tag;` or `union tag;` -/
def TagOnly (nd : TId → Option Node) (t id : TId) (isS : Bool) (tag : String) : Prop :=
  ∃ specs off cd sz ex, nd t = some (.decl (some specs) none off) ∧ nd specs = some (.chain [cd]) ∧
    nd cd = some (.compound (some id) none sz ex isS) ∧ nd id = some (.ident tag)

/-- C93: declaring a variable of a structure or union whose members are not known is an error. -/
def C93_statement : Prop :=
  ∀ (E : Env) (s : St) (t id : TId) (isS : Bool) (tag x : String), WF s → Room s 1 → TagVar s.nodes t id isS tag x →
    IncompleteTag s isS tag → resolveCurrent x .normal s = none → ∃ m s', Conv E (fun R => R.ev (some t)) s (.stop (.die m) s')

theorem findInChain_fresh {x : String} {ns : NS} {cs : List Ctx} (h : ∀ c ∈ cs, ∀ b ∈ c.map ns, b.name ≠ x) : findInChain x ns cs = none := by
  induction cs with
  | nil => rfl
  | cons c cs ih =>
    have h1 : findId x (c.map ns) = none := by
      have := h c List.mem_cons_self
      revert this
      generalize c.map ns = l
      intro h
      induction l with
      | nil => rfl
      | cons b l ih =>
        rw [findId, if_neg (h b List.mem_cons_self)]
        exact ih fun b hb => h b (List.mem_cons_of_mem _ hb)
    rw [findInChain, h1]
    exact ih fun c hc => h c (List.mem_cons_of_mem _ hc)

theorem UnknownTag.resolve {s : St} {isS : Bool} {tag : String} (h : UnknownTag s isS tag) : resolveGlobal tag (compNS isS) s = none := by
  unfold resolveGlobal
  rw [findInChain_fresh h.1]
  cases hc : s.includeCtx with
  | none => rfl
  | some c =>
    have := findInChain_fresh (x := tag) (ns := compNS isS) (cs := [c]) (fun c' hc' => by
      rw [List.mem_singleton] at hc'; subst hc'; exact h.2 _ hc)
    simp only [findInChain] at this
    show findId tag _ = none
    cases hl : findId tag (c.map (compNS isS)) with
    | none => rfl
    | some y => rw [hl] at this; cases this

/-- the declaration after its type has been evaluated -/
theorem tagVar_conv {E : Env} {s s' : St} {t id specs ds cd d τ : TId} {off sz ex} {isS : Bool} {o : Out Ref}
    (h1 : s.nodes t = some (.decl (some specs) (some ds) off)) (h2 : s.nodes specs = some (.chain [cd]))
    (h3 : s.nodes cd = some (.compound (some id) none sz ex isS)) (h5 : s.nodes ds = some (.chain [d]))
    (hk : ∀ t n, s.nodes t = some n → s'.nodes t = some n) (hc : Conv E (fun R => R.ev (some cd)) s (.ok (some τ) s'))
    (hd : Conv E (fun R => R.handleDecl (some d) (some τ)) s' o) : Conv E (fun R => R.ev (some t)) s o := by
  refine Conv.evNode h1 (Conv.of_eq (Conv.bind (g := fun R ty => do
    let ks ← chainElems (some specs)
    if ← chainHasKw .typedef ks then eachDecl (fun d => R.mapTypedef d ty) (some ds)
    else if ← chainHasKw .extern ks then eachDecl (handleExternDecl E R ty) (some ds)
    else if ← chainHasKw .static ks then handleStaticDecl R ty t (some ds)
    else eachDecl (fun d => R.handleDecl d ty) (some ds)) hc (Conv.of_eq hd fun R => ?_)) fun R => ?_)
  · have e : ∀ k, chainHasKw k [cd] s' = .ok false s' := fun k => by simp [chainHasKw, node_apply (hk _ _ h3)]
    simp [chainElems_apply (hk _ _ h2), e, eachDecl, peek_apply (hk _ _ h5), forEachLast]
    cases R.handleDecl (some d) (some τ) s' <;> rfl
  · show evalDecl E R t (some specs) (some ds) s = _
    simp [evalDecl, resolveSpecs, chainElems_apply h2, resolveSpecsLoop, node_apply h3, peek_apply h3]

/-- C93 for tags that have been declared. -/
theorem C93_declared_partial {E : Env} {s : St} {t id f : TId} {isS : Bool} {tag x : String} (h : TagVar s.nodes t id isS tag x)
    (hf : resolveGlobal tag (compNS isS) s = some f) (hi : s.nodes f = some .incomp) :
    ∃ m, Conv E (fun R => R.ev (some t)) s (.stop (.die m) s) := by
  obtain ⟨specs, ds, off, cd, sz, ex, d, h1, h2, h3, h4, h5, h6⟩ := h
  refine ⟨"Can not create incomplete type", tagVar_conv h1 h2 h3 h5 (fun _ _ h => h) (τ := f) (s' := s) ?_ ?_⟩
  · refine Conv.evNode h3 (Conv.fixed fun R => ?_)
    show evalDeclCompound R cd (some id) none isS s = _
    simp [evalDeclCompound, idStr, nodeR, node_apply h4, get, hf]
  · refine Conv.handleDecl (Conv.bind (a := (some d, some f)) (s' := s) (Conv.resolvePtr (Conv.fixed fun R => ?_)) (Conv.fixed fun R => ?_))
    · simp [resolvePtrStep, peek_apply h6]
    · simp [node_apply hi, handleDeclSwitch, nodeR, node_apply h6, makeAndMapLiveVar, peek_apply hi, die, stop]

/-- add a tag to the current scope -/
def bindTag (isS : Bool) (b : Binding) : List Ctx → List Ctx
  | [] => []
  | c :: cs => (if isS then { c with structs := c.structs ++ [b] } else { c with unions := c.unions ++ [b] }) :: cs

/-- the state after `struct tag;` or `union tag;` -/
def fwdSt (s : St) (isS : Bool) (tag : String) (id : TId) : St :=
  { addNode s .incomp with ctxs := bindTag isS ⟨tag, id, some s.next⟩ s.ctxs }

theorem fwdSt_nodes {s : St} (w : WF s) (isS tag id) (t : TId) (n : Node) (h : s.nodes t = some n) : (fwdSt s isS tag id).nodes t = some n :=
  (addNode_ext w .incomp).nodes _ _ h

theorem fwdSt_resolve {s : St} {isS : Bool} {tag : String} (id : TId) (hu : UnknownTag s isS tag) (hc : s.ctxs ≠ []) :
    resolveGlobal tag (compNS isS) (fwdSt s isS tag id) = some s.next := by
  cases h : s.ctxs with
  | nil => exact absurd h hc
  | cons c cs =>
    have hl : ∀ l : List Binding, (∀ b ∈ l, b.name ≠ tag) → findId tag (l ++ [⟨tag, id, some s.next⟩]) = some s.next := by
      intro l hl
      induction l with
      | nil => simp [findId]
      | cons b l ih =>
        rw [List.cons_append, findId, if_neg (hl b List.mem_cons_self)]
        exact ih fun b hb => hl b (List.mem_cons_of_mem _ hb)
    have h1 := hu.1 c (by rw [h]; exact List.mem_cons_self)
    have e := hl _ h1
    cases isS <;> (simp only [compNS, Ctx.map, Bool.false_eq_true, if_false, if_true] at e; simp [resolveGlobal, fwdSt, h, bindTag, findInChain, compNS, Ctx.map, e])

theorem forward_apply {s : St} {cd id : TId} {isS : Bool} {tag : String} {sz ex} (w : WF s) (hu : UnknownTag s isS tag) (hc : s.ctxs ≠ [])
    (h3 : s.nodes cd = some (.compound (some id) none sz ex isS)) (h4 : s.nodes id = some (.ident tag)) :
    handleForwardDecl (some cd) s = .ok (some id) (fwdSt s isS tag id) := by
  have h4' : (addNode s .incomp).nodes id = some (.ident tag) := (addNode_ext w .incomp).nodes _ _ h4
  cases h : s.ctxs with
  | nil => exact absurd h hc
  | cons c cs =>
    have h' : (addNode s .incomp).ctxs = c :: cs := h
    have e := hu.resolve
    cases isS <;> simp only [compNS, Bool.false_eq_true, if_false, if_true] at e <;> simp [handleForwardDecl, nodeR, node_apply h3, idStr, node_apply h4, get, e, mk_apply, mapIn, node_apply h4', modCur,
      compNS, h', fwdSt, bindTag, h]

/-- C93 for a tag that is declared first: after `struct tag;` the declaration of a variable is an error. -/
theorem C93_forward_partial {E : Env} {s : St} {t0 id0 t id : TId} {isS : Bool} {tag x : String} (w : WF s) (hc : s.ctxs ≠ [])
    (hu : UnknownTag s isS tag) (h0 : TagOnly s.nodes t0 id0 isS tag) (h : TagVar s.nodes t id isS tag x) :
    ∃ s', Conv E (fun R => R.ev (some t0)) s (.ok (some id0) s') ∧ ∃ m, Conv E (fun R => R.ev (some t)) s' (.stop (.die m) s') := by
  refine ⟨fwdSt s isS tag id0, ?_, ?_⟩
  · obtain ⟨specs, off, cd, sz, ex, h1, h2, h3, h4⟩ := h0
    refine Conv.evNode h1 (Conv.fixed fun R => ?_)
    show evalDecl E R t0 (some specs) none s = _
    simp [evalDecl, resolveSpecs, chainElems_apply h2, resolveSpecsLoop, node_apply h3, peek_apply h3, forward_apply w hu hc h3 h4]
  · refine C93_declared_partial (f := s.next) (id := id) (x := x) ?_ (fwdSt_resolve id0 hu hc) (addNode_self s _)
    obtain ⟨specs, ds, off, cd, sz, ex, d, h1, h2, h3, h4, h5, h6⟩ := h
    have k := fwdSt_nodes w isS tag id0
    exact ⟨specs, ds, off, cd, sz, ex, d, k _ _ h1, k _ _ h2, k _ _ h3, k _ _ h4, k _ _ h5, k _ _ h6⟩

/-- How far the failure goes: with a tag that is nowhere declared, the declaration is always accepted; the
variable gets the tag, an identifier, as its type. -/
theorem C93_unknown_accepted {E : Env} {s : St} {t id : TId} {isS : Bool} {tag x : String} (w : WF s) (hr : Room s 1)
    (hu : UnknownTag s isS tag) (h : TagVar s.nodes t id isS tag x) (hx : resolveCurrent x .normal s = none) :
    ∃ r s' v a d c cs, Conv E (fun R => R.ev (some t)) s (.ok r s') ∧ s'.ctxs = c :: cs ∧ (⟨x, d, some v⟩ : Binding) ∈ c.ids ∧
      s'.nodes v = some (.lv (some id) a false 0) ∧ s'.nodes id = some (.ident tag) := by
  obtain ⟨specs, ds, off, cd, sz, ex, d, h1, h2, h3, h4, h5, h6⟩ := h
  have k := fwdSt_nodes w isS tag id
  have hc := hr.ctxs
  have w1 : WF (fwdSt s isS tag id) := (addNode_ext w .incomp).wf w
  have hr1 : Room (fwdSt s isS tag id) 1 := by
    obtain ⟨r1, r2, r3⟩ := hr
    refine ⟨r1, ?_, r3⟩
    show bindTag _ _ s.ctxs ≠ []
    cases h : s.ctxs with
    | nil => exact absurd h hc
    | cons => simp [bindTag]
  have hx1 : resolveCurrent x .normal (fwdSt s isS tag id) = none := by
    cases h : s.ctxs with
    | nil => exact absurd h hc
    | cons c cs =>
      cases isS <;> simpa [resolveCurrent, fwdSt, bindTag, h, Ctx.map] using hx
  have g := newVar_grow w1 (some id)
  have hx2 : resolveCurrent x .normal (newVar (fwdSt s isS tag id) (some id)) = none := by
    rw [resolveCurrent_newVar]; exact hx1
  have hc2 := g.ctxs_ne hr1.ctxs
  have hev : Conv E (fun R => R.ev (some t)) s (.ok (some d) (bindSt (newVar (fwdSt s isS tag id) (some id)) ⟨x, d, some (fwdSt s isS tag id).next⟩)) := by
    refine tagVar_conv h1 h2 h3 h5 k (τ := id) (s' := fwdSt s isS tag id) ?_ ?_
    · refine Conv.evNode h3 (Conv.fixed fun R => ?_)
      show evalDeclCompound R cd (some id) none isS s = _
      simp [evalDeclCompound, idStr, nodeR, node_apply h4, get, hu.resolve, forward_apply w hu hc h3 h4]
    · have h6' := k _ _ h6
      have h4' := k _ _ h4
      refine Conv.handleDecl (Conv.bind (a := (some d, some id)) (s' := fwdSt s isS tag id) (Conv.resolvePtr (Conv.fixed fun R => ?_)) (Conv.fixed fun R => ?_))
      · simp [resolvePtrStep, peek_apply h6']
      · simp [node_apply h4', handleDeclSwitch, nodeR, node_apply h6', makeAndMapLiveVar, peek_apply h4', makeLiveVar_apply _ hr1,
          mapIdentifier_apply (g.nodes _ _ h6') hc2 hx2]
  cases hcs : (newVar (fwdSt s isS tag id) (some id)).ctxs with
  | nil => exact absurd hcs hc2
  | cons c cs =>
    refine ⟨_, _, (fwdSt s isS tag id).next, (fwdSt s isS tag id).mem.brk, d, { c with ids := c.ids ++ [⟨x, d, some (fwdSt s isS tag id).next⟩] }, cs, hev, ?_, by simp, ?_, g.nodes _ _ (k _ _ h4)⟩
    · simp [bindSt, bindCur, hcs]
    · exact addNode_self _ _

/-- `struct s;` and `struct s x;` -/
def st93 : St :=
  stOf [.ident "s", .compound (some 0) none 0 false true, .chain [1], .decl (some 2) none 0, .ident "x", .chain [4], .decl (some 2) (some 5) 0] [] []

theorem unknown93 : UnknownTag st93 true "s" := by
  constructor
  · intro c hc b hb
    have h : ∀ c ∈ st93.ctxs, c.structs.isEmpty = true := by decide +kernel
    have e := List.isEmpty_iff.mp (h c hc)
    change b ∈ c.structs at hb
    rw [e] at hb
    cases hb
  · intro c hc
    cases hc

theorem var93 : TagVar st93.nodes 6 0 true "s" "x" := ⟨2, 5, 0, 1, 0, false, 4, rfl, rfl, rfl, rfl, rfl, rfl⟩

example : ∃ s', Conv E0 (fun R => R.ev (some 3)) st93 (.ok (some 0) s') ∧ ∃ m, Conv E0 (fun R => R.ev (some 6)) s' (.stop (.die m) s') :=
  C93_forward_partial (stOf_WF _ _ _) (by simp [st93, stOf]) unknown93 ⟨2, 0, 1, 0, false, rfl, rfl, rfl, rfl⟩ var93

theorem room93 : Room st93 1 := ⟨by decide +kernel, by simp [st93, stOf], memOf_livelt _⟩

/-- C93 is false: `struct s x;` is accepted where nothing has declared `struct s`. -/
theorem C93_refuted : ¬ C93_statement := by
  intro h
  obtain ⟨m, s', h1⟩ := h E0 st93 6 0 true "s" "x" (stOf_WF _ _ _) room93 var93 (.inl unknown93) (by decide +kernel)
  obtain ⟨r, s'', _, _, _, _, _, h2, _⟩ := C93_unknown_accepted (E := E0) (stOf_WF _ _ _) room93 unknown93 var93 (by decide +kernel)
  exact absurd (h1.unique h2) nofun

end Bic
