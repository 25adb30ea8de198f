import Verif.Props.TypedefStruct
import Verif.Props.Pointers
/-!
# C126 and C127: arrays of arrays, and names for array types
-/

namespace Bic
open Spec

/-! ## C126: arrays of arrays -/

/-- the declarator below an array declarator: another array (`a[m][n]`) or a pointer (`(*p)[n]`) -/
def Below (n : Node) : Prop := (∃ d z, n = .array d z) ∨ ∃ d, n = .pointer d

/-- `t` is `C D[z];`, where `C` is a type of keywords and the declarator `D` is itself an array or a pointer declarator -/
structure NestedArr (s : St) (t : TId) (c : CT) (z : Ref) : Prop where
  trees : ∃ specs ds d i n off, s.nodes t = some (.decl (some specs) (some ds) off) ∧ TypeSpecs s.nodes specs c ∧
    s.nodes ds = some (.chain [d]) ∧ s.nodes d = some (.array (some i) z) ∧ s.nodes i = some n ∧ Below n

theorem Below.keep {E : Env} {b : Bool} {s s' : St} {i : TId} {n : Node} (e : Evol E b s s') (h : s.nodes i = some n) (hn : Below n) :
    s'.nodes i = some n := by
  obtain ⟨n', h1, h2⟩ := e.nodes _ _ h
  rcases h2 with rfl | ⟨_, h2⟩
  · exact h1
  · rcases hn with ⟨_, _, rfl⟩ | ⟨_, rfl⟩ <;> exact absurd rfl h2

/-- no array is made whose declarator is not a name -/
theorem declareArray_never {E : Env} {R : Rec} (hR : RPres E R) {s : St} (hi : Inv s) {i : TId} {n : Node} (hn : s.nodes i = some n)
    (hb : Below n) (z τ r : Ref) (s' : St) : declareArray R (some i) z τ s ≠ .ok r s' := by
  intro h
  have e := pres_getArraySize hR z τ s hi
  simp only [declareArray, allocArray, bind_apply] at h
  cases hg : getArraySize R z τ s with
  | fuel => simp [hg] at h
  | stop m s1 => simp [hg] at h
  | ok k s1 =>
    rw [hg] at e
    have h1 := hb.keep e hn
    simp only [hg, mallocM] at h
    cases hm : s1.mem.malloc k with
    | none => simp [hm] at h
    | some am =>
      obtain ⟨a, m⟩ := am
      have hne : i ≠ s1.next := fun he => Nat.lt_irrefl _ (he ▸ e.inv.wf.lt h1)
      have h2 : (addNode { s1 with mem := m } (.ctype .ptr none)).nodes i = some n := by
        simp [addNode, hne, h1]
      rcases hb with ⟨_, _, rfl⟩ | ⟨_, rfl⟩ <;>
        simp [hm, instantiateArray, mk_apply, peek_apply h2, die, stop] at h

/-- C126 in full: `C a[m][n];`, with constants `m` and `n` that are not 0, declares an array. -/
def C126_statement : Prop :=
  ∀ (E : Env) (s : St) (t specs ds d i id z z' : TId) (off : Nat) (c : CT) (m n : Nat) (x : String), Inv s →
    s.nodes t = some (.decl (some specs) (some ds) off) → TypeSpecs s.nodes specs c → s.nodes ds = some (.chain [d]) →
    s.nodes d = some (.array (some i) (some z)) → s.nodes i = some (.array (some id) (some z')) → s.nodes id = some (.ident x) →
    s.nodes z = some (.integer n) → s.nodes z' = some (.integer m) → 0 < m → 0 < n → Fresh s x → Room s 4 →
    s.mem.brk + 256 + c.size * m * n < Mem.limit → ∃ r s', Conv E (fun R => R.ev (some t)) s (.ok r s')

/-- a declaration with one declarator that cannot be handled has no effect -/
theorem oneDecl_never {E : Env} {s : St} {t specs ds d : TId} {off : Nat} {c : CT} (hi : Inv s)
    (ht : s.nodes t = some (.decl (some specs) (some ds) off)) (hs : TypeSpecs s.nodes specs c) (hd : s.nodes ds = some (.chain [d]))
    (h : ∀ n r s', (run E n).handleDecl (some d) (some s.next) (addNode s (.ctype c none)) ≠ .ok r s') (n : Nat) (r : Ref) (s' : St) :
    (run E n).ev (some t) s ≠ .ok r s' := by
  intro hr
  cases n with
  | zero => cases hr
  | succ n =>
    have x := addNode_ext hi.wf (.ctype c none)
    have hs' := hs
    obtain ⟨l, ks, h1, h2, h3, h4⟩ := hs
    have hk : ∀ kw ∈ [Kw.typedef, .extern, .static],
        chainHasKw kw l (addNode s (.ctype c none)) = .ok false (addNode s (.ctype c none)) := by
      intro kw hkw
      refine chainHasKw_apply (h2.mono x.nodes) kw fun hm => ?_
      have := h3 kw hm
      simp only [List.mem_cons, List.not_mem_nil, or_false] at hkw
      rcases hkw with rfl | rfl | rfl <;> cases this
    have e1 : (run E (n + 1)).ev (some t) s = evalDecl E (run E n) t (some specs) (some ds) s := by
      show evStep E (run E n) (some t) s = _
      simp only [evStep, bind_apply, node_apply ht]
      rfl
    rw [e1] at hr
    simp [evalDecl, resolveSpecs_apply hs', peek_apply (addNode_self s _), chainElems_apply (x.nodes _ _ h1), hk, eachDecl,
      peek_apply (x.nodes _ _ hd), forEachLast] at hr
    cases hh : (run E n).handleDecl (some d) (some s.next) (addNode s (.ctype c none)) with
    | ok r1 s1 => exact h _ _ _ hh
    | stop m s1 => simp [hh] at hr
    | fuel => simp [hh] at hr

/-- C126: no declaration `C a[m][n];` (or `C (*p)[n];`) has any effect, whatever the type, the sizes and the state: bic always ends with an
error (or does not end). -/
theorem C126_never (E : Env) (s : St) (t : TId) (c : CT) (z : Ref) (hi : Inv s) (h : NestedArr s t c z) (n : Nat) (r : Ref) (s' : St) :
    (run E n).ev (some t) s ≠ .ok r s' := by
  obtain ⟨specs, ds, d, i, nd, off, h1, h2, h3, h4, h5, h6⟩ := h.trees
  refine oneDecl_never hi h1 h2 h3 (fun n r s' hr => ?_) n r s'
  have e := Evol.addNode (E := E) hi (n := .ctype c none) (by simp)
  have x := addNode_ext hi.wf (.ctype c none)
  cases n with
  | zero => cases hr
  | succ n =>
    have hr : handleDeclStep (run E n) (some d) (some s.next) (addNode s (.ctype c none)) = .ok r s' := hr
    have hp : (run E n).resolvePtr (some d) (some s.next) (addNode s (.ctype c none)) = .fuel ∨
        (run E n).resolvePtr (some d) (some s.next) (addNode s (.ctype c none)) =
          .ok (some d, some s.next) (addNode s (.ctype c none)) := by
      cases n with
      | zero => exact .inl rfl
      | succ n =>
        right
        show resolvePtrStep (run E n) _ _ _ = _
        simp [resolvePtrStep, peek_apply (x.nodes _ _ h4)]
    rcases hp with hp | hp
    · simp [handleDeclStep, hp] at hr
    · simp only [handleDeclStep, bind_apply, hp, node_apply (addNode_self s (.ctype c none)), handleDeclSwitch, nodeR,
        node_apply (x.nodes _ _ h4)] at hr
      exact declareArray_never (run_pres E n) e.inv (x.nodes _ _ h5) h6 _ _ _ _ hr

/-- `t` is `T x[z];` -/
structure NamedArr (s : St) (t : TId) (T : String) (z : Ref) : Prop where
  trees : ∃ specs u ds d i off, s.nodes t = some (.decl (some specs) (some ds) off) ∧ s.nodes specs = some (.chain [u]) ∧
    s.nodes u = some (.ident T) ∧ s.nodes ds = some (.chain [d]) ∧ s.nodes d = some (.array i z)

/-- C126: neither has `T x[m];` when `T` is the name of an array type. -/
theorem C126_named (E : Env) (s : St) (t a : TId) (T : String) (z base sz : Ref) (hi : Inv s) (h : NamedArr s t T z)
    (hT : resolveGlobal T .normal s = some a) (ha : s.nodes a = some (.arrayType base sz)) (n : Nat) (r : Ref) (s' : St) :
    (run E n).ev (some t) s ≠ .ok r s' := by
  obtain ⟨specs, u, ds, d, i, off, h1, h2, h3, h4, h5⟩ := h.trees
  intro hr
  cases n with
  | zero => cases hr
  | succ n =>
    have e1 : (run E (n + 1)).ev (some t) s = evalDecl E (run E n) t (some specs) (some ds) s := by
      show evStep E (run E n) (some t) s = _
      simp only [evStep, bind_apply, node_apply h1]
      rfl
    have e0 : resolveSpecs (some specs) s = .ok (some u) s := by
      simp [resolveSpecs, chainElems_apply h2, resolveSpecsLoop, node_apply h3]
    cases n with
    | zero =>
      rw [e1] at hr
      simp [evalDecl, e0, peek_apply h3, run, bottom, outOfFuel] at hr
    | succ n =>
      have e2 : (run E (n + 1)).ev (some u) s = .ok (some a) s := by
        show evStep E (run E n) (some u) s = _
        simp only [evStep, bind_apply, node_apply h3]
        show evalIdentifier u s = _
        simp [evalIdentifier, resolveIdG, idStr, nodeR, node_apply h3, hT, Bic.get]
      rw [e1] at hr
      simp [evalDecl, e0, peek_apply h3, e2, chainElems_apply h2, chainHasKw, node_apply h3, eachDecl, peek_apply h4, forEachLast] at hr
      have e3 : (run E (n + 1)).handleDecl (some d) (some a) s = handleDeclStep (run E n) (some d) (some a) s := rfl
      have hp : (run E n).resolvePtr (some d) (some a) s = .fuel ∨ (run E n).resolvePtr (some d) (some a) s = .ok (some d, some a) s := by
        cases n with
        | zero => exact .inl rfl
        | succ n =>
          right
          show resolvePtrStep (run E n) _ _ _ = _
          simp [resolvePtrStep, peek_apply h5]
      rcases hp with hp | hp
      · simp [e3, handleDeclStep, hp] at hr
      · cases hh : declareArray (run E n) (some d) sz base s with
        | ok r1 s1 => exact declareArray_never (run_pres E n) hi h5 (.inl ⟨_, _, rfl⟩) _ _ _ _ hh
        | stop m s1 => simp [e3, handleDeclStep, hp, node_apply ha, hh] at hr
        | fuel => simp [e3, handleDeclStep, hp, node_apply ha, hh] at hr

/-- `t` is `typedef C D[z];`, where `C` is a type of keywords and `i` is the declarator `D` -/
structure ArrTypedef (s : St) (t i : TId) (c : CT) (z : Ref) : Prop where
  trees : ∃ specs k l ks ds d off, s.nodes t = some (.decl (some specs) (some ds) off) ∧ s.nodes specs = some (.chain (k :: l)) ∧
    s.nodes k = some (.kw .typedef) ∧ KwChain s.nodes l ks ∧ resolveKws 0 ks = some (.c c) ∧
    s.nodes ds = some (.chain [d]) ∧ s.nodes d = some (.array (some i) z)

theorem arrTypedef_conv {E : Env} {s : St} {t i : TId} {c : CT} {z : Ref} (w : WF s) (h : ArrTypedef s t i c z) {o : Out Ref}
    (hm : ∀ d s1, s1 = addNode s (.ctype c none) → s1.nodes d = some (.array (some i) z) →
      Conv E (fun R => R.mapTypedef (some d) (some s.next)) s1 o) : Conv E (fun R => R.ev (some t)) s o := by
  obtain ⟨specs, k, l, ks, ds, d, off, h1, h2, h3, h4, h5, h6, h7⟩ := h.trees
  have x := addNode_ext w (.ctype c none)
  refine Conv.evNode h1 (Conv.of_eq (hm d _ rfl (x.nodes _ _ h7)) fun R => ?_)
  have e0 : resolveSpecs (some specs) s = .ok (some s.next) (addNode s (.ctype c none)) := by
    have := resolveSpecsLoop_kw h4 0
    rw [h5] at this
    simp [resolveSpecs, chainElems_apply h2, resolveSpecsLoop, node_apply h3, ignoredSpec, this]
  show evalDecl E R t (some specs) (some ds) s = _
  simp [evalDecl, e0, peek_apply (addNode_self s _), chainElems_apply (x.nodes _ _ h2), chainHasKw, node_apply (x.nodes _ _ h3), eachDecl,
    peek_apply (x.nodes _ _ h6), forEachLast]
  cases R.mapTypedef (some d) (some s.next) (addNode s (.ctype c none)) <;> rfl

/-- C126: and `typedef C T[m][n];` always ends bic with an error. -/
theorem C126_typedef (E : Env) (s : St) (t i : TId) (c : CT) (z : Ref) (nd : Node) (w : WF s) (h : ArrTypedef s t i c z)
    (hi : s.nodes i = some nd) (hb : Below nd) :
    ∃ s', Conv E (fun R => R.ev (some t)) s (.stop (.die "Attempted to map type to non-identifier") s') ∧ s'.mem = s.mem ∧ s'.ctxs = s.ctxs := by
  refine ⟨addNode (addNode s (.ctype c none)) (.arrayType (some s.next) z), arrTypedef_conv w h fun d s1 hs hd => ?_, rfl, rfl⟩
  subst hs
  have x := addNode_ext w (.ctype c none)
  have x2 := addNode_ext (x.wf w) (.arrayType (some s.next) z)
  have hi2 := x2.nodes _ _ (x.nodes _ _ hi)
  refine Conv.mapTypedef ?_
  unfold mapTypedefStep
  refine Conv.bind (a := (some d, some s.next)) (s' := addNode s (.ctype c none)) (Conv.resolvePtr ?_) (Conv.fixed fun R => ?_)
  · exact Conv.fixed fun R => by simp [resolvePtrStep, peek_apply hd]
  · rcases hb with ⟨_, _, rfl⟩ | ⟨_, rfl⟩ <;> simp [peek_apply hd, mk_apply, peek_apply hi2, die, stop]

/-- `int a[2][3];` -/
def stNested : St :=
  stOf [.kw .int, .chain [0], .integer 2, .integer 3, .ident "a", .array (some 4) (some 2), .array (some 5) (some 3), .chain [6],
        .decl (some 1) (some 7) 0] [] []

theorem stNested_fresh (x : String) : Fresh stNested x := by
  intro c cs hc b hb
  have : c = ctx1 [] := by simp [stNested, stOf] at hc; exact hc.1.symm
  subst this; simp [ctx1] at hb

theorem C126_refuted : ¬ C126_statement := by
  intro h
  obtain ⟨r, s', n, hc⟩ := h E0 stNested 8 1 7 6 5 4 3 2 0 .int 2 3 "a" (stOf_Inv _ _ _) rfl
    ⟨_, _, rfl, .cons rfl .nil, by decide, by decide +kernel⟩ rfl rfl rfl rfl rfl rfl (by decide) (by decide)
    (stNested_fresh _) ⟨by decide +kernel, by simp [stNested, stOf], memOf_livelt _⟩ (by decide +kernel)
  exact C126_never E0 stNested 8 .int (some 3) (stOf_Inv _ _ _)
    ⟨_, _, _, _, _, _, rfl, ⟨_, _, rfl, .cons rfl .nil, by decide, by decide +kernel⟩, rfl, rfl, rfl, .inl ⟨_, _, rfl⟩⟩ n r s' (hc n (Nat.le_refl _))

/-! ## C127: names for array types -/

/-- `T` is the name of the type "array of `c`" whose size is the expression `z` -/
def NamesArr (s : St) (T : String) (c : CT) (z : Ref) : Prop :=
  ∃ a τ e, resolveGlobal T .normal s = some a ∧ s.nodes a = some (.arrayType (some τ) z) ∧ s.nodes τ = some (.ctype c e)

/-- C127: `typedef C T[e];` makes `T` a name of the type, and neither evaluates `e` nor allocates memory. -/
theorem C127_typedef (E : Env) (s : St) (t i : TId) (c : CT) (z : Ref) (T : String) (w : WF s) (h : ArrTypedef s t i c z)
    (hi : s.nodes i = some (.ident T)) (hx : Fresh s T) (hc : s.ctxs ≠ []) :
    ∃ s', Conv E (fun R => R.ev (some t)) s (.ok (some i) s') ∧ NamesArr s' T c z ∧
      (∀ y, y ≠ T → resolveGlobal y .normal s' = resolveGlobal y .normal s) ∧ s'.mem = s.mem ∧
      ∀ y n, s.nodes y = some n → s'.nodes y = some n := by
  have x := addNode_ext w (.ctype c none)
  have x2 := addNode_ext (x.wf w) (.arrayType (some s.next) z)
  have x12 := x.trans x2
  have hf : Fresh (addNode (addNode s (.ctype c none)) (.arrayType (some s.next) z)) T := hx.grow x12.grow
  refine ⟨bindSt (addNode (addNode s (.ctype c none)) (.arrayType (some s.next) z)) ⟨T, i, some (s.next + 1)⟩,
    arrTypedef_conv w h fun d s1 hs hd => ?_, ⟨s.next + 1, s.next, none, resolveGlobal_bind hf hc,
      addNode_self (addNode s (.ctype c none)) (.arrayType (some s.next) z), x2.nodes _ _ (addNode_self s (.ctype c none))⟩, ?_, rfl, x12.nodes⟩
  · subst hs
    have hi2 := x2.nodes _ _ (x.nodes _ _ hi)
    refine Conv.mapTypedef ?_
    unfold mapTypedefStep
    refine Conv.bind (a := (some d, some s.next)) (s' := addNode s (.ctype c none)) (Conv.resolvePtr ?_) (Conv.fixed fun R => ?_)
    · exact Conv.fixed fun R => by simp [resolvePtrStep, peek_apply hd]
    · simp [peek_apply hd, mk_apply, peek_apply hi2, mapIdentifier_apply hi2 (s := addNode (addNode s (.ctype c none)) (.arrayType (some s.next) z)) hc hf.resolve]
      rfl
  · intro y hy
    rw [resolveGlobal_other hy]
    rfl

/-- C127: `T x;`, when `T` names the type "array of `c`" with the size `e`, and `e` has the value `n ≥ 0` now, declares an array of `n`
elements, as `C x[e];` does: its storage is accessible and was not in use before. -/
theorem C127_variable (E : Env) (s : St) (t id z : TId) (T x : String) (c : CT) (e : Expr) (n : Nat) (w : WF s)
    (ht : NamedVar s t id false T x) (hT : NamesArr s T c (some z)) (hx : Fresh s x) (he : ERep s.nodes z e)
    (hv : Val okOp okTruth (VarIs s) e n) (hroom : Room s 2) (hcap : s.mem.brk + 128 + c.size * n < Mem.limit) :
    ∃ s' y bt m, Conv E (fun R => R.ev (some t)) s (.ok (some id) s') ∧
      resolveGlobal x .normal s' = some y ∧ (∃ ex, s'.nodes bt = some (.ctype c ex)) ∧
      ArrayAt s' y (some bt) (c.size * n) m ∧ s'.mem.ok (c.size * n) m = true ∧
      (∀ b, m ≤ b → b < m + c.size * n → s.mem.live b = false) ∧
      (∀ b, s.mem.live b = true → s'.mem.live b = true ∧ s'.mem.byte b = s.mem.byte b) := by
  obtain ⟨specs, u, ds, dd, off, h1, h2, h3, h4, h5, h6⟩ := ht.trees
  obtain rfl : dd = id := h5
  obtain ⟨a, τ, ex, ha, hn, hτ⟩ := hT
  obtain ⟨y, s', s'', k1, g, rfl, m, k2, k3, k4, _⟩ := declareArray_conv (E := E) (v := (n : Int)) (sz := some z) w h6 hτ hx.resolve
    (fun s0 g r0 => by
      obtain ⟨y, s1, h1, h2, h3⟩ := eval_expr (E := E) (g.wf w)
        (hv.mono (fun _ _ _ _ h => h) (fun _ _ h => h) (fun y v hy => VarIs.grow hy g)) (he.mono g.nodes)
      exact ⟨y, s1, h1, h2, h3⟩) (by omega) hroom (by simpa using hcap)
  simp only [Int.toNat_natCast] at k2 k3
  refine ⟨bindSt s' ⟨x, dd, some y⟩, y, τ, m, namedVar_conv h1 h2 h3 h4 ha ?_, resolveGlobal_bind (hx.grow g) (g.ctxs_ne hroom.ctxs), ⟨ex, g.nodes _ _ hτ⟩, ?_, k3,
    ?_, fun b hb => ⟨g.live b hb, g.byte b hb⟩⟩
  · refine Conv.handleDecl ?_
    unfold handleDeclStep
    refine Conv.bind (a := (some dd, some a)) (s' := s) (Conv.resolvePtr ?_) ?_
    · exact Conv.fixed fun R => by simp [resolvePtrStep, peek_apply h6]
    refine Conv.of_eq k1 fun R => ?_
    simp only [bind_apply, node_apply hn]
  · obtain ⟨τ, a, p1, p2, p3, p4⟩ := k2.lv
    exact ⟨τ, a, p1, p2, p3, p4⟩
  · intro b hb1 hb2
    exact hroom.fresh (n := b + 1) b (by omega) (by omega)

/-- C127: and `sizeof (T)` is the size of all `n` elements, for the value `n` that the size has now. -/
theorem C127_sizeof (E : Env) (s : St) (t u specs v z : TId) (T : String) (c : CT) (e : Expr) (n : Nat) (w : WF s)
    (ht : s.nodes t = some (.sizeof (some u))) (hu : s.nodes u = some (.typeSpec (some specs) none))
    (hs : s.nodes specs = some (.chain [v])) (hid : s.nodes v = some (.ident T)) (hT : NamesArr s T c (some z)) (he : ERep s.nodes z e)
    (hv : Val okOp okTruth (VarIs s) e n) (hroom : Room s 2) (hn : c.size * n < 2 ^ 64) :
    ∃ r s', Conv E (fun R => R.ev (some t)) s (.ok (some r) s') ∧ IsSize s s' r (c.size * n) := by
  obtain ⟨a, τ, ex, ha, hna, hτ⟩ := hT
  have hev : Conv E (fun R => R.ev (some u)) s (.ok (some a) s) := by
    refine Conv.evNode hu ?_
    show Conv E (fun R => evalTypeSpec R (some specs) none) s _
    have hp : Conv E (fun R => R.resolvePtr none (some a)) s (.ok (none, some a) s) :=
      Conv.resolvePtr (Conv.fixed fun R => by simp [resolvePtrStep, peek_none])
    have h2 : Conv E (fun R => (do let ty ← R.ev (some v); let p ← R.resolvePtr none ty; pure p.2 : M Ref)) s (.ok (some a) s) :=
      Conv.bind (ident_conv hid ha) (Conv.bind hp (Conv.pure (some a)))
    refine h2.of_eq (g := fun R => evalTypeSpec R (some specs) none) fun R => ?_
    have e0 : resolveSpecs (some specs) s = .ok (some v) s := by
      simp [resolveSpecs, chainElems_apply hs, resolveSpecsLoop, node_apply hid]
    simp [evalTypeSpec, e0, isIdentOrCompound, peek_apply hid]
  -- the result, before its value is known
  have x1 := addNode_ext w (.ctype .ulong none)
  have w1 := x1.wf w
  have r1 := hroom.ext x1
  have g2 := newVar_grow w1 (some s.next)
  have g12 := x1.grow.trans g2
  have w2 := g12.wf w
  have hself : (newVar (addNode s (.ctype .ulong none)) (some s.next)).nodes (s.next + 1) = _ := newVar_self (addNode s (.ctype .ulong none)) (some s.next)
  have hlv : LvAt (newVar (addNode s (.ctype .ulong none)) (some s.next)) (s.next + 1) s.next .ulong (addNode s (.ctype .ulong none)).mem.brk :=
    newVar_lvAt w1 (addNode_self s (.ctype .ulong none)) (.inl trivial)
  have r2 : Room (newVar (addNode s (.ctype .ulong none)) (some s.next)) 1 := r1.after g2 (Nat.le_refl _)
  -- the size
  obtain ⟨s3, c3, g3, b3⟩ := ctypeSize_conv (E := E) w2 r2 (g12.nodes _ _ hτ)
  have g13 := g12.trans g3
  obtain ⟨y, s4, c4, x4, d4⟩ := eval_expr (E := E) (g13.wf w)
    (hv.mono (fun _ _ _ _ h => h) (fun _ _ h => h) (fun y v hy => VarIs.grow hy g13)) (he.mono g13.nodes)
  obtain ⟨y', s5, e5, x5, n5⟩ := liveToInt_apply (x4.wf (g13.wf w)) d4
  have g := g13.trans (x4.trans x5).grow
  have hl : s5.nodes (s.next + 1) = _ := (g3.trans (x4.trans x5).grow).nodes _ _ hself
  have hok : s5.mem.ok 8 (addNode s (.ctype .ulong none)).mem.brk = true := (g3.trans (x4.trans x5).grow).ok hlv.ok
  have hui : mpzGetUi (n : Int) = n := by
    have h1 := CT.size_pos c
    have h2 : n ≤ c.size * n := Nat.le_mul_of_pos_left _ h1
    unfold mpzGetUi; omega
  refine ⟨s.next + 1, wr s5 8 (addNode s (.ctype .ulong none)).mem.brk (c.size * n), ?_, g.wr _ _ _ ?_, s.next,
    (addNode s (.ctype .ulong none)).mem.brk, ?_, ?_⟩
  · refine Conv.evNode ht (Conv.bind hev ?_)
    have hs : Conv E (fun R => (do
        let k ← getArraySize R (some z) (some τ)
        storeRaw 8 (addNode s (.ctype .ulong none)).mem.brk k
        pure (some (s.next + 1)) : M Ref)) (newVar (addNode s (.ctype .ulong none)) (some s.next))
        (.ok (some (s.next + 1)) (wr s5 8 (addNode s (.ctype .ulong none)).mem.brk (c.size * n))) := by
      refine Conv.bind (a := c.size * n) (s' := s5) ?_ (Conv.fixed fun R => ?_)
      · unfold getArraySize
        refine Conv.bind c3 (Conv.bind c4 (Conv.fixed fun R => ?_))
        simp only [bind_apply, e5, asInteger_apply n5, pure_apply, hui, Nat.mod_eq_of_lt hn]
      · simp [storeRaw_apply hok]
    refine hs.of_eq fun R => ?_
    have e1 : (addNode s (.ctype .ulong none)).next = s.next + 1 := rfl
    simp only [bind_apply, mk_apply, makeLiveVar_apply _ (r1.mono (by omega)), e1, lvFields, node_apply hself, pure_apply,
      peek_apply (g12.nodes _ _ hna)]
  · exact hroom.fresh
  · obtain ⟨p1, p2, p3, p4⟩ := (hlv.grow (g3.trans (x4.trans x5).grow)).wr 8 (addNode s (.ctype .ulong none)).mem.brk (c.size * n)
    exact ⟨p1, p2, p3, p4⟩
  · show ((c.size * n : Nat) : Int) = CT.ulong.decode ((s5.mem.store 8 _ (c.size * n)).load 8 _)
    rw [Mem.load_store, Nat.mod_eq_of_lt (by simpa using hn)]
    simp [CT.decode, CT.isSigned]

/-- C127 in full: after `typedef C T[e];`, whatever is evaluated in between, `T x;` declares an array with as many elements as `e` said
where the typedef was. -/
def C127_statement : Prop :=
  ∀ (E : Env) (s s1 s2 s3 : St) (t u v i z y id : TId) (c : CT) (e : Expr) (n a len : Nat) (arr : Bool) (T x : String) (r r' ty : Ref),
    Inv s → ArrTypedef s t i c (some z) → s.nodes i = some (.ident T) → ERep s.nodes z e → Val okOp okTruth (VarIs s) e n →
    Conv E (fun R => R.ev (some t)) s (.ok r s1) → Conv E (fun R => R.ev (some u)) s1 (.ok r' s2) →
    resolveGlobal T .normal s2 = resolveGlobal T .normal s1 → NamedVar s2 v id false T x →
    Conv E (fun R => R.ev (some v)) s2 (.ok (some id) s3) → resolveGlobal x .normal s3 = some y →
    s3.nodes y = some (.lv ty a arr len) → len = c.size * n

/-- C127, the part of the statement that holds: sizes that are constants. -/
theorem C127_partial (E : Env) (s s1 s2 : St) (t u v i z id : TId) (c : CT) (n : Nat) (T x : String) (r r' : Ref) (hi : Inv s)
    (h : ArrTypedef s t i c (some z)) (hT : s.nodes i = some (.ident T)) (hf : Fresh s T) (hc : s.ctxs ≠ []) (hz : s.nodes z = some (.integer n))
    (h1 : Conv E (fun R => R.ev (some t)) s (.ok r s1)) (h2 : Conv E (fun R => R.ev (some u)) s1 (.ok r' s2))
    (hr : resolveGlobal T .normal s2 = resolveGlobal T .normal s1) (hv : NamedVar s2 v id false T x) (hx : Fresh s2 x)
    (hroom : Room s2 2) (hcap : s2.mem.brk + 128 + c.size * n < Mem.limit) :
    ∃ s3 y bt m, Conv E (fun R => R.ev (some v)) s2 (.ok (some id) s3) ∧ resolveGlobal x .normal s3 = some y ∧
      (∃ ex, s3.nodes bt = some (.ctype c ex)) ∧ ArrayAt s3 y (some bt) (c.size * n) m ∧ s3.mem.ok (c.size * n) m = true ∧
      (∀ b, m ≤ b → b < m + c.size * n → s2.mem.live b = false) ∧
      (∀ b, s2.mem.live b = true → s3.mem.live b = true ∧ s3.mem.byte b = s2.mem.byte b) := by
  obtain ⟨s1', k1, ⟨a, τ, e, k2, k3, k4⟩, _, _, k5⟩ := C127_typedef E s t i c (some z) T hi.wf h hT hf hc
  obtain ⟨rfl, rfl⟩ : some i = r ∧ s1' = s1 := by
    have := Conv.unique k1 h1
    cases this; exact ⟨rfl, rfl⟩
  have e1 := h1.evol hi
  have e2 := h2.evol e1.inv
  have keep : ∀ {y nd}, s1'.nodes y = some nd → mutKey nd = none → s2.nodes y = some nd := by
    intro y nd hy hm
    obtain ⟨n', p1, p2⟩ := e2.nodes _ _ hy
    rcases p2 with rfl | ⟨_, p2⟩
    · exact p1
    · exact absurd hm p2
  exact C127_variable E s2 v id z T x c (.lit n) n e2.inv.wf hv ⟨a, τ, e, hr.trans k2, keep k3 rfl, keep k4 rfl⟩ hx
    (.lit (keep (k5 _ _ hz) rfl)) (.lit _) hroom hcap

/-! ## The cases -/

/-- the variable `n` (which is 2) at 4096 and the trees `typedef int A[n];`, `n = 5;`, `A x;`, `sizeof (A)`, `typedef int B[3];`, `B y;`,
`A z[2];`, `typedef int D[2][3];` -/
def nodes127 : List Node :=
  [.ctype .int none, .lv (some 0) 4096 false 0, .ident "n", .kw .typedef, .kw .int, .chain [3, 4], .ident "A", .array (some 6) (some 2),
   .chain [7], .decl (some 5) (some 8) 0, .integer 5, .assign (some 2) (some 10), .ident "A", .chain [12], .ident "x", .chain [14],
   .decl (some 13) (some 15) 0, .typeSpec (some 13) none, .sizeof (some 17), .ident "B", .integer 3, .array (some 19) (some 20), .chain [21],
   .decl (some 5) (some 22) 0, .chain [19], .ident "y", .chain [25], .decl (some 24) (some 26) 0, .integer 2, .ident "z",
   .array (some 29) (some 28), .chain [30], .decl (some 13) (some 31) 0, .ident "D", .array (some 33) (some 28), .array (some 34) (some 20),
   .chain [35], .decl (some 5) (some 36) 0]

def st127 : St := stOf nodes127 [⟨"n", 2, some 1⟩] [2, 0, 0, 0, 0, 0, 0, 0]

theorem st127_typedef : ArrTypedef st127 9 6 .int (some 2) :=
  ⟨5, 3, [4], [.int], 8, 7, 0, rfl, rfl, rfl, .cons rfl .nil, by decide +kernel, rfl, rfl⟩

theorem st127_const : ArrTypedef st127 23 19 .int (some 20) :=
  ⟨5, 3, [4], [.int], 22, 21, 0, rfl, rfl, rfl, .cons rfl .nil, by decide +kernel, rfl, rfl⟩

theorem st127_fresh (x : String) (h : x ≠ "n") : Fresh st127 x := by
  intro c cs hc b hb
  have : c = ctx1 [⟨"n", 2, some 1⟩] := by simp [st127, stOf] at hc; exact hc.1.symm
  subst this
  simp only [ctx1, List.mem_singleton] at hb
  subst hb; exact Ne.symm h

theorem st127_n : VarIs st127 "n" 2 :=
  ⟨1, by decide +kernel, .inr ⟨.int, ⟨0, 4096, ⟨⟨_, _, rfl⟩, ⟨_, rfl⟩, .inl trivial, by decide +kernel⟩, by decide +kernel⟩, by decide⟩⟩

/-- C127 in full is false: the size is computed anew at every use of the name, so that after `typedef int A[n]; n = 5;`, where `n` was 2, the
declaration `A x;` makes an array of 5 elements. -/
theorem C127_refuted : ¬ C127_statement := by
  intro h
  have := h E0 st127 (evTo 40 9 st127) (evTo 40 11 (evTo 40 9 st127)) (evTo 40 16 (evTo 40 11 (evTo 40 9 st127))) 9 11 16 6 2 45 14
    .int (.var "n") 2 4224 20 true "A" "x" (some 6) (some 10) (some 44) (stOf_Inv _ _ _) st127_typedef rfl (.var rfl) (.var st127_n)
    (evTo_conv _ _ _ _ (by decide +kernel) (by decide +kernel)) (evTo_conv _ _ _ _ (by decide +kernel) (by decide +kernel))
    (by decide +kernel) ⟨13, 12, 15, 14, 0, by decide +kernel, by decide +kernel, by decide +kernel, by decide +kernel, rfl, by decide +kernel⟩
    (evTo_conv _ _ _ _ (by decide +kernel) (by decide +kernel)) (by decide +kernel) (by decide +kernel)
  exact absurd this (by decide)

/-- C127_typedef is not vacuous -/
example : ∃ s', Conv E0 (fun R => R.ev (some 9)) st127 (.ok (some 6) s') ∧ NamesArr s' "A" .int (some 2) := by
  obtain ⟨s', h1, h2, _⟩ := C127_typedef E0 st127 9 6 .int (some 2) "A" (stOf_WF _ _ _) st127_typedef rfl (st127_fresh _ (by decide))
    (by simp [st127, stOf])
  exact ⟨s', h1, h2⟩

/-- `A` names the type "array of `n` ints" -/
def st127a : St := stOf (nodes127 ++ [.arrayType (some 0) (some 2)]) [⟨"n", 2, some 1⟩, ⟨"A", 6, some 38⟩] [2, 0, 0, 0, 0, 0, 0, 0]

theorem st127a_n : VarIs st127a "n" 2 :=
  ⟨1, by decide +kernel, .inr ⟨.int, ⟨0, 4096, ⟨⟨_, _, rfl⟩, ⟨_, rfl⟩, .inl trivial, by decide +kernel⟩, by decide +kernel⟩, by decide⟩⟩

theorem st127a_fresh (x : String) (h : x ≠ "n") (h' : x ≠ "A") : Fresh st127a x := by
  intro c cs hc b hb
  have : c = ctx1 [⟨"n", 2, some 1⟩, ⟨"A", 6, some 38⟩] := by simp [st127a, stOf] at hc; exact hc.1.symm
  subst this
  simp only [ctx1, List.mem_cons, List.not_mem_nil, or_false] at hb
  rcases hb with rfl | rfl
  · exact Ne.symm h
  · exact Ne.symm h'

theorem st127a_room : Room st127a 2 := ⟨by decide +kernel, by simp [st127a, stOf], memOf_livelt _⟩

theorem st127a_names : NamesArr st127a "A" .int (some 2) := ⟨38, 0, none, by decide +kernel, rfl, rfl⟩

/-- C127_variable: `A x;` declares two elements, 8 bytes -/
example : ∃ s' y bt m, Conv E0 (fun R => R.ev (some 16)) st127a (.ok (some 14) s') ∧ resolveGlobal "x" .normal s' = some y ∧
    ArrayAt s' y (some bt) 8 m := by
  obtain ⟨s', y, bt, m, h1, h2, _, h3, _⟩ := C127_variable E0 st127a 16 14 2 "A" "x" .int (.var "n") 2 (stOf_WF _ _ _)
    ⟨13, 12, 15, 14, 0, rfl, rfl, rfl, rfl, rfl, rfl⟩ st127a_names (st127a_fresh _ (by decide) (by decide)) (.var rfl) (.var st127a_n)
    st127a_room (by decide +kernel)
  exact ⟨s', y, bt, m, h1, h2, h3⟩

/-- C127_sizeof: `sizeof (A)` is 8 -/
example : ∃ r s', Conv E0 (fun R => R.ev (some 18)) st127a (.ok (some r) s') ∧ IsSize st127a s' r 8 :=
  C127_sizeof E0 st127a 18 17 13 12 2 "A" .int (.var "n") 2 (stOf_WF _ _ _) rfl rfl rfl rfl st127a_names (.var rfl) (.var st127a_n)
    st127a_room (by decide)

theorem fresh_of_check {s : St} {x : String} (h : (s.ctxs.head?.all fun c => c.ids.all fun b => b.name != x) = true) : Fresh s x := by
  intro c cs hc b hb
  rw [hc] at h
  simp only [List.head?_cons, Option.all_some, List.all_eq_true] at h
  simpa using h b hb

/-- C127_partial: `typedef int B[3]; 5; B y;` -/
example : ∃ s1 s3 y bt m, Conv E0 (fun R => R.ev (some 23)) st127 (.ok (some 19) s1) ∧
    Conv E0 (fun R => R.ev (some 27)) s1 (.ok (some 25) s3) ∧ resolveGlobal "y" .normal s3 = some y ∧ ArrayAt s3 y (some bt) 12 m := by
  have c1 : Conv E0 (fun R => R.ev (some 23)) st127 (.ok (some 19) (evTo 40 23 st127)) :=
    evTo_conv _ _ _ _ (by decide +kernel) (by decide +kernel)
  obtain ⟨s', k1, _, _, km, kn⟩ := C127_typedef E0 st127 23 19 .int (some 20) "B" (stOf_WF _ _ _) st127_const rfl (st127_fresh _ (by decide))
    (by simp [st127, stOf])
  have he : s' = evTo 40 23 st127 := evTo_unique 40 (by decide +kernel) k1
  subst he
  obtain ⟨s3, y, bt, m, h1, h2, _, h3, _⟩ := C127_partial E0 st127 (evTo 40 23 st127) (evTo 40 23 st127) 23 10 27 19 20 25
    .int 3 "B" "y" (some 19) (some 10) (stOf_Inv _ _ _) st127_const rfl (st127_fresh _ (by decide)) (by simp [st127, stOf]) rfl c1
    (Conv.evNode (kn 10 _ rfl) (Conv.pure _)) rfl
    ⟨24, 19, 26, 25, 0, by decide +kernel, by decide +kernel, by decide +kernel, by decide +kernel, rfl, by decide +kernel⟩
    (fresh_of_check (by decide +kernel)) ⟨by decide +kernel, fun hc => absurd (congrArg List.isEmpty hc) (by decide +kernel),
      by rw [km]; exact memOf_livelt _⟩ (by decide +kernel)
  exact ⟨_, s3, y, bt, m, c1, h1, h2, h3⟩

/-- C126_named: `A z[2];` -/
example (n : Nat) (r : Ref) (s' : St) : (run E0 n).ev (some 32) st127a ≠ .ok r s' :=
  C126_named E0 st127a 32 38 "A" (some 28) (some 0) (some 2) (stOf_Inv _ _ _) ⟨13, 12, 31, 30, _, 0, rfl, rfl, rfl, rfl, rfl⟩
    (by decide +kernel) rfl n r s'

/-- C126_typedef: `typedef int D[2][3];` -/
example : ∃ s', Conv E0 (fun R => R.ev (some 37)) st127 (.stop (.die "Attempted to map type to non-identifier") s') := by
  obtain ⟨s', h, _⟩ := C126_typedef E0 st127 37 34 .int (some 20) _ (stOf_WF _ _ _)
    ⟨5, 3, [4], [.int], 36, 35, 0, rfl, rfl, rfl, .cons rfl .nil, by decide +kernel, rfl, rfl⟩ rfl (.inl ⟨_, _, rfl⟩)
  exact ⟨s', h⟩

end Bic
