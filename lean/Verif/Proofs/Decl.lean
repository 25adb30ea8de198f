import Verif.Proofs.Alloc
/-!
# Declarations of variables
-/

namespace Bic
open Spec

/-- the same outcome from another computation in another state -/
theorem Conv.of_eq {E : Env} {s s' : St} {f g : Rec → M α} {o : Out α} (h : Conv E f s o)
    (e : ∀ R, g R s' = f R s) : Conv E g s' o := by
  obtain ⟨N, hN⟩ := h
  exact ⟨N, fun n hn => by rw [e]; exact hN n hn⟩

/-- an outcome that does not depend on the recursive calls -/
theorem Conv.fixed {E : Env} {s : St} {f : Rec → M α} {o : Out α} (h : ∀ R, f R s = o) : Conv E f s o :=
  ⟨0, fun _ _ => h _⟩

/-- the trees of a list of specifier keywords -/
inductive KwChain (nd : TId → Option Node) : List TId → List Kw → Prop
  | nil : KwChain nd [] []
  | cons {t ts k ks} : nd t = some (.kw k) → KwChain nd ts ks → KwChain nd (t :: ts) (k :: ks)

theorem KwChain.mono {nd nd' : TId → Option Node} (h : ∀ t n, nd t = some n → nd' t = some n) {l ks}
    (hk : KwChain nd l ks) : KwChain nd' l ks := by
  induction hk with
  | nil => exact .nil
  | cons h1 _ ih => exact .cons (h _ _ h1) ih

/-- `specs` is a list of type specifiers (no storage class) for the type `k` -/
def TypeSpecs (nd : TId → Option Node) (specs : TId) (k : CT) : Prop :=
  ∃ l ks, nd specs = some (.chain l) ∧ KwChain nd l ks ∧ (∀ k ∈ ks, ignoredSpec k = false) ∧
    resolveKws 0 ks = some (.c k)

theorem TypeSpecs.mono {nd nd' : TId → Option Node} (h : ∀ t n, nd t = some n → nd' t = some n) {t k}
    (hk : TypeSpecs nd t k) : TypeSpecs nd' t k := by
  obtain ⟨l, ks, h1, h2, h3⟩ := hk
  exact ⟨l, ks, h _ _ h1, h2.mono h, h3⟩

theorem resolveSpecsLoop_kw {s : St} {l ks} (h : KwChain s.nodes l ks) (bs : Nat) :
    resolveSpecsLoop bs l s = match resolveKws bs ks with
      | some (.c c) => .ok (some s.next) (addNode s (.ctype c none))
      | some .void => .ok (some s.next) (addNode s .void)
      | none => resolveSpecsLoop bs l s := by
  induction h generalizing bs with
  | nil =>
    simp only [resolveSpecsLoop, resolveKws]
    cases switchBits clangTable clangKeys bs with
    | none => rfl
    | some r => cases r <;> rfl
  | @cons t ts k ks h1 h2 ih =>
    have e : resolveSpecsLoop bs (t :: ts) s = (if ignoredSpec k then resolveSpecsLoop bs ts
        else match addSpec clangTable clangKeys bs k with
        | some bs' => resolveSpecsLoop bs' ts
        | none => die "bad specifier") s := by
      simp only [resolveSpecsLoop, bind_apply, node_apply h1]
      split <;> rfl
    simp only [resolveKws]
    rw [e]
    split
    · exact ih bs
    · cases addSpec clangTable clangKeys bs k with
      | none => rfl
      | some bs' => exact ih bs'

theorem chainElems_apply {s : St} {t : TId} {l} (h : s.nodes t = some (.chain l)) :
    chainElems (some t) s = .ok l s := by
  simp [chainElems, peek_apply h]

theorem resolveSpecs_apply {s : St} {specs : TId} {k : CT} (h : TypeSpecs s.nodes specs k) :
    resolveSpecs (some specs) s = .ok (some s.next) (addNode s (.ctype k none)) := by
  obtain ⟨l, ks, h1, h2, _, h4⟩ := h
  have := resolveSpecsLoop_kw h2 0
  rw [h4] at this
  simp [resolveSpecs, chainElems_apply h1, this]

theorem chainHasKw_apply {s : St} {l ks} (h : KwChain s.nodes l ks) (k : Kw) (hk : k ∉ ks) :
    chainHasKw k l s = .ok false s := by
  induction h with
  | nil => rfl
  | cons h1 _ ih =>
    simp only [List.mem_cons, not_or] at hk
    simp [chainHasKw, node_apply h1, Ne.symm hk.1, ih hk.2]

/-- evaluating a declaration comes down to its declarators -/
theorem evalDecl_conv {E : Env} {s : St} {t specs decls : TId} {off : Nat} {k : CT} {o : Out Ref} (w : WF s)
    (ht : s.nodes t = some (.decl (some specs) (some decls) off)) (hs : TypeSpecs s.nodes specs k)
    (h : Conv E (fun R => eachDecl (fun d => R.handleDecl d (some s.next)) (some decls))
      (addNode s (.ctype k none)) o) :
    Conv E (fun R => R.ev (some t)) s o := by
  refine Conv.evNode ht ?_
  have x := addNode_ext w (.ctype k none)
  have hs' := hs
  obtain ⟨l, ks, h1, h2, h3, h4⟩ := hs
  have hk : ∀ kw ∈ [Kw.typedef, .extern, .static],
      chainHasKw kw l (addNode s (.ctype k none)) = .ok false (addNode s (.ctype k none)) := by
    intro kw hkw
    refine chainHasKw_apply (h2.mono x.nodes) kw fun hm => ?_
    have := h3 kw hm
    simp only [List.mem_cons, List.not_mem_nil, or_false] at hkw
    rcases hkw with rfl | rfl | rfl <;> cases this
  refine h.of_eq fun R => ?_
  show evalDecl E R t (some specs) (some decls) s = _
  simp [evalDecl, resolveSpecs_apply hs', peek_apply (addNode_self s _), chainElems_apply (x.nodes _ _ h1), hk]

/-- add a declaration to the current scope -/
def bindCur (b : Binding) : List Ctx → List Ctx
  | [] => []
  | c :: cs => { c with ids := c.ids ++ [b] } :: cs

/-- the state after declaring `x` as a variable of type `τ` -/
def declSt (s : St) (τ d : TId) (x : String) : St :=
  { newVar s (some τ) with ctxs := bindCur ⟨x, d, some s.next⟩ (newVar s (some τ)).ctxs }

theorem resolveCurrent_newVar (s : St) (ty x ns) :
    resolveCurrent x ns (newVar s ty) = resolveCurrent x ns s := by
  unfold resolveCurrent newVar
  cases s.ctxs with
  | nil => rfl
  | cons c cs => cases ns <;> rfl

theorem handleDecl_ident_conv {E : Env} {s : St} {d τ : TId} {x : String} {k : CT} {e : Ref} (w : WF s)
    (hd : s.nodes d = some (.ident x)) (hτ : s.nodes τ = some (.ctype k e)) (hroom : Room s 1)
    (hx : resolveCurrent x .normal s = none) :
    Conv E (fun R => R.handleDecl (some d) (some τ)) s (.ok (some d) (declSt s τ d x)) := by
  refine Conv.handleDecl ?_
  unfold handleDeclStep
  refine Conv.bind (a := (some d, some τ)) (s' := s) (Conv.resolvePtr ?_) (Conv.fixed fun R => ?_)
  · exact Conv.fixed fun R => by simp [resolvePtrStep, peek_apply hd]
  · have hd' := (newVar_grow w (some τ)).nodes _ _ hd
    have hx' : resolveCurrent x .normal (newVar s (some τ)) = none := by
      rw [resolveCurrent_newVar]; exact hx
    cases hc : (newVar s (some τ)).ctxs with
    | nil => exact absurd hc ((newVar_grow w (some τ)).ctxs_ne hroom.ctxs)
    | cons c cs =>
      simp [node_apply hτ, handleDeclSwitch, nodeR, node_apply hd, makeAndMapLiveVar, peek_apply hτ,
        makeLiveVar_apply _ hroom, mapIdentifier, resolveIdC, idStr, node_apply hd', get, hx', mapIn, modCur, hc,
        declSt, bindCur]

theorem setNode_same {s : St} {t : TId} {n : Node} (h : s.nodes t = some n) : setNode t n s = .ok () s := by
  have : (fun x => if x = t then some n else s.nodes x) = s.nodes := by
    funext x; split
    · rename_i hx; rw [hx, h]
    · rfl
  simp [setNode, modify, this]

/-- a declarator with an initialiser: the variable is declared, then assigned to -/
theorem handleDecl_assign_conv {E : Env} {s s' : St} {t d τ : TId} {r q : Ref} {x : String} {k : CT} {e : Ref} (w : WF s)
    (ht : s.nodes t = some (.assign (some d) r)) (hd : s.nodes d = some (.ident x))
    (hτ : s.nodes τ = some (.ctype k e)) (hroom : Room s 1) (hx : resolveCurrent x .normal s = none)
    (h : Conv E (fun R => R.ev (some t)) (declSt s τ d x) (.ok q s')) :
    Conv E (fun R => R.handleDecl (some t) (some τ)) s (.ok (some d) s') := by
  refine Conv.handleDecl ?_
  unfold handleDeclStep
  refine Conv.bind (a := (some t, some τ)) (s' := s) (Conv.resolvePtr ?_) ?_
  · exact Conv.fixed fun R => by simp [resolvePtrStep, peek_apply ht]
  · have ht' : (declSt s τ d x).nodes t = some (.assign (some d) r) := (newVar_grow w (some τ)).nodes _ _ ht
    have h1 := handleDecl_ident_conv (E := E) w hd hτ hroom hx
    have h2 : Conv E (fun R => do
        let l' ← R.handleDecl (some d) (some τ)
        (do match ← node t with
            | .assign _ r' => setNode t (.assign l' r')
            | _ => setNode t (.assign l' r)
            let _ ← R.ev (some t)
            pure l' : M Ref)) s (.ok (some d) s') := by
      refine Conv.bind h1 ?_
      have h3 : Conv E (fun R => (do let _ ← R.ev (some t); pure (some d) : M Ref)) (declSt s τ d x) (.ok (some d) s') :=
        Conv.bind h (Conv.pure _)
      refine h3.congr fun R => ?_
      simp [node_apply ht', setNode_same ht']
    refine h2.congr fun R => ?_
    simp only [bind_apply, node_apply hτ, handleDeclSwitch, nodeR, node_apply ht]
    rfl

end Bic
