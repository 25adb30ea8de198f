import Verif.Proofs.Source
import Verif.Proofs.Procs
import Verif.Proofs.Structs
/-!
# Scripts with procedures
-/

namespace Bic
open Spec

/-! ## The definition of a procedure -/

/-- the syntax tree of the definition of the procedure `f` -/
def DefRep (nd : TId → Option Node) (u : TId) (f : String) (q : Proc) : Prop :=
  ∃ specs l ks v off c t fd args b, nd u = some (.decl (some specs) (some c) off) ∧ nd specs = some (.chain l) ∧ KwChain nd l ks ∧
    (∀ k ∈ ks, ignoredSpec k = false) ∧ resolveKws 0 ks = some v ∧ nd c = some (.chain [t]) ∧
    nd t = some (.fn (some fd) args none (some b)) ∧ nd fd = some (.ident f) ∧ FnArgs nd args q.params ∧
    SRep nd (.body (some b)) q.body

/-- the node of a type -/
def tyNode : SpecTy → Node
  | .c c => .ctype c none
  | .void => .void

theorem resolveSpecs_kws {s : St} {specs : TId} {l ks v} (h1 : s.nodes specs = some (.chain l)) (h2 : KwChain s.nodes l ks)
    (h4 : resolveKws 0 ks = some v) : resolveSpecs (some specs) s = .ok (some s.next) (addNode s (tyNode v)) := by
  have := resolveSpecsLoop_kw h2 0
  rw [h4] at this
  cases v <;> simpa [resolveSpecs, chainElems_apply h1, tyNode] using this

/-- the state after the definition of a procedure -/
def defSt (s : St) (v : SpecTy) (f : String) (fd : TId) (args : Ref) (b : Ref) : St :=
  bindSt (addNode (addNode s (tyNode v)) (.fn (some fd) args (some s.next) b)) ⟨f, fd, some (s.next + 1)⟩

theorem resolveIdC_apply {s : St} {fd : TId} {f : String} {r : Ref} (h : s.nodes fd = some (.ident f)) (hx : resolveCurrent f .normal s = r) :
    resolveIdC (some fd) s = .ok r s := by
  simp [resolveIdC, idStr, nodeR, node_apply h, get, hx]

/-- a declaration with one function declarator -/
theorem fnDecl_eval {E : Env} {s s' : St} {specs l ks v off c t n r u} (w : WF s)
    (g1 : s.nodes u = some (.decl (some specs) (some c) off)) (g2 : s.nodes specs = some (.chain l)) (g3 : KwChain s.nodes l ks)
    (g4 : ∀ k ∈ ks, ignoredSpec k = false) (g5 : resolveKws 0 ks = some v) (g6 : s.nodes c = some (.chain [t]))
    (g7 : s.nodes t = some n) (hn : ∃ fd args ret b, n = .fn fd args ret b)
    (hsw : ∀ R, handleDeclSwitch R (some t) (some s.next) (addNode s (tyNode v)) = .ok r s') :
    Conv E (fun R => R.ev (some u)) s (.ok r s') := by
  refine Conv.evNode g1 ?_
  have x := addNode_ext w (tyNode v)
  have hk : ∀ kw ∈ [Kw.typedef, .extern, .static],
      chainHasKw kw l (addNode s (tyNode v)) = .ok false (addNode s (tyNode v)) := by
    intro kw hkw
    refine chainHasKw_apply (g3.mono x.nodes) kw fun hm => ?_
    have := g4 kw hm
    simp only [List.mem_cons, List.not_mem_nil, or_false] at hkw
    rcases hkw with rfl | rfl | rfl <;> cases this
  have hself := addNode_self s (tyNode v)
  have hd : Conv E (fun R => R.handleDecl (some t) (some s.next)) (addNode s (tyNode v)) (.ok r s') := by
    refine Conv.handleDecl ?_
    unfold handleDeclStep
    have ht := x.nodes _ _ g7
    obtain ⟨fd, args, ret, b, rfl⟩ := hn
    refine Conv.bind (a := (some t, some s.next)) (s' := addNode s (tyNode v)) (Conv.resolvePtr ?_) (Conv.fixed fun R => ?_)
    · exact Conv.fixed fun R => by simp [resolvePtrStep, peek_apply ht]
    · have hn : ∀ {α} (g : Node → M α), (node s.next >>= g) (addNode s (tyNode v)) = g (tyNode v) (addNode s (tyNode v)) := by
        intro α g; simp [node_apply hself]
      show (node s.next >>= _) _ = _
      rw [hn, ← hsw R]
      cases v <;> rfl
  have he : Conv E (fun R => eachDecl (fun d => R.handleDecl d (some s.next)) (some c)) (addNode s (tyNode v)) (.ok r s') := by
    refine Conv.of_eq (s := addNode s (tyNode v)) (f := fun R => forEachLast (fun t => R.handleDecl (some t) (some s.next)) none [t]) ?_ fun R => ?_
    · exact Conv.bind hd (Conv.pure _)
    · simp [eachDecl, peek_apply (x.nodes _ _ g6)]
  refine he.of_eq fun R => ?_
  show evalDecl E R u (some specs) (some c) s = _
  have e1 := resolveSpecs_kws g2 g3 g5
  have e2 := chainElems_apply (x.nodes _ _ g2)
  have e3 := peek_apply hself
  clear he hd x hself hsw
  cases v <;> simp only [tyNode] at hk e1 e2 e3 ⊢ <;> simp [evalDecl, e1, e2, e3, hk]

theorem def_eval {E : Env} {s : St} {specs l ks v off c t fd args f u} {b : Ref} (w : WF s) (hc : s.ctxs ≠ [])
    (hx : resolveCurrent f .normal s = none)
    (g1 : s.nodes u = some (.decl (some specs) (some c) off)) (g2 : s.nodes specs = some (.chain l)) (g3 : KwChain s.nodes l ks)
    (g4 : ∀ k ∈ ks, ignoredSpec k = false) (g5 : resolveKws 0 ks = some v) (g6 : s.nodes c = some (.chain [t]))
    (g7 : s.nodes t = some (.fn (some fd) args none b)) (g8 : s.nodes fd = some (.ident f)) :
    Conv E (fun R => R.ev (some u)) s (.ok (some t) (defSt s v f fd args b)) := by
  refine fnDecl_eval w g1 g2 g3 g4 g5 g6 g7 ⟨_, _, _, _, rfl⟩ fun R => ?_
  have x := addNode_ext w (tyNode v)
  have x2 := addNode_ext (x.wf w) (.fn (some fd) args (some s.next) b)
  have ht := x.nodes _ _ g7
  have hm : mapIdentifier (some fd) (some (s.next + 1)) (addNode (addNode s (tyNode v)) (.fn (some fd) args (some s.next) b)) =
      .ok () (defSt s v f fd args b) :=
    mapIdentifier_apply (x2.nodes _ _ (x.nodes _ _ g8)) hc hx
  have hm' : mapIdentifier (some fd) (some (addNode s (tyNode v)).next)
      (addNode (addNode s (tyNode v)) (.fn (some fd) args (some s.next) b)) = .ok () (defSt s v f fd args b) := hm
  cases b with
  | some b => simp only [handleDeclSwitch, nodeR, bind_apply, node_apply ht, peek_apply (x.nodes _ _ g8), mk_apply, hm', pure_apply]
  | none =>
    have hr : resolveIdC (some fd) (addNode (addNode s (tyNode v)) (.fn (some fd) args (some s.next) none)) =
        .ok none (addNode (addNode s (tyNode v)) (.fn (some fd) args (some s.next) none)) :=
      resolveIdC_apply (x2.nodes _ _ (x.nodes _ _ g8)) hx
    simp only [handleDeclSwitch, nodeR, bind_apply, node_apply ht, peek_apply (x.nodes _ _ g8), mk_apply, hr, hm', pure_apply]

/-- a function that has been declared is declared again -/
theorem again_eval {E : Env} {s : St} {specs l ks v off c t fd args f u p} (w : WF s) (hx : resolveCurrent f .normal s = some p)
    (g1 : s.nodes u = some (.decl (some specs) (some c) off)) (g2 : s.nodes specs = some (.chain l)) (g3 : KwChain s.nodes l ks)
    (g4 : ∀ k ∈ ks, ignoredSpec k = false) (g5 : resolveKws 0 ks = some v) (g6 : s.nodes c = some (.chain [t]))
    (g7 : s.nodes t = some (.fn (some fd) args none none)) (g8 : s.nodes fd = some (.ident f)) :
    Conv E (fun R => R.ev (some u)) s (.ok (some p) (addNode (addNode s (tyNode v)) (.fn (some fd) args (some s.next) none))) := by
  refine fnDecl_eval w g1 g2 g3 g4 g5 g6 g7 ⟨_, _, _, _, rfl⟩ fun R => ?_
  have x := addNode_ext w (tyNode v)
  have x2 := addNode_ext (x.wf w) (.fn (some fd) args (some s.next) none)
  have hr : resolveIdC (some fd) (addNode (addNode s (tyNode v)) (.fn (some fd) args (some s.next) none)) =
      .ok (some p) (addNode (addNode s (tyNode v)) (.fn (some fd) args (some s.next) none)) :=
    resolveIdC_apply (x2.nodes _ _ (x.nodes _ _ g8)) hx
  simp only [handleDeclSwitch, nodeR, bind_apply, node_apply (x.nodes _ _ g7), peek_apply (x.nodes _ _ g8), mk_apply, hr, pure_apply]

theorem FrameRel.snoc {s : St} {fr bs as} (h : FrameRel s fr bs as) {x id r} :
    FrameRel s (fr ++ [(x, none)]) (bs ++ [⟨x, id, r⟩]) as := by
  induction h with
  | nil => exact .other .nil
  | var h1 _ ih => exact .var h1 ih
  | other _ ih => exact .other ih

/-- a name that is not a variable comes into being -/
theorem bindSt_good {s : St} {fr σ n f id r} (g : Good s (fr :: σ) n) : Good (bindSt s ⟨f, id, r⟩) ((fr ++ [(f, none)]) :: σ) n := by
  obtain ⟨as, h1, h2⟩ := g.rel
  have hv : ∀ t c v a, VarAt s t c v a → VarAt (bindSt s ⟨f, id, r⟩) t c v a := fun t c v a h => by
    obtain ⟨τ, ⟨a1, a2, a3, a4⟩⟩ := h.at_
    exact ⟨⟨τ, ⟨a1, a2, a3, a4⟩⟩, h.int, h.wide, h.val⟩
  cases hcx : s.ctxs with
  | nil => exact absurd hcx g.room.ctxs
  | cons k ks =>
    rw [lookups_cons hcx] at h1
    have hb : (bindSt s ⟨f, id, r⟩).ctxs = { k with ids := k.ids ++ [⟨f, id, r⟩] } :: ks := by simp [bindSt, hcx, bindCur]
    cases h1 with
    | cons h3 h4 =>
      refine ⟨g.wf, ?_, ⟨g.room.brk, by rw [hb]; simp, g.room.livelt⟩, _, ?_, h2⟩
      · refine flags_of ?_ g.flags
        exact bindCur_map _ (fun _ _ => rfl) _ _
      · rw [lookups_cons hb]
        exact .cons (h3.map fun t c v a _ => hv t c v a).snoc (h4.map rfl fun t c v a _ => hv t c v a)

/-- a definition -/
theorem def_conv {E : Env} {s : St} {u f q fr n} (g : Good s [fr] n) (hd : DefRep s.nodes u f q) (hf : Frame.find f fr = none)
    {Φ : String → Option Proc} (F : FnsAt Φ s [fr]) :
    ∃ r s', Evt E s (some u) r s' ∧ NoJump s' r ∧ Good s' [fr ++ [(f, none)]] n ∧ Kept s s' ∧ uids s' = uids s ∧
      FnsAt (addProc Φ f q) s' [fr ++ [(f, none)]] := by
  obtain ⟨specs, l, ks, v, off, c, t, fd, args, b, g1, g2, g3, g4, g5, g6, g7, g8, g9, g10⟩ := hd
  have x := addNode_ext g.wf (tyNode v)
  have x2 := addNode_ext (x.wf g.wf) (.fn (some fd) args (some s.next) (some b))
  have xx := x.trans x2
  obtain ⟨as, h1, _⟩ := g.rel
  obtain ⟨k, kl, hk⟩ : ∃ k kl, s.ctxs = k :: kl := List.exists_cons_of_ne_nil g.room.ctxs
  rw [lookups_cons hk] at h1
  cases h1 with
  | cons h3 h4 =>
    have hfr := findId_absent (h3.fresh hf)
    have hx : resolveCurrent f .normal s = none := by simp [resolveCurrent, hk, Ctx.map, hfr]
    have hev := def_eval (E := E) g.wf g.room.ctxs hx g1 g2 g3 g4 g5 g6 g7 g8
    have hg : Good (defSt s v f fd args (some b)) [fr ++ [(f, none)]] n := bindSt_good (g.ext xx)
    have hu : uids (defSt s v f fd args (some b)) = uids s := by
      simp only [uids, defSt, bindSt]
      rw [bindCur_map _ (fun _ _ => rfl)]
      rfl
    have hkept : Kept s (defSt s v f fd args (some b)) := xx.nodes
    have hnew : (defSt s v f fd args (some b)).nodes (s.next + 1) = some (.fn (some fd) args (some s.next) (some b)) :=
      addNode_self (addNode s (tyNode v)) _
    have hctx : (defSt s v f fd args (some b)).ctxs = { k with ids := k.ids ++ [⟨f, fd, some (s.next + 1)⟩] } :: kl := by
      show bindCur _ s.ctxs = _
      rw [hk]; rfl
    have hevt : Evt E s (some u) (some t) (defSt s v f fd args (some b)) := ⟨hev, by rw [hctx, hk]; rfl, hg.flags⟩
    have hj : NoJump (defSt s v f fd args (some b)) (some t) := by simp [NoJump, hkept _ _ g7, isJump]
    have hsane := (exec_keep (.expr g1 rfl hevt hj) F.sane).1
    refine ⟨_, _, hevt, hj, hg, hkept, hu, hsane, by simp, _, by rw [hctx]; rfl, ?_⟩
    · obtain ⟨d, d1, d2⟩ := F.glob
      rw [hk] at d1
      cases d1
      intro f' q' hf'
      unfold addProc at hf'
      split at hf'
      · rename_i e
        cases hf'; subst e
        refine ⟨s.next + 1, ?_, fd, args, some s.next, b, f', hnew, hkept _ _ g8, ?_, g10.mono hkept⟩
        · exact findId_append_fresh (h3.fresh hf)
        · rcases g9 with g9 | ⟨d, ds, a1, a2, a3, a4⟩
          · exact .inl g9
          · exact .inr ⟨d, ds, a1, hkept _ _ a2, a3, a4.mono hkept⟩
      · obtain ⟨t', t1, t2⟩ := d2 f' q' hf'
        exact ⟨t', findId_append _ t1, t2.mono hkept⟩

/-! ## Scripts -/

/-- the syntax trees of the parts of a script -/
inductive PartsRep (nd : TId → Option Node) : List TId → List Part → Prop
  | nil : PartsRep nd [] []
  | stmt {u ls p us} : SRep nd (.stmt u) p → PartsRep nd ls us → PartsRep nd (u :: ls) (.stmt p :: us)
  | proc {u ls f q us} : DefRep nd u f q → PartsRep nd ls us → PartsRep nd (u :: ls) (.proc f q :: us)

theorem DefRep.mono {nd nd' : TId → Option Node} (h : ∀ t n, nd t = some n → nd' t = some n) {u f q} (r : DefRep nd u f q) :
    DefRep nd' u f q := by
  obtain ⟨specs, l, ks, v, off, c, t, fd, args, b, g1, g2, g3, g4, g5, g6, g7, g8, g9, g10⟩ := r
  refine ⟨specs, l, ks, v, off, c, t, fd, args, b, h _ _ g1, h _ _ g2, g3.mono h, g4, g5, h _ _ g6, h _ _ g7, h _ _ g8, ?_, g10.mono h⟩
  rcases g9 with g9 | ⟨d, ds, a1, a2, a3, a4⟩
  · exact .inl g9
  · exact .inr ⟨d, ds, a1, h _ _ a2, a3, a4.mono h⟩

theorem PartsRep.mono {nd nd' : TId → Option Node} (h : ∀ t n, nd t = some n → nd' t = some n) {ls us} (r : PartsRep nd ls us) :
    PartsRep nd' ls us := by
  induction r with
  | nil => exact .nil
  | stmt h1 _ ih => exact .stmt (h1.mono h) ih
  | proc h1 _ ih => exact .proc (h1.mono h) ih

/-- the rules of C for programs that bic runs correctly: those of C34, and a procedure sees the
outermost scope -/
def okStatic : Rules := { okRules with sees := fun _ v => v.length = 1 }

/-- the names of inner scopes, parameters and variables of procedures are not in `G`, and the
procedures use no others -/
def Spec.Part.Apart (G : String → Prop) : Part → Prop
  | .stmt p => ∀ x ∈ p.inners, ¬ G x
  | .proc _ q => (∀ x ∈ q.body.free, x ∈ q.params.map (·.2) ∨ G x) ∧ (∀ x ∈ q.params.map (·.2), ¬ G x) ∧
      ∀ x ∈ q.body.binds ++ q.body.inners, ¬ G x

theorem Separate.add {Φ : String → Option Proc} {G : String → Prop} {f q} (h : Separate Φ G) (hq : (Part.proc f q).Apart G) :
    Separate (addProc Φ f q) G := by
  have key : ∀ (P : Proc → Prop), P q → (∀ g r, Φ g = some r → P r) → ∀ g r, addProc Φ f q g = some r → P r := by
    intro P h1 h2 g r hg
    unfold addProc at hg
    split at hg
    · cases hg; exact h1
    · exact h2 _ _ hg
  exact ⟨key _ hq.1 h.free, key _ hq.2.1 h.params, key _ hq.2.2 h.locals⟩

theorem parts_ended {E : Env} {G : String → Prop} {Φ Φ' : String → Option Proc} {fr fr' : Frame} {us n}
    (h : RunParts okStatic Φ fr us Φ' fr' n) : ∀ {s ls m}, PartsRep s.nodes ls us → Good s [fr] (n + m) → FnsAt Φ s [fr] →
      Separate Φ G → (∀ u ∈ us, u.Apart G) →
      ∃ s', (∀ Q, Exec (langOf Q) (Evt E) (CondIs E) s (.block ls) .next s') ∧ Good s' [fr'] m ∧ Kept s s' ∧ uids s' = uids s ∧
        FnsAt Φ' s' [fr'] := by
  induction h with
  | nil =>
    intro s ls m hr g F _ _
    cases hr
    exact ⟨s, fun _ => .nil, g.mono (by omega), Kept.refl _, rfl, F⟩
  | @stmt Φ Φ' fr fr1 fr2 p us n m' hp _ ih =>
    intro s ls m hr g F hs ha
    cases hr with
    | stmt h1 h2 =>
      have hp' : Run (staticRules Φ) ([] ++ [fr]) p .next [fr1] n := hp
      obtain ⟨t', g', e, h3, _, _, h4⟩ := run_dynamic (G := G) (loc := []) hs hp' rfl (fun _ => rfl) (by simp [Clear]) (by simp)
        (ha _ List.mem_cons_self) (fun _ _ => .inr (by simp))
      obtain ⟨s1, a1, a2, a3, a4⟩ := run_ended_procs (E := E) (m := m' + m) h4 h1 g.assoc (.inr F)
      rw [List.nil_append, ← e] at a2
      have F1 : FnsAt Φ s1 [fr1] := F.step (exec_keep (a1 _)) a3 rfl
      obtain ⟨s2, b1, b2, b3, b4, b5⟩ := ih (m := m) (h2.mono a3) a2 F1 hs fun u hu => ha u (List.mem_cons_of_mem _ hu)
      exact ⟨s2, fun Q => .cons (a1 Q) (b1 Q), b2, a3.trans b3, b4.trans a4, b5⟩
  | @proc Φ Φ' fr fr' f q us n hf _ ih =>
    intro s ls m hr g F hs ha
    cases hr with
    | proc h1 h2 =>
      obtain ⟨r, s1, a1, a2, a3, a4, a5, a6⟩ := def_conv (E := E) g h1 hf F
      obtain ⟨s2, b1, b2, b3, b4, b5⟩ := ih (h2.mono a4) a3 a6 (hs.add (ha _ List.mem_cons_self)) fun u hu => ha u (List.mem_cons_of_mem _ hu)
      obtain ⟨specs, l, ks, v, off, c, t, fd, args, b, g1, _⟩ := h1
      exact ⟨s2, fun Q => .cons (.expr g1 rfl a1 a2) (b1 Q), b2, a4.trans b3, b4.trans a5, b5⟩

end Bic

/-! ## How scripts are parsed -/

namespace Bic.Parser
open Spec CSyn

theorem param_der {d i r} (h : WParam d i r) : ∃ t, Der .paramDecl i t r ∧ ∀ {nd : TId → Option Node} {u ds ps},
    Rep nd (.t t (some u)) → ParamsRep nd ds ps → ParamsRep nd (u :: ds) (d :: ps) := by
  cases h with
  | mk hs hg =>
    obtain ⟨ts, h1, -, h2⟩ := specs_der hs
    refine ⟨_, .pdDecl h1 (.dDirect .ddIdent), ?_⟩
    intro nd u ds ps hx hr
    obtain ⟨g1, g2⟩ := resolveKws_gives (specs_kw hs) hg
    cases hx with
    | decl h5 h6 h7 =>
      cases h6 with
      | chain h8 h9 =>
        cases h7 with
        | ident h10 => exact .cons h5 ⟨_, _, h8, h2 h9, g1, g2⟩ h10 hr

theorem params_der {ps i r} (h : WParams ps i r) :
    ∃ ts, Der .paramList i (.chain ts) r ∧
      (∀ {i0 ts0}, Der .paramList i0 (.chain ts0) (.p .comma :: i) → Der .paramList i0 (.chain (ts0 ++ ts)) r) ∧
      ∀ {nd : TId → Option Node} {ls}, Rep nd (.l ts ls) → ParamsRep nd ls ps := by
  induction h with
  | one h =>
    obtain ⟨t, h1, h2⟩ := param_der h
    refine ⟨[t], .plOne h1, fun h => .plMore h h1, ?_⟩
    intro nd ls hr
    obtain ⟨u, rfl, hu⟩ := rep_one hr
    exact h2 hu .nil
  | more h _ ih =>
    obtain ⟨t, h1, h2⟩ := param_der h
    obtain ⟨ts, h3, h4, h5⟩ := ih
    refine ⟨t :: ts, h4 (.plOne h1), fun {i0 ts0} h => ?_, ?_⟩
    · have := h4 (.plMore h h1)
      rwa [List.append_assoc] at this
    · intro nd ls hr
      cases hr with
      | cons h6 h7 => exact h2 h6 (h5 h7)

theorem body_der {TN p i r} (h : WBody cTable TN p i r) : ∃ t, Der .compoundStmt i t r ∧ ∀ {nd : TId → Option Node} {x},
    Rep nd (.t t x) → ∃ b, x = some b ∧ SRep nd (.body (some b)) p := by
  cases h with
  | items h =>
    obtain ⟨ts, h1, h2⟩ := src_der h
    refine ⟨_, .csItems (chunk_block h1), ?_⟩
    intro nd x hx
    cases hx with
    | chain h3 h4 => exact ⟨_, rfl, .braces h3 (h2 h4)⟩
  | empty =>
    refine ⟨_, .csEmpty, ?_⟩
    intro nd x hx
    cases hx with
    | empty h3 => exact ⟨_, rfl, .single h3 rfl rfl (.empty h3)⟩

theorem proc_der {TN f q i r} (h : WProc cTable TN False f q i r) : ∃ t, Der .fnDef i t r ∧ ∀ {nd : TId → Option Node} {u},
    Rep nd (.t t (some u)) → DefRep nd u f q := by
  cases h with
  | params hs hg hb hp hbody =>
    obtain ⟨ts, h1, -, h2⟩ := specs_der hs
    obtain ⟨as, h3, -, h4⟩ := params_der hp
    obtain ⟨t, h5, h6⟩ := body_der hbody
    refine ⟨_, .fdNew h1 (.dDirect (.ddFn .ddIdent (.ptlList h3))) h5 rfl, ?_⟩
    intro nd u hx
    obtain ⟨g1, v, g2, _⟩ := resolveKws_name (specs_kw hs) hg hb
    cases hx with
    | decl k1 k2 k3 =>
      cases k2 with
      | chain k4 k5 =>
        cases k3 with
        | chain k6 k7 =>
          obtain ⟨w, rfl, k8⟩ := rep_one k7
          cases k8 with
          | fn m1 m2 m3 m4 =>
            cases m2 with
            | ident m2 =>
              cases m3 with
              | chain m5 m6 =>
                obtain ⟨b, rfl, m7⟩ := h6 m4
                refine ⟨_, _, _, _, _, _, _, _, _, _, k1, k4, h2 k5, g1, g2, k6, m1, m2, .inr ⟨_, _, rfl, m5, ?_, h4 m6⟩, m7⟩
                cases hp <;> simp
  | none hs hg hb hbody =>
    obtain ⟨ts, h1, -, h2⟩ := specs_der hs
    obtain ⟨t, h5, h6⟩ := body_der hbody
    refine ⟨_, .fdNew h1 (.dDirect (.ddFn0 .ddIdent)) h5 rfl, ?_⟩
    intro nd u hx
    obtain ⟨g1, v, g2, _⟩ := resolveKws_name (specs_kw hs) hg hb
    cases hx with
    | decl k1 k2 k3 =>
      cases k2 with
      | chain k4 k5 =>
        cases k3 with
        | chain k6 k7 =>
          obtain ⟨w, rfl, k8⟩ := rep_one k7
          cases k8 with
          | fn m1 m2 m3 m4 =>
            cases m2 with
            | ident m2 =>
              cases m3
              obtain ⟨b, rfl, m7⟩ := h6 m4
              exact ⟨_, _, _, _, _, _, _, _, _, _, k1, k4, h2 k5, g1, g2, k6, m1, m2, .inl ⟨rfl, rfl⟩, m7⟩
  | void h => exact h.elim

theorem part_der {TN p i r} (h : WPart cTable TN False p i r) : ∃ t, Der .cscriptDecl i t r ∧ ∀ {nd : TId → Option Node} {u ls us},
    Rep nd (.t t (some u)) → PartsRep nd ls us → PartsRep nd (u :: ls) (p :: us) := by
  cases h with
  | stmt h =>
    obtain ⟨t, h1, h2⟩ := src_der h
    exact ⟨t, item_script h1, fun h h' => .stmt (h2 h) h'⟩
  | proc h =>
    obtain ⟨t, h1, h2⟩ := proc_der h
    exact ⟨t, .cxExt (.xFn h1), fun h h' => .proc (h2 h) h'⟩

theorem parts_der {TN us i r} (h : WParts cTable TN False us i r) :
    ∃ ts, Der .cscriptUnit i (.chain ts) r ∧
      (∀ {i0 ts0}, Der .cscriptUnit i0 (.chain ts0) i → Der .cscriptUnit i0 (.chain (ts0 ++ ts)) r) ∧
      ∀ {nd : TId → Option Node} {ls}, Rep nd (.l ts ls) → PartsRep nd ls us := by
  induction h with
  | one h =>
    obtain ⟨t, h1, h2⟩ := part_der h
    refine ⟨[t], .cuOne h1, fun h => .cuMore h h1, ?_⟩
    intro nd ls hr
    obtain ⟨u, rfl, hu⟩ := rep_one hr
    exact h2 hu .nil
  | more h _ ih =>
    obtain ⟨t, h1, h2⟩ := part_der h
    obtain ⟨ts, h3, h4, h5⟩ := ih
    refine ⟨t :: ts, h4 (.cuOne h1), fun {i0 ts0} h => ?_, ?_⟩
    · have := h4 (.cuMore h h1)
      rwa [List.append_assoc] at this
    · intro nd ls hr
      cases hr with
      | cons h6 h7 => exact h2 h6 (h5 h7)

end Bic.Parser
