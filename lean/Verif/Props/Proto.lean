import Verif.Props.Scope
import Verif.Proofs.Parts

/-!
# C124: declarations and definitions of functions

A declaration `T f(…);` may come before the definition of `f`, and may be repeated.  Of this only the repetition holds:
`handle_declarator` (evaluate.c:781-806) lets a declaration pass whose name is known, but maps a definition like anything else,
and a name is mapped once in a scope.
-/

namespace Bic
open Spec

/-- the tree `u` declares the function `f`, with the parameters `args`; with a body `b` it defines it.  The type is given by keywords. -/
structure FnTree (s : St) (u : TId) (f : String) (args b : Ref) : Prop where
  shape : ∃ specs l ks v off c t fd, s.nodes u = some (.decl (some specs) (some c) off) ∧ s.nodes specs = some (.chain l) ∧
    KwChain s.nodes l ks ∧ (∀ k ∈ ks, ignoredSpec k = false) ∧ resolveKws 0 ks = some v ∧ s.nodes c = some (.chain [t]) ∧
    s.nodes t = some (.fn (some fd) args none b) ∧ s.nodes fd = some (.ident f)

/-- the current scope knows `f` as the function with the parameters `args` and the body `b` -/
def Knows (s : St) (f : String) (g : TId) (args b : Ref) : Prop :=
  resolveCurrent f .normal s = some g ∧ ∃ fd ρ, s.nodes g = some (.fn fd args ρ b)

/-- statements of the same block executed one after the other -/
inductive Follows (E : Env) : St → St → Prop
  | refl (s) : Follows E s s
  | step {s s1 s2 t r} : Evt E s t r s1 → Follows E s1 s2 → Follows E s s2

/-- C124, the full statement: after a declaration and whatever follows it, the definition defines the function -/
def C124_statement : Prop :=
  ∀ (E : Env) (s s1 s2 : St) (u u2 : TId) (r : Ref) (f : String) (args args' : Ref) (b : TId), Sane s → Fresh s f →
    FnTree s u f args none → Evt E s (some u) r s1 → Follows E s1 s2 → FnTree s2 u2 f args' (some b) →
    ∃ r' s3 g, Evl E s2 (some u2) r' s3 ∧ Knows s3 f g args' (some b)

theorem Follows.keep {E : Env} {s s' : St} (h : Follows E s s') (hs : Sane s) : Sane s' ∧ CtxsEvol s.ctxs s'.ctxs ∧
    ∀ t n, s.nodes t = some n → ∃ n', s'.nodes t = some n' ∧ NodeEvol n n' := by
  induction h with
  | refl s => exact ⟨hs, .refl _, fun t n h => ⟨n, h, .refl n⟩⟩
  | step h1 _ ih =>
    obtain ⟨k1, k2⟩ := h1.keep hs
    obtain ⟨i1, i2, i3⟩ := ih k1
    refine ⟨i1, k2.trans i2, fun t n h => ?_⟩
    obtain ⟨n1, e1, v1⟩ := (Conv.evol h1.1 hs.inv).nodes t n h
    obtain ⟨n2, e2, v2⟩ := i3 t n1 e1
    exact ⟨n2, e2, v1.trans v2⟩

theorem resolveCurrent_evol {s s' : St} {f : String} {g : TId} (h : CtxsEvol s.ctxs s'.ctxs) (hx : resolveCurrent f .normal s = some g) :
    resolveCurrent f .normal s' = some g := by
  unfold resolveCurrent at hx ⊢
  generalize s.ctxs = l at h hx
  generalize s'.ctxs = l' at h
  cases h with
  | nil => exact hx
  | cons h1 _ =>
    obtain ⟨add, e, _⟩ := h1.ids
    simp only [Ctx.map] at hx ⊢
    rw [e]
    exact findId_append add hx

theorem Knows.follows {E : Env} {s s' : St} {f : String} {g : TId} {args b : Ref} (h : Knows s f g args b) (hf : Follows E s s') (hs : Sane s) :
    Knows s' f g args b := by
  obtain ⟨_, k2, k3⟩ := hf.keep hs
  obtain ⟨h1, fd, ρ, h2⟩ := h
  refine ⟨resolveCurrent_evol k2 h1, ?_⟩
  obtain ⟨n', e, v⟩ := k3 _ _ h2
  have key := v.key
  rw [mutKey] at key
  cases n' <;> simp [mutKey] at key
  rename_i d a ρ' st
  obtain ⟨rfl, rfl, rfl⟩ := key
  exact ⟨_, _, e⟩

/-- a declaration with one function declarator that ends with an error -/
theorem fnDecl_stop {E : Env} {s s' : St} {specs l ks v off c t n e u} (w : WF s)
    (g1 : s.nodes u = some (.decl (some specs) (some c) off)) (g2 : s.nodes specs = some (.chain l)) (g3 : KwChain s.nodes l ks)
    (g4 : ∀ k ∈ ks, ignoredSpec k = false) (g5 : resolveKws 0 ks = some v) (g6 : s.nodes c = some (.chain [t]))
    (g7 : s.nodes t = some n) (hn : ∃ fd args ret b, n = .fn fd args ret b)
    (hsw : ∀ R, handleDeclSwitch R (some t) (some s.next) (addNode s (tyNode v)) = .stop e s') :
    Conv E (fun R => R.ev (some u)) s (.stop e s') := by
  refine Conv.evNode g1 ?_
  have x := addNode_ext w (tyNode v)
  have hk : ∀ kw ∈ [Kw.typedef, .extern, .static],
      chainHasKw kw l (addNode s (tyNode v)) = .ok false (addNode s (tyNode v)) := by
    intro kw hkw
    refine chainHasKw_apply (g3.mono x.nodes) kw fun hm => ?_
    have := g4 kw hm
    simp only [List.mem_cons, List.not_mem_nil, or_false] at hkw
    rcases hkw with rfl | rfl | rfl <;> cases this
  have hself := addNode_self s (tyNode v)
  have hd : Conv E (fun R => R.handleDecl (some t) (some s.next)) (addNode s (tyNode v)) (.stop e s') := by
    refine Conv.handleDecl ?_
    unfold handleDeclStep
    have ht := x.nodes _ _ g7
    obtain ⟨fd, args, ret, b, rfl⟩ := hn
    refine Conv.bind (a := (some t, some s.next)) (s' := addNode s (tyNode v)) (Conv.resolvePtr ?_) (Conv.fixed fun R => ?_)
    · exact Conv.fixed fun R => by simp [resolvePtrStep, peek_apply ht]
    · have hn : ∀ {α} (g : Node → M α), (node s.next >>= g) (addNode s (tyNode v)) = g (tyNode v) (addNode s (tyNode v)) := by
        intro α g; simp [node_apply hself]
      show (node s.next >>= _) _ = _
      rw [hn, ← hsw R]
      cases v <;> rfl
  have he : Conv E (fun R => eachDecl (fun d => R.handleDecl d (some s.next)) (some c)) (addNode s (tyNode v)) (.stop e s') := by
    have h2 := Conv.bind_stop (g := fun R r => forEachLast (fun t => R.handleDecl (some t) (some s.next)) r []) hd
    refine h2.congr fun R => ?_
    simp [eachDecl, peek_apply (x.nodes _ _ g6), forEachLast]
  refine he.of_eq fun R => ?_
  show evalDecl E R u (some specs) (some c) s = _
  have e1 := resolveSpecs_kws g2 g3 g5
  have e2 := chainElems_apply (x.nodes _ _ g2)
  have e3 := peek_apply hself
  clear he hd x hself hsw
  cases v <;> simp only [tyNode] at hk e1 e2 e3 ⊢ <;> simp [evalDecl, e1, e2, e3, hk]

/-- a definition of a name the current scope knows is an error -/
theorem C124_known (E : Env) (s : St) (u : TId) (f : String) (args : Ref) (b p : TId) (w : WF s) (h : FnTree s u f args (some b))
    (hx : resolveCurrent f .normal s = some p) :
    ∃ s', Conv E (fun R => R.ev (some u)) s (.stop (.die "Attempted to map already existing identifier") s') := by
  obtain ⟨specs, l, ks, v, off, c, t, fd, g1, g2, g3, g4, g5, g6, g7, g8⟩ := h.shape
  have x := addNode_ext w (tyNode v)
  have x2 := addNode_ext (x.wf w) (.fn (some fd) args (some s.next) (some b))
  refine ⟨addNode (addNode s (tyNode v)) (.fn (some fd) args (some s.next) (some b)),
    fnDecl_stop w g1 g2 g3 g4 g5 g6 g7 ⟨_, _, _, _, rfl⟩ fun R => ?_⟩
  have hr : resolveIdC (some fd) (addNode (addNode s (tyNode v)) (.fn (some fd) args (some s.next) (some b))) =
      .ok (some p) (addNode (addNode s (tyNode v)) (.fn (some fd) args (some s.next) (some b))) :=
    resolveIdC_apply (x2.nodes _ _ (x.nodes _ _ g8)) hx
  simp only [handleDeclSwitch, nodeR, bind_apply, node_apply (x.nodes _ _ g7), peek_apply (x.nodes _ _ g8), mk_apply, mapIdentifier, hr]
  rfl

/-- a declaration or a definition of a name the current scope does not know makes it known -/
theorem C124_new (E : Env) (s : St) (u : TId) (f : String) (args b : Ref) (hs : Sane s) (h : FnTree s u f args b)
    (hx : Fresh s f) :
    ∃ r s' g, Evt E s (some u) r s' ∧ Knows s' f g args b ∧ ∀ t n, s.nodes t = some n → s'.nodes t = some n := by
  obtain ⟨specs, l, ks, v, off, c, t, fd, g1, g2, g3, g4, g5, g6, g7, g8⟩ := h.shape
  have w := hs.inv.wf
  have hev := def_eval (E := E) w hs.ne hx.resolve g1 g2 g3 g4 g5 g6 g7 g8
  obtain ⟨k, kl, hk⟩ : ∃ k kl, s.ctxs = k :: kl := List.exists_cons_of_ne_nil hs.ne
  have hctx : (defSt s v f fd args b).ctxs = { k with ids := k.ids ++ [⟨f, fd, some (s.next + 1)⟩] } :: kl := by
    show bindCur _ s.ctxs = _
    rw [hk]; rfl
  refine ⟨some t, _, s.next + 1, ⟨hev, by rw [hctx, hk]; rfl, fun d hd => ?_⟩, ⟨?_, some fd, some s.next, ?_⟩, ?_⟩
  · rw [hctx] at hd
    rcases List.mem_cons.mp hd with rfl | hd
    · exact hs.flags k (by rw [hk]; exact List.mem_cons_self)
    · exact hs.flags d (by rw [hk]; exact List.mem_cons_of_mem _ hd)
  · simp only [resolveCurrent, hctx, Ctx.map]
    exact findId_append_fresh (hx k kl hk)
  · exact addNode_self (addNode s (tyNode v)) _
  · have x := addNode_ext w (tyNode v)
    exact fun t n h => (addNode_ext (x.wf w) (.fn (some fd) args (some s.next) b)).nodes _ _ (x.nodes _ _ h)

/-- **C124**, never: once a function has been declared, its definition in the same scope is an error, whatever comes between -/
theorem C124_never (E : Env) (s s1 s2 : St) (u u2 : TId) (r : Ref) (f : String) (args args' : Ref) (b : TId) (hs : Sane s)
    (hx : Fresh s f) (h1 : FnTree s u f args none) (h2 : Evt E s (some u) r s1) (h3 : Follows E s1 s2)
    (h4 : FnTree s2 u2 f args' (some b)) :
    ∃ s3, Conv E (fun R => R.ev (some u2)) s2 (.stop (.die "Attempted to map already existing identifier") s3) := by
  obtain ⟨r', s', g, e, k, -⟩ := C124_new E s u f args none hs h1 hx
  obtain ⟨rfl, rfl⟩ : r' = r ∧ s' = s1 := by simpa using Conv.unique e.1 h2.1
  have hs1 := (h2.keep hs).1
  have k2 := k.follows h3 hs1
  exact C124_known E s2 u2 f args' b g (h3.keep hs1).1.inv.wf h4 k2.1

/-- a declaration of a name the current scope knows, whatever it is, changes nothing -/
theorem C124_again (E : Env) (s : St) (u : TId) (f : String) (args : Ref) (p : TId) (hs : Sane s) (h : FnTree s u f args none)
    (hx : resolveCurrent f .normal s = some p) :
    ∃ s', Evt E s (some u) (some p) s' ∧ s'.ctxs = s.ctxs ∧ s'.mem = s.mem ∧ s'.events = s.events ∧
      ∀ t n, s.nodes t = some n → s'.nodes t = some n := by
  obtain ⟨specs, l, ks, v, off, c, t, fd, g1, g2, g3, g4, g5, g6, g7, g8⟩ := h.shape
  have w := hs.inv.wf
  have hev := again_eval (E := E) w hx g1 g2 g3 g4 g5 g6 g7 g8
  have x := addNode_ext w (tyNode v)
  have x2 := addNode_ext (x.wf w) (.fn (some fd) args (some s.next) none)
  exact ⟨_, ⟨hev, rfl, hs.flags⟩, rfl, rfl, rfl, fun t n h => x2.nodes _ _ (x.nodes _ _ h)⟩

/-- **C124**, the part that holds: declarations after the definition, as many as one likes and whatever comes between, leave the name with
the function defined -/
theorem C124_partial (E : Env) (s : St) (u : TId) (f : String) (args b : Ref) (hs : Sane s) (hx : Fresh s f) (h1 : FnTree s u f args b) :
    ∃ r s1 g, Evt E s (some u) r s1 ∧ Knows s1 f g args b ∧ ∀ s2, Follows E s1 s2 → Knows s2 f g args b ∧
      ∀ u2 args', FnTree s2 u2 f args' none → ∃ s3, Evt E s2 (some u2) (some g) s3 ∧ Knows s3 f g args b ∧ s3.ctxs = s2.ctxs ∧ s3.mem = s2.mem := by
  obtain ⟨r, s1, g, e, k, -⟩ := C124_new E s u f args b hs h1 hx
  refine ⟨r, s1, g, e, k, fun s2 h2 => ?_⟩
  have hs1 := (e.keep hs).1
  have k2 := k.follows h2 hs1
  refine ⟨k2, fun u2 args' h3 => ?_⟩
  obtain ⟨s3, e3, c3, m3, _, n3⟩ := C124_again E s2 u2 f args' g (h2.keep hs1).1 h3 k2.1
  obtain ⟨q1, fd, ρ, q2⟩ := k2
  exact ⟨s3, e3, ⟨by unfold resolveCurrent at q1 ⊢; rw [c3]; exact q1, fd, ρ, n3 _ _ q2⟩, c3, m3⟩

/-- `int f(); int f() { }` and `int f();` once more -/
def nodes124 : List Node :=
  [.kw .int, .chain [0], .ident "f", .fn (some 2) none none none, .chain [3], .decl (some 1) (some 4) 0,
   .ident "f", .chain [], .fn (some 6) none none (some 7), .chain [8], .decl (some 1) (some 9) 0]

def st124 : St := stOf nodes124 [] []

theorem st124_sane : Sane st124 := ⟨stOf_Inv _ _ _, by simp [st124, stOf, ctx1], by simp [st124, stOf]⟩

theorem st124_fresh : Fresh st124 "f" := by
  intro c cs h b hb
  cases h
  cases hb

theorem st124_proto : FnTree st124 5 "f" none none :=
  ⟨1, [0], [.int], .c .int, 0, 4, 3, 2, rfl, rfl, .cons rfl .nil, by decide, by decide, rfl, rfl, rfl⟩

theorem st124_def : FnTree st124 10 "f" none (some 7) :=
  ⟨1, [0], [.int], .c .int, 0, 9, 8, 6, rfl, rfl, .cons rfl .nil, by decide, by decide, rfl, rfl, rfl⟩

theorem FnTree.mono {s s' : St} {u f args b} (h : FnTree s u f args b) (hn : ∀ t n, s.nodes t = some n → s'.nodes t = some n) : FnTree s' u f args b := by
  obtain ⟨specs, l, ks, v, off, c, t, fd, g1, g2, g3, g4, g5, g6, g7, g8⟩ := h.shape
  exact ⟨specs, l, ks, v, off, c, t, fd, hn _ _ g1, hn _ _ g2, g3.mono hn, g4, g5, hn _ _ g6, hn _ _ g7, hn _ _ g8⟩

/-- the definition first, then the declaration -/
example : ∃ r s1 g s3, Evt E0 st124 (some 10) r s1 ∧ Evt E0 s1 (some 5) (some g) s3 ∧ Knows s3 "f" g none (some 7) := by
  obtain ⟨r, s1, g, e, k, kn⟩ := C124_new E0 st124 10 "f" none (some 7) st124_sane st124_def st124_fresh
  obtain ⟨r', s1', g', e', _, h⟩ := C124_partial E0 st124 10 "f" none (some 7) st124_sane st124_fresh st124_def
  obtain ⟨rfl, rfl⟩ : r' = r ∧ s1' = s1 := by simpa using Conv.unique e'.1 e.1
  obtain ⟨_, h⟩ := h s1' (.refl _)
  obtain ⟨s3, h1, h2, _⟩ := h 5 none (st124_proto.mono kn)
  exact ⟨_, _, _, _, e, h1, h2⟩

/-- the declaration first: an error -/
theorem C124_refuted : ¬ C124_statement := by
  intro h
  obtain ⟨r, s1, g, e, k, kn⟩ := C124_new E0 st124 5 "f" none none st124_sane st124_proto st124_fresh
  have h4 := st124_def.mono kn
  obtain ⟨r', s3, g', h5, _⟩ := h E0 st124 s1 s1 5 10 r "f" none none 7 st124_sane st124_fresh st124_proto e (.refl _) h4
  obtain ⟨s4, h6⟩ := C124_never E0 st124 s1 s1 5 10 r "f" none none 7 st124_sane st124_fresh st124_proto e (.refl _) h4
  have := Conv.unique h5 h6
  cases this

end Bic
