import Verif.Proofs.MainCall
import Verif.Props.Errors
/-!
# Functions whose parameters are written `(void)`
-/

namespace Bic
open Spec Script

/-- the tree of the parameter list `(void)` -/
def VoidList (nd : TId → Option Node) (args : TId) : Prop :=
  ∃ d specs k off, nd args = some (.chain [d]) ∧ nd d = some (.decl (some specs) none off) ∧ nd specs = some (.chain [k]) ∧
    nd k = some (.kw .void)

theorem VoidList.mono {nd nd' : TId → Option Node} (h : ∀ t n, nd t = some n → nd' t = some n) {a} (r : VoidList nd a) : VoidList nd' a := by
  obtain ⟨d, specs, k, off, h1, h2, h3, h4⟩ := r
  exact ⟨d, specs, k, off, h _ _ h1, h _ _ h2, h _ _ h3, h _ _ h4⟩

/-- a call with another number of arguments than the function has parameters -/
theorem callUser_number {E : Env} {s : St} {fd args : TId} {stmts callArgs : Ref} {name : String} {ds vs : List TId}
    (hfd : s.nodes fd = some (.ident name)) (h1 : s.nodes args = some (.chain ds)) (h2 : chainElems callArgs (enterFn s name) = .ok vs (enterFn s name))
    (hn : vs.length ≠ ds.length) :
    Conv E (fun R => callUser R (some fd) (some args) stmts callArgs) s (.stop (.die "Invalid number of parameters to function") (enterFn s name)) := by
  refine Conv.fixed fun R => ?_
  have e : (callUser R (some fd) (some args) stmts callArgs) s = ((do
      let ds ← chainElems (some args)
      let vs ← chainElems callArgs
      if vs.length ≠ ds.length then die "Invalid number of parameters to function"
      else bindParams R ds vs
      let jmp := (← curCtx).uid
      let r ← runBody R jmp s.nextUid stmts
      popCtx
      pure r : M Ref)) (enterFn s name) := by
    simp only [callUser, bind_apply, idStr, nodeR, node_apply hfd]
    rfl
  rw [e]
  have h1 : chainElems (some args) (enterFn s name) = .ok ds (enterFn s name) := chainElems_apply h1
  simp only [bind_apply, h1, h2, if_pos hn]
  rfl

/-- a call of such a function with one argument that is an object -/
theorem callUser_void {E : Env} {s : St} {fd args l x r : TId} {stmts : Ref} {name y : String} {n : Node} (w : WF s)
    (hfd : s.nodes fd = some (.ident name)) (ha : VoidList s.nodes args) (h1 : s.nodes l = some (.chain [x]))
    (h2 : s.nodes x = some (.ident y)) (h3 : findInChain y .normal (enterFn s name).ctxs = some r) (h4 : s.nodes r = some n)
    (hn : ∃ ty a b c, n = .lv ty a b c) :
    ∃ s', Conv E (fun R => callUser R (some fd) (some args) stmts (some l)) s (.stop (.die "Not a valid lvalue.") s') ∧
      Ext (enterFn s name) s' := by
  obtain ⟨d, specs, k, off, g1, g2, g3, g4⟩ := ha
  have w0 : WF (enterFn s name) := w
  have x1 := addNode_ext w0 .void
  have hkw : KwChain (enterFn s name).nodes [k] [.void] := .cons g4 .nil
  have ex : Conv E (fun R => R.ev (some x)) (enterFn s name) (.ok (some r) (enterFn s name)) :=
    ident_conv h2 (by simp [resolveGlobal, h3])
  have ed : Conv E (fun R => R.ev (some d)) (enterFn s name) (.ok none (addNode (enterFn s name) .void)) := by
    refine Conv.evNode (nd := .decl (some specs) none off) g2 (Conv.fixed fun R => ?_)
    have hk : ∀ kw ∈ [Kw.typedef, .extern, .static],
        chainHasKw kw [k] (addNode (enterFn s name) .void) = .ok false (addNode (enterFn s name) .void) := by
      intro kw hkw'
      refine chainHasKw_apply (hkw.mono x1.nodes) kw fun hm => ?_
      simp only [List.mem_cons, List.not_mem_nil, or_false] at hkw' hm
      subst hm
      simp at hkw'
    have e1 : resolveSpecs (some specs) (enterFn s name) = .ok (some (enterFn s name).next) (addNode (enterFn s name) .void) :=
      resolveSpecs_kws (v := .void) g3 hkw (by decide)
    have e2 : chainElems (some specs) (addNode (enterFn s name) .void) = .ok [k] (addNode (enterFn s name) .void) :=
      chainElems_apply (x1.nodes _ _ g3)
    have e3 := peek_apply (addNode_self (enterFn s name) .void)
    show evalDecl E R d (some specs) none _ = _
    simp [evalDecl, e1, e2, e3, hk]
  have x2 := addNode_ext (x1.wf w0) (.assign none (some r))
  obtain ⟨ty, a, b, c, rfl⟩ := hn
  have ea : Conv E (fun R => R.ev (some (addNode (enterFn s name) .void).next))
      (addNode (addNode (enterFn s name) .void) (.assign none (some r)))
      (.stop (.die "Not a valid lvalue.") (addNode (addNode (enterFn s name) .void) (.assign none (some r)))) := by
    refine Conv.evNode (addNode_self _ _) ?_
    unfold evalNode evalAssign
    refine Conv.bind (a := none) (s' := addNode (addNode (enterFn s name) .void) (.assign none (some r)))
      ⟨1, fun n hn => by obtain ⟨k, rfl⟩ : ∃ k, n = k + 1 := ⟨n - 1, by omega⟩; rfl⟩ (Conv.bind (a := some r) ?_ (Conv.const rfl))
    exact Conv.evNode ((x1.trans x2).nodes _ _ h4) (Conv.const rfl)
  refine ⟨_, ?_, x1.trans x2⟩
  have hb : Conv E (fun R => bindParams R [d] [x]) (enterFn s name)
      (.stop (.die "Not a valid lvalue.") (addNode (addNode (enterFn s name) .void) (.assign none (some r)))) := by
    unfold bindParams
    exact Conv.bind ex (Conv.bind ed (Conv.bind (Conv.const rfl) (Conv.bind_stop ea)))
  have hb2 := Conv.bind_stop (g := fun R _ => (do
      let jmp := (← curCtx).uid
      let r ← runBody R jmp s.nextUid stmts
      popCtx
      pure r : M Ref)) hb
  refine hb2.of_eq fun R => ?_
  have e : (callUser R (some fd) (some args) stmts (some l)) s = ((do
      let ds ← chainElems (some args)
      let vs ← chainElems (some l)
      if vs.length ≠ ds.length then die "Invalid number of parameters to function"
      else bindParams R ds vs
      let jmp := (← curCtx).uid
      let r ← runBody R jmp s.nextUid stmts
      popCtx
      pure r : M Ref)) (enterFn s name) := by
    simp only [callUser, bind_apply, idStr, nodeR, node_apply hfd]
    rfl
  rw [e]
  have e1 : chainElems (some args) (enterFn s name) = .ok [d] (enterFn s name) := chainElems_apply g1
  have e2 : chainElems (some l) (enterFn s name) = .ok [x] (enterFn s name) := chainElems_apply h1
  simp only [bind_apply, e1, e2, List.length_cons, List.length_nil, ne_eq, not_true_eq_false, if_false]

/-- the syntax tree of the definition of a function with such a list -/
def DefVoid (nd : TId → Option Node) (u : TId) (f : String) : Prop :=
  ∃ specs l ks v off c t fd args b, nd u = some (.decl (some specs) (some c) off) ∧ nd specs = some (.chain l) ∧ KwChain nd l ks ∧
    (∀ k ∈ ks, ignoredSpec k = false) ∧ resolveKws 0 ks = some v ∧ nd c = some (.chain [t]) ∧
    nd t = some (.fn (some fd) (some args) none (some b)) ∧ nd fd = some (.ident f) ∧ VoidList nd args

theorem DefVoid.mono {nd nd' : TId → Option Node} (h : ∀ t n, nd t = some n → nd' t = some n) {u f} (r : DefVoid nd u f) :
    DefVoid nd' u f := by
  obtain ⟨specs, l, ks, v, off, c, t, fd, args, b, g1, g2, g3, g4, g5, g6, g7, g8, g9⟩ := r
  exact ⟨specs, l, ks, v, off, c, t, fd, args, b, h _ _ g1, h _ _ g2, g3.mono h, g4, g5, h _ _ g6, h _ _ g7, h _ _ g8, g9.mono h⟩

theorem inspect_voidMain {s : St} {t : TId} (h : DefVoid s.nodes t "main") (f : Found) :
    inspectDecl t f s = .ok { f with numMainArgs := f.numMainArgs + 1, hasMain := true } s := by
  obtain ⟨specs, l, ks, v, off, c, t, fd, args, b, g1, g2, g3, g4, g5, g6, g7, g8, d, specs', k, off', g9, _⟩ := h
  simp [inspectDecl, firstDeclarator, chainElems_apply g9, node_apply g1, peek_apply g6, peek_apply g7, peek_apply g8]

theorem inspect_others' {s : St} {ls us} (h : PartsRep s.nodes ls us) (hd : ∀ u ∈ us, u.Declares)
    (hm : ∀ q, Part.proc "main" q ∉ us) : ∀ f : Found, inspectDecls ls f s = .ok f s := by
  induction h with
  | nil => exact fun _ => rfl
  | @stmt u ls p us h1 _ ih =>
    intro f
    have hp := hd _ List.mem_cons_self
    have e : inspectDecl u f s = .ok f s := by
      cases p with
      | decl c ds => exact inspect_decl h1 f
      | _ => exact hp.elim
    simp [inspectDecls, e, ih (fun u hu => hd u (List.mem_cons_of_mem _ hu)) (fun q hq => hm q (List.mem_cons_of_mem _ hq)) f]
  | @proc u ls g q us h1 _ ih =>
    intro f
    have e := inspect_def h1 (fun e => hm _ (by rw [e]; exact List.mem_cons_self)) f
    simp [inspectDecls, e, ih (fun u hu => hd u (List.mem_cons_of_mem _ hu)) (fun q hq => hm q (List.mem_cons_of_mem _ hq)) f]

/-- the definition -/
theorem defVoid_conv {E : Env} {s : St} {u f fr n} (g : Good s [fr] n) (hd : DefVoid s.nodes u f) (hf : Frame.find f fr = none) (hs : Sane s) :
    ∃ r s' t fd args b, Evt E s (some u) r s' ∧ NoJump s' r ∧ Good s' [fr ++ [(f, none)]] n ∧ Kept s s' ∧ Sane s' ∧ CtxsEvol s.ctxs s'.ctxs ∧
      findInChain f .normal s'.ctxs = some t ∧ s'.nodes t = some (.fn (some fd) (some args) (some s.next) (some b)) ∧
      s'.nodes fd = some (.ident f) ∧ VoidList s'.nodes args := by
  obtain ⟨specs, l, ks, v, off, c, t, fd, args, b, g1, g2, g3, g4, g5, g6, g7, g8, g9⟩ := hd
  have x := addNode_ext g.wf (tyNode v)
  have x2 := addNode_ext (x.wf g.wf) (.fn (some fd) (some args) (some s.next) (some b))
  have xx := x.trans x2
  obtain ⟨as, h1, _⟩ := g.rel
  obtain ⟨k, kl, hk⟩ : ∃ k kl, s.ctxs = k :: kl := List.exists_cons_of_ne_nil g.room.ctxs
  rw [lookups_cons hk] at h1
  cases h1 with
  | cons h3 h4 =>
    have hfr := findId_absent (h3.fresh hf)
    have hx : resolveCurrent f .normal s = none := by simp [resolveCurrent, hk, Ctx.map, hfr]
    have hev := def_eval (E := E) g.wf g.room.ctxs hx g1 g2 g3 g4 g5 g6 g7 g8
    have hg : Good (defSt s v f fd (some args) (some b)) [fr ++ [(f, none)]] n := bindSt_good (g.ext xx)
    have hkept : Kept s (defSt s v f fd (some args) (some b)) := xx.nodes
    have hctx : (defSt s v f fd (some args) (some b)).ctxs = { k with ids := k.ids ++ [⟨f, fd, some (s.next + 1)⟩] } :: kl := by
      show bindCur _ s.ctxs = _
      rw [hk]; rfl
    have hevt : Evt E s (some u) (some t) (defSt s v f fd (some args) (some b)) := ⟨hev, by rw [hctx, hk]; rfl, hg.flags⟩
    have hj : NoJump (defSt s v f fd (some args) (some b)) (some t) := by simp [NoJump, hkept _ _ g7, isJump]
    obtain ⟨k1, k2⟩ := exec_keep (.expr g1 rfl hevt hj) hs
    refine ⟨_, _, s.next + 1, fd, args, b, hevt, hj, hg, hkept, k1, k2, ?_, addNode_self (addNode s (tyNode v)) _, hkept _ _ g8, g9.mono hkept⟩
    rw [hctx, findInChain]
    simp [Ctx.map, findId_append_fresh (h3.fresh hf)]

theorem fails_snoc {E : Env} {t : TId} {m : String} : ∀ {ts : List TId} {s s1 s' : St}, Exec okLang (Evt E) (CondIs E) s (.block ts) .next s1 →
    Fails E s1 (.stmt t) m s' → Fails E s (.block (ts ++ [t])) m s'
  | [], _, _, _, h, h' => by cases h; exact .here h'
  | _ :: _, _, _, _, h, h' => by
    cases h with
    | cons h1 h2 => exact .later h1 (fails_snoc h2 h')
    | jump h1 _ => exact absurd rfl h1

/-- a script whose `main` is defined with `(void)`; `s0` is the state before its root is made -/
theorem script_voidMain {E : Env} {G : String → Prop} {Φ' : String → Option Proc} {fr1 : Frame} {us : List Part} {n : Nat}
    {mem : Mem} {s0 : St} {ps : List Nat} {ls : List TId} {u : TId} (e : Ext (initSt mem) s0) (hl : LiveLt mem)
    (few : ps.length < 2 ^ 31) (cap : mem.brk + 176 + 104 * ps.length + 48 * n < Mem.limit)
    (hr : PartsRep s0.nodes ls us) (hu : DefVoid s0.nodes u "main") (hd : ∀ u ∈ us, u.Declares) (hm : ∀ q, Part.proc "main" q ∉ us)
    (hf : Frame.find "main" fr1 = none)
    (ha : ∀ u ∈ us, u.Apart G) (h : RunParts okStatic (fun _ => none) (argFrame ps.length) us Φ' fr1 n) :
    ∃ s' c cs, Conv E (fun R => evaluateCscript R s0.next ps) (addNode s0 (.chain (ls ++ [u]))) (.stop (.die "Not a valid lvalue.") s') ∧
      s'.ctxs = c :: cs ∧ Rel (onBase s' cs) [fr1 ++ [("main", none)]] := by
  have w0 := e.wf (initSt_WF mem)
  have x0 := addNode_ext w0 (.chain (ls ++ [u]))
  have hx := addNode_self s0 (.chain (ls ++ [u]))
  obtain ⟨s1, h1, g1, F1, k1⟩ := start_good (E := E) (n := n) (e.trans x0) hl few cap
  have hin : inspectDecls (ls ++ [u]) ⟨0, false, false⟩ (addNode s0 (.chain (ls ++ [u]))) = .ok ⟨1, true, false⟩ (addNode s0 (.chain (ls ++ [u]))) := by
    rw [inspect_append (inspect_others' (hr.mono x0.nodes) hd hm _)]
    simp [inspectDecls, inspect_voidMain (s := addNode s0 (.chain (ls ++ [u]))) (hu.mono x0.nodes)]
  obtain ⟨call, s2, c1, c2, c3, c4, c5, c6, -⟩ := addCall_apply g1.wf (k1 _ _ hx) 1
  have hs2 : Sane s2 := by
    have := pres_addCallToMain E s0.next 1 s1 F1.sane.inv
    rw [c1] at this
    exact ⟨EvolX.inv this, by rw [c5]; exact F1.sane.flags, by rw [c5]; exact F1.sane.ne⟩
  have hi2 : s2.includeCtx = s1.includeCtx := by
    have := pres_addCallToMain E s0.next 1 s1 F1.sane.inv
    rw [c1] at this
    exact EvolX.includeCtx this
  have g2 : Good s2 [argFrame ps.length] n := by
    refine g1.unchain hs2.inv.wf (fun t k hk hc => c4 t k ?_ hk) c5 hi2 c6
    rintro rfl
    rw [k1 _ _ hx] at hk
    cases hk
    exact hc _ rfl
  have F2 : FnsAt (fun _ => none) s2 [argFrame ps.length] := by
    obtain ⟨c, d1, _⟩ := F1.glob
    exact ⟨hs2, nofun, c, by rw [c5]; exact d1, nofun⟩
  have k2 : Kept s0 s2 := by
    intro t k hk
    refine c4 t k ?_ (k1 _ _ (x0.nodes _ _ hk))
    rintro rfl
    rw [w0 _ (Nat.le_refl _)] at hk
    cases hk
  obtain ⟨r, arr, sz, τ, a, k, kl, hk2, hfind, hlv⟩ : ∃ r arr sz τ a k kl, s2.ctxs = k :: kl ∧ findId "argc" k.ids = some r ∧
      s2.nodes r = some (.lv τ a arr sz) := by
    obtain ⟨as, r1, _⟩ := g2.rel
    obtain ⟨k, kl, hk⟩ : ∃ k kl, s2.ctxs = k :: kl := List.exists_cons_of_ne_nil g2.room.ctxs
    rw [lookups_cons hk] at r1
    cases r1 with
    | cons r2 _ =>
      generalize hids : k.ids = bs at r2
      cases r2 with
      | @var _ _ _ id t a _ bs' _ hv _ =>
        obtain ⟨τ, ⟨⟨arr, sz, h1⟩, _⟩⟩ := hv.at_
        exact ⟨t, _, _, _, _, k, kl, hk, by simp [hids, findId], h1⟩
  obtain ⟨s3, h3, g3, k3, -, F3⟩ := parts_ended (E := E) (m := 0) h (hr.mono k2) g2 F2 ⟨nofun, nofun, nofun⟩ ha
  have ev3 := (exec_keep (h3 AnyReturn) hs2).2
  obtain ⟨r4, s4, t, fd, args, b, d1, d2, g4, k4, hs4, ev4, d3, d4, d5, d6⟩ := defVoid_conv (E := E) g3 (hu.mono (k2.trans k3)) hf F3.sane
  have k24 := k3.trans k4
  have ev := ev3.trans ev4
  rw [hk2] at ev
  obtain ⟨i, cargs, i1, i2, i3⟩ := c3
  obtain ⟨l, x, rfl, i4, i5⟩ : ∃ l x, cargs = some l ∧ s2.nodes l = some (.chain [x]) ∧ s2.nodes x = some (.ident "argc") := by
    rcases i3 with ⟨h, _⟩ | ⟨l, x, _, h1, h2, h3⟩ | ⟨_, _, _, h, _⟩
    · simp at h
    · exact ⟨l, x, h1, h2, h3⟩
    · simp at h
  have hargc : findInChain "argc" .normal (enterFn s4 "main").ctxs = some r := by
    generalize hc4 : s4.ctxs = cc at ev
    cases ev with
    | @cons _ b' _ _ e1 e2 =>
      obtain ⟨add, e3, _⟩ := e1.ids
      have : findId "argc" b'.ids = some r := by rw [e3]; exact findId_append _ hfind
      simp [enterFn, hc4, findInChain, Ctx.map, this, findId]
  obtain ⟨s5, y1, y2⟩ := callUser_void (E := E) (stmts := some b) hs4.inv.wf d5 d6 (k24 _ _ i4) (k24 _ _ i5) hargc (k24 _ _ hlv) ⟨_, _, _, _, rfl⟩
  have hcall : Conv E (fun R => R.ev (some call)) s4 (.stop (.die "Not a valid lvalue.") s5) :=
    fnCall_conv (k24 _ _ i1) (ident_conv (k24 _ _ i2) (by simp [resolveGlobal, d3])) d4 (by simp) y1
  have hx5 : s5.ctxs = (enterFn s4 "main").ctxs := y2.ctxs
  refine ⟨s5, _, s4.ctxs, ?_, hx5, ?_⟩
  · have hblock : Exec okLang (Evt E) (CondIs E) s2 (.block (ls ++ [u])) .next s4 := by
      obtain ⟨_, _, _, _, _, _, _, _, _, _, g, _⟩ := hu.mono (k2.trans k3)
      exact block_snoc (h3 AnyReturn) (.expr g rfl d1 d2)
    have dd : Conv E (fun R => evalElems R (ls ++ [u] ++ [call])) s2 (.stop (.die "Not a valid lvalue.") s5) :=
      fails_dies (fails_snoc hblock (.expr (k24 _ _ i1) rfl hcall)) hs2
    unfold evaluateCscript
    refine Conv.bind (Conv.const (chainElems_apply hx)) (Conv.bind (Conv.const hin) ?_)
    have : Conv E (fun R => createArguments R ps >>= fun _ => addCallToMain s0.next 1 >>= fun _ => evaluate R (some s0.next))
        (addNode s0 (.chain (ls ++ [u]))) (.stop (.die "Not a valid lvalue.") s5) := by
      refine Conv.bind h1 (Conv.bind (Conv.const c1) (dd.congr fun R => ?_))
      rw [evaluate_chain c2]
    refine this.congr fun R => ?_
    simp
  · obtain ⟨as, z1, z2⟩ := g4.rel
    refine ⟨as, z1.map (by simp only [lookups, onBase]; rw [show s5.includeCtx = s4.includeCtx from y2.includeCtx]) fun t c v a _ h => ?_, z2⟩
    exact VarAt.keptX (s := s4) (s' := onBase s5 s4.ctxs) h (fun x k hx _ => y2.nodes _ _ hx) y2.mem

end Bic
