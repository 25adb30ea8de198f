import Verif.Proofs.Start
import Verif.Props.Script
/-!
# Scripts with `main`
-/

namespace Bic
open Spec Script

/-- a call of a function that ends with `return e;` -/
theorem callUser_value {E : Env} {s s1 s' : St} {fd r : TId} {args stmts callArgs : Ref} {name : String} {top base : List Ctx}
    {fr vis m} (hs : Sane s) (hfd : s.nodes fd = some (.ident name)) (hb : Bound E (enterFn s name) args callArgs s1)
    (hx : Exec okLang (Evt E) (CondIs E) s1 (.body stmts) (.ret (some r)) s') (hc : s'.ctxs = top ++ base)
    (hu : base.map (·.uid) = s.nextUid :: uids s) (hne : s.ctxs ≠ []) (g : Good (onBase s' base) (fr :: vis) m) :
    ∃ s'', Conv E (fun R => callUser R (some fd) args stmts callArgs) s (.ok (some r) s'') ∧ (WF s'' → Good s'' vis m) ∧
      KeptX s' s'' ∧ uids s'' = uids s := by
  obtain ⟨s'', q', e', y1, y2, -, y3, y4, y5, _, ⟨_, hinc⟩, y8, y9⟩ := callUser_return (stable_any E) hs hfd hb hx
  cases base with
  | nil => simp at hu
  | cons d rest =>
    simp only [List.map_cons, List.cons.injEq] at hu
    have hctx := y9 top d rest hc hu.1
    have hnodes : KeptX s' s'' := by
      intro z n hz hn
      rw [y3]
      by_cases h : z = q'
      · subst h; rw [y2] at hz; cases hz; exact absurd rfl (hn _)
      · simpa [retNode, h] using hz
    have hne : rest ≠ [] := by
      intro h
      have h2 := hu.2
      rw [h] at h2
      exact hne (List.map_eq_nil_iff.mp h2.symm)
    have hrel : Rel s'' vis := by
      obtain ⟨as, z1, z2⟩ := g.rel
      have z1 : StoreRel (onBase s' (d :: rest)) (fr :: vis) (d :: (rest ++ s'.includeCtx.toList)) as := z1
      cases z1 with
      | cons z3 z4 =>
        refine ⟨_, ?_, (List.pairwise_append.mp z2).2.1⟩
        rw [show lookups s'' = rest ++ s'.includeCtx.toList by simp only [lookups, hctx, hinc]]
        exact z4.map rfl fun t c' v a _ h => VarAt.keptX (s := onBase s' (d :: rest)) h hnodes y5
    have hflags : ∀ c ∈ s''.ctxs, c.shouldBreak = false := by
      intro k hk
      rw [hctx] at hk
      exact g.flags k (List.mem_cons_of_mem _ hk)
    exact ⟨s'', y1, fun hwf => ⟨hwf, hflags, ⟨by rw [y5]; exact g.room.brk, by rw [hctx]; exact hne, by rw [y5]; exact g.room.livelt⟩, hrel⟩,
      hnodes, by unfold uids; rw [hctx]; exact hu.2⟩

theorem Separate.parts {G : String → Prop} {L : Rules} {Φ Φ' : String → Option Proc} {fr fr' : Frame} {us n}
    (h : RunParts L Φ fr us Φ' fr' n) : Separate Φ G → (∀ u ∈ us, u.Apart G) → Separate Φ' G := by
  induction h with
  | nil => exact fun h _ => h
  | stmt _ _ ih => exact fun h ha => ih h fun u hu => ha u (List.mem_cons_of_mem _ hu)
  | proc _ _ ih => exact fun h ha => ih (h.add (ha _ List.mem_cons_self)) fun u hu => ha u (List.mem_cons_of_mem _ hu)

/-- the call of a function without parameters from the outermost scope -/
theorem call_ended {E : Env} {G : String → Prop} {Φ : String → Option Proc} {s : St} {f : String} {b : Spec.Stmt} {g : End}
    {fr fr1 fr' : Frame} {n m : Nat} {call i : TId} (hs : Separate Φ G) (hq : Φ f = some ⟨[], b⟩)
    (hr : Run (staticRules Φ) [[], fr] b g [fr1, fr'] n) (hg : Good s [fr] (n + m)) (F : FnsAt Φ s [fr])
    (h2 : s.nodes call = some (.fnCall (some i) none)) (h3 : s.nodes i = some (.ident f)) :
    ∃ s', (∀ Q, Exec (langOf Q) (Evt E) (CondIs E) s (.stmt call) .next s') ∧ Good s' [fr'] m := by
  have hr' : Run (staticRules Φ) ([[]] ++ [fr]) b g ([fr1] ++ [fr']) n := hr
  obtain ⟨t', k', e, -, -, -, h4⟩ := run_dynamic (G := G) (loc := []) hs hr' rfl (by simp) (by intro k hk; simp at hk; simp [hk, Frame.names])
    (fun _ x hx => hs.locals _ _ hq x (List.mem_append_left _ hx)) (fun x hx => hs.locals _ _ hq x (List.mem_append_right _ hx))
    (fun _ _ => .inr (by simp))
  obtain ⟨e1, e2⟩ := List.append_inj' e (by rfl)
  cases e2; subst e1
  obtain ⟨c, g1, g2⟩ := F.glob
  obtain ⟨t', t1, fd, args, ret, bd, name, t2, t3, t4, t5⟩ := g2 f _ hq
  have hfind : resolveGlobal f .normal s = some t' := hg.rel.procedure F.ne (by simp) g1 t1
  have hargs : args = none := by
    rcases t4 with ⟨h, _⟩ | ⟨_, _, _, _, h, _⟩
    · exact h
    · exact absurd rfl h
  subst hargs
  have b1 : Bound E (enterFn s name) none none (enterFn s name) := .inl ⟨rfl, rfl⟩
  have gg := hg.enterFn name
  have F1 : FnsAt Φ (enterFn s name) [[], fr] := F.push (F.sane.enterFn name) rfl rfl []
  have hi := run_ended_procs (E := E) (m := m) (s := enterFn s name) h4 t5 gg (.inr F1)
  have key : ∀ {r s'}, Conv E (fun R => callUser R (some fd) none (some bd) none) s (.ok r s') → uids s' = uids s → NoJump s' r →
      (WF s' → Good s' [fr'] m) → ∃ s', (∀ Q, Exec (langOf Q) (Evt E) (CondIs E) s (.stmt call) .next s') ∧ Good s' [fr'] m := by
    intro r s' k1 k2 k3 k4
    have hev : Evl E s (some call) r s' := fnCall_conv h2 (ident_conv h3 hfind) t2 (by simp) k1
    have g1 := k4 (Conv.evol hev F.sane.inv).inv.wf
    exact ⟨s', fun _ => .expr h2 rfl (evt_uids hev k2 g1.flags) k3, g1⟩
  cases g with
  | next =>
    obtain ⟨s', x1, x2, x3, x4⟩ := hi
    obtain ⟨y1, y2⟩ := callUser_end F.sane t3 b1 (x1 _)
    obtain ⟨z1, z2⟩ := good_out (s := s) (s1 := s) (nm := "") x2 (by rw [x4]; rfl) hg.room.ctxs rfl
    exact key y1 z2 (by simp [NoJump]) fun _ => z1
  | left =>
    obtain ⟨s', top, base, x1, x3, x4, x5, x6⟩ := hi
    obtain ⟨s'', y1, y2, y3, y4⟩ := callUser_left F.sane t3 b1 x1 x3 (by rw [x4]; rfl) hg.room.ctxs x5
    exact key y1 y4 (by simp [NoJump]) y2
  | ret v =>
    obtain ⟨r, s', top, base, x1, x2, x3, x4, x5, x6⟩ := hi
    obtain ⟨s'', y1, y2, y3, y4⟩ := callUser_value F.sane t3 b1 x1 x3 (by rw [x4]; rfl) hg.room.ctxs x5
    refine key y1 y4 ?_ y2
    rintro _ ⟨⟩
    rcases x2 with x2 | ⟨_, _, ⟨_, _, ⟨⟨_, _, x2⟩, _, _, _⟩, _⟩, _⟩ <;> exact ⟨_, y3 _ _ x2 (by simp), rfl⟩

theorem block_snoc {L : Lang} {Ev Cd} {t : TId} : ∀ {ts : List TId} {s s1 s' : St}, Exec L Ev Cd s (.block ts) .next s1 →
    Exec L Ev Cd s1 (.stmt t) .next s' → Exec L Ev Cd s (.block (ts ++ [t])) .next s'
  | [], _, _, _, h, h' => by cases h; exact .cons h' .nil
  | _ :: _, _, _, _, h, h' => by
    cases h with
    | cons h1 h2 => exact .cons h1 (block_snoc h2 h')
    | jump h1 _ => exact absurd rfl h1

/-! ## What `__evaluate_cscript` finds -/

/-- a declaration of variables or a definition -/
def Spec.Part.Declares : Part → Prop
  | .stmt (.decl _ _) => True
  | .stmt _ => False
  | .proc _ _ => True

theorem inspect_decl {s : St} {t : TId} {c ds} (h : SRep s.nodes (.stmt t) (.decl c ds)) (f : Found) : inspectDecl t f s = .ok f s := by
  cases h with
  | decl h1 _ h3 =>
    rcases h3 with ⟨l, h4, h5⟩ | h5
    · cases h5 with
      | nil => simp [inspectDecl, firstDeclarator, node_apply h1, peek_apply h4]
      | plain h6 => simp [inspectDecl, firstDeclarator, node_apply h1, peek_apply h4, peek_apply h6]
      | init h6 => simp [inspectDecl, firstDeclarator, node_apply h1, peek_apply h4, peek_apply h6]
    · cases h5 with
      | plain h6 => simp [inspectDecl, firstDeclarator, node_apply h1, peek_apply h6]
      | init h6 => simp [inspectDecl, firstDeclarator, node_apply h1, peek_apply h6]

theorem inspect_defMain {s : St} {t : TId} {q : Proc} (h : DefRep s.nodes t "main" q) (hq : q.params = []) (f : Found) :
    inspectDecl t f s = .ok { f with hasMain := true } s := by
  obtain ⟨specs, l, ks, v, off, c, t, fd, args, b, g1, g2, g3, g4, g5, g6, g7, g8, g9, g10⟩ := h
  have hargs : args = none := by
    rcases g9 with ⟨h, _⟩ | ⟨_, _, _, _, h, _⟩
    · exact h
    · exact absurd hq h
  subst hargs
  have e : chainElems none s = .ok [] s := rfl
  simp [inspectDecl, firstDeclarator, e, node_apply g1, peek_apply g6, peek_apply g7, peek_apply g8]

theorem inspect_withMain {s : St} {ls us} (h : PartsRep s.nodes ls us) (hd : ∀ u ∈ us, u.Declares)
    (hm : ∀ q, Part.proc "main" q ∈ us → q.params = []) : ∀ f : Found, f.hasNonDecls = false → f.numMainArgs = 0 →
    ((∃ q, Part.proc "main" q ∈ us) ∨ f.hasMain = true) → inspectDecls ls f s = .ok ⟨0, true, false⟩ s := by
  induction h with
  | nil =>
    rintro ⟨_, _, _⟩ rfl rfl (⟨q, h⟩ | rfl)
    · cases h
    · rfl
  | @stmt u ls p us h1 _ ih =>
    intro f f1 f2 f3
    have hp := hd _ List.mem_cons_self
    have e : inspectDecl u f s = .ok f s := by
      cases p with
      | decl c ds => exact inspect_decl h1 f
      | _ => exact hp.elim
    have := ih (fun u hu => hd u (List.mem_cons_of_mem _ hu)) (fun q hq => hm q (List.mem_cons_of_mem _ hq)) f f1 f2
      (f3.imp (by rintro ⟨q, h⟩; cases h with | tail _ h => exact ⟨q, h⟩) id)
    simp [inspectDecls, e, this]
  | @proc u ls g q us h1 _ ih =>
    intro f f1 f2 f3
    have ih := ih (fun u hu => hd u (List.mem_cons_of_mem _ hu)) (fun q hq => hm q (List.mem_cons_of_mem _ hq))
    by_cases hg : g = "main"
    · subst hg
      have e := inspect_defMain h1 (hm _ List.mem_cons_self) f
      simp [inspectDecls, e, ih { f with hasMain := true } f1 f2 (.inr rfl)]
    · have e := inspect_def h1 hg f
      have := ih f f1 f2 (f3.imp (by rintro ⟨q', h⟩; cases h with | head => exact absurd rfl hg | tail _ h => exact ⟨q', h⟩) id)
      simp [inspectDecls, e, this]

/-- every procedure of the script was defined -/
theorem RunParts.defined {L : Rules} {Φ Φ' : String → Option Proc} {fr fr' : Frame} {us n} (h : RunParts L Φ fr us Φ' fr' n) {f q}
    (hf : Φ' f = some q) : Φ f = some q ∨ Part.proc f q ∈ us := by
  induction h with
  | nil => exact .inl hf
  | stmt _ _ ih => exact (ih hf).imp id (List.mem_cons_of_mem _)
  | @proc Φ _ _ _ g r _ _ _ _ ih =>
    rcases ih hf with h | h
    · unfold addProc at h
      split at h
      · rename_i e; cases h; subst e; exact .inr List.mem_cons_self
      · exact .inl h
    · exact .inr (List.mem_cons_of_mem _ h)

/-! ## Running the script -/

/-- a change of a chain that no variable needs -/
theorem Good.unchain {s s' : St} {σ n} (g : Good s σ n) (w : WF s')
    (hk : ∀ t n, s.nodes t = some n → (∀ l, n ≠ .chain l) → s'.nodes t = some n) (hc : s'.ctxs = s.ctxs) (hi : s'.includeCtx = s.includeCtx)
    (hm : s'.mem = s.mem) : Good s' σ n := by
  obtain ⟨as, h1, h2⟩ := g.rel
  refine ⟨w, by rw [hc]; exact g.flags, ⟨by rw [hm]; exact g.room.brk, by rw [hc]; exact g.room.ctxs, by rw [hm]; exact g.room.livelt⟩,
    as, ?_, h2⟩
  rw [lookups, hc, hi]
  refine h1.map rfl fun t c v a _ h => ?_
  obtain ⟨τ, ⟨⟨arr, sz, h1⟩, ⟨e, h2⟩, h3, h4⟩⟩ := h.at_
  exact ⟨⟨τ, ⟨arr, sz, hk _ _ h1 (by simp)⟩, ⟨e, hk _ _ h2 (by simp)⟩, h3, by rw [hm]; exact h4⟩, h.int,
    by rw [hm]; exact h.wide, by rw [hm]; exact h.val⟩

/-- `x` is the node of the script, made last; `s0` is the state before it is made -/
theorem script_main {E : Env} {G : String → Prop} {Φ' : String → Option Proc} {fr1 fr2 fr' : Frame} {us : List Part} {n m : Nat}
    {mem : Mem} {s0 : St} {ps : List Nat} {ls : List TId} {b : Spec.Stmt} {g : End} (e : Ext (initSt mem) s0) (hl : LiveLt mem)
    (few : ps.length < 2 ^ 31) (cap : mem.brk + 176 + 104 * ps.length + 48 * (n + m) < Mem.limit)
    (hr : PartsRep s0.nodes ls us) (hd : ∀ u ∈ us, u.Declares) (hm : ∀ q, Part.proc "main" q ∈ us → q.params = [])
    (ha : ∀ u ∈ us, u.Apart G) (h : RunParts okStatic (fun _ => none) (argFrame ps.length) us Φ' fr1 n) (hq : Φ' "main" = some ⟨[], b⟩)
    (hb : Run (staticRules Φ') [[], fr1] b g [fr2, fr'] m) :
    ∃ s', Conv E (fun R => evaluateCscript R s0.next ps) (addNode s0 (.chain ls)) (.ok () s') ∧ Rel s' [fr'] := by
  have w0 := e.wf (initSt_WF mem)
  have x0 := addNode_ext w0 (.chain ls)
  have hx := addNode_self s0 (.chain ls)
  obtain ⟨s1, h1, g1, F1, k1⟩ := start_good (E := E) (n := n + m) (e.trans x0) hl few cap
  have hin := inspect_withMain (s := addNode s0 (.chain ls)) (hr.mono x0.nodes) hd hm ⟨0, false, false⟩ rfl rfl
    (.inl ((RunParts.defined h hq).elim nofun fun h => ⟨_, h⟩))
  obtain ⟨call, s2, c1, c2, c3, c4, c5, c6, -⟩ := addCall_apply g1.wf (k1 _ _ hx) 0
  have hs2 : Sane s2 := by
    have := pres_addCallToMain E s0.next 0 s1 F1.sane.inv
    rw [c1] at this
    exact ⟨EvolX.inv this, by rw [c5]; exact F1.sane.flags, by rw [c5]; exact F1.sane.ne⟩
  have hi2 : s2.includeCtx = s1.includeCtx := by
    have := pres_addCallToMain E s0.next 0 s1 F1.sane.inv
    rw [c1] at this
    exact EvolX.includeCtx this
  have g2 : Good s2 [argFrame ps.length] (n + m) := by
    refine g1.unchain hs2.inv.wf (fun t k hk hc => c4 t k ?_ hk) c5 hi2 c6
    rintro rfl
    rw [k1 _ _ hx] at hk
    cases hk
    exact hc _ rfl
  have F2 : FnsAt (fun _ => none) s2 [argFrame ps.length] := by
    obtain ⟨c, d1, _⟩ := F1.glob
    exact ⟨hs2, nofun, c, by rw [c5]; exact d1, nofun⟩
  have k2 : Kept s0 s2 := by
    intro t k hk
    refine c4 t k ?_ (k1 _ _ (x0.nodes _ _ hk))
    rintro rfl
    rw [w0 _ (Nat.le_refl _)] at hk
    cases hk
  have hsep : Separate (fun _ => none) G := ⟨nofun, nofun, nofun⟩
  obtain ⟨s3, h3, g3, k3, -, F3⟩ := parts_ended (E := E) h (hr.mono k2) g2 F2 hsep ha
  obtain ⟨i, args, i1, i2, i3⟩ := c3
  have hargs : args = none := by
    rcases i3 with ⟨_, h⟩ | ⟨_, _, h, _⟩ | ⟨_, _, _, h, _⟩
    · exact h
    · simp at h
    · simp at h
  subst hargs
  obtain ⟨s', h4, g4⟩ := call_ended (E := E) (m := 0) (hsep.parts h ha) hq hb g3 F3 (k3 _ _ i1) (k3 _ _ i2)
  refine ⟨s', ?_, g4.rel⟩
  obtain ⟨d, -⟩ := exec_does (block_snoc (h3 AnyReturn) (h4 _)) hs2
  have d : Conv E (fun R => evalElems R (ls ++ [call])) s2 (.ok () s') := d
  unfold evaluateCscript
  refine Conv.bind (Conv.const (chainElems_apply hx)) (Conv.bind (Conv.const hin) ?_)
  have : Conv E (fun R => createArguments R ps >>= fun _ => addCallToMain s0.next 0 >>= fun _ => evaluate R (some s0.next))
      (addNode s0 (.chain ls)) (.ok () s') := by
    refine Conv.bind h1 (Conv.bind (Conv.const c1) (d.congr fun R => ?_))
    rw [evaluate_chain c2]
  refine this.congr fun R => ?_
  simp

end Bic
