import Verif.Proofs.Control
/-!
# Calls of interpreted functions
-/

namespace Bic
open Spec

/-- open the scope of a call of the function `name` -/
def enterFn (s : St) (name : String) : St :=
  { s with
    ctxs := { uid := s.nextUid, name, ids := [], structs := [], unions := [], allocs := [],
              retval := none, shouldBreak := false, isFn := true } :: s.ctxs,
    nextUid := s.nextUid + 1 }

theorem Sane.enterFn {s : St} (h : Sane s) (nm : String) : Sane (enterFn s nm) where
  inv := by
    refine ⟨h.inv.wf, ⟨Nat.lt_succ_self _, h.inv.uids⟩, ?_⟩
    intro c hc
    rcases List.mem_cons.mp hc with rfl | hc
    · exact ⟨fun b hb => by simp at hb, fun b hb => by simp at hb⟩
    · exact h.inv.tags c hc
  flags := fun c hc => by
    rcases List.mem_cons.mp hc with rfl | hc
    · rfl
    · exact h.flags c hc
  ne := by simp [Bic.enterFn]

/-- what passing the arguments `as` for the parameter declarations `ds` does: one
after the other, argument, declaration, assignment -/
inductive Passed (E : Env) : St → List TId → List TId → St → Prop
  | nil {s} : Passed E s [] [] s
  | cons {s s1 s2 s3 s' a d v id r as ds} : Evt E s (some a) v s1 → Evt E s1 (some d) id s2 →
      Evt E (addNode s2 (.assign id v)) (some s2.next) r s3 → Passed E s3 ds as s' → Passed E s (d :: ds) (a :: as) s'

theorem Passed.conv {E : Env} {s s' : St} {ds as : List TId} (h : Passed E s ds as s') :
    Conv E (fun R => bindParams R ds as) s (.ok () s') := by
  induction h with
  | nil => exact Conv.pure ()
  | cons h1 h2 h3 _ ih =>
    unfold bindParams
    refine Conv.bind h1.1 (Conv.bind h2.1 ?_)
    exact Conv.bind_const (mk_apply _ _) (Conv.bind h3.1 ih)

theorem Passed.length {E : Env} {s s' : St} {ds as : List TId} (h : Passed E s ds as s') : as.length = ds.length := by
  induction h with
  | nil => rfl
  | cons _ _ _ _ ih => simp [ih]

theorem Passed.evol {E : Env} {s s' : St} {ds as : List TId} (h : Passed E s ds as s') (hi : Inv s) : Evol E true s s' :=
  h.conv.evolG (fun _ hR => pres_bindParams hR _ _) hi

theorem Passed.keep {E : Env} {s s' : St} {ds as : List TId} (h : Passed E s ds as s') :
    Sane s → Sane s' ∧ CtxsEvol s.ctxs s'.ctxs := by
  induction h with
  | nil => exact fun hs => ⟨hs, .refl _⟩
  | @cons s s1 s2 s3 s' a d v id r as ds h1 h2 h3 _ ih =>
    intro hs
    obtain ⟨k1, c1⟩ := h1.keep hs
    obtain ⟨k2, c2⟩ := h2.keep k1
    have k2' : Sane (addNode s2 (.assign id v)) :=
      ⟨(Evol.addNode (E := E) k2.inv (by simp)).inv, k2.flags, k2.ne⟩
    obtain ⟨k3, c3⟩ := h3.keep k2'
    obtain ⟨k4, c4⟩ := ih k3
    exact ⟨k4, ((c1.trans c2).trans c3).trans c4⟩

/-- the parameters of a call: none are declared, or each gets an argument -/
def Bound (E : Env) (s : St) (args callArgs : Ref) (s' : St) : Prop :=
  (args = none ∧ s' = s) ∨
  ∃ ad ds as, args = some ad ∧ s.nodes ad = some (.chain ds) ∧ chainElems callArgs s = .ok as s ∧ Passed E s ds as s'

theorem Bound.evol {E : Env} {s s' : St} {a b : Ref} (h : Bound E s a b s') (hi : Inv s) : Evol E true s s' := by
  rcases h with ⟨_, rfl⟩ | ⟨_, _, _, _, _, _, h⟩
  · exact .refl _ hi
  · exact h.evol hi

theorem Bound.keep {E : Env} {s s' : St} {a b : Ref} (h : Bound E s a b s') (hs : Sane s) :
    Sane s' ∧ CtxsEvol s.ctxs s'.ctxs := by
  rcases h with ⟨_, rfl⟩ | ⟨_, _, _, _, _, _, h⟩
  · exact ⟨hs, .refl _⟩
  · exact h.keep hs

/-- `runBody` and the end of the call -/
def finish (R : Rec) (jmp fnCtx : Nat) (stmts : Ref) : M Ref := do
  let r ← runBody R jmp fnCtx stmts
  popCtx
  pure r

theorem callUser_conv {E : Env} {s s1 : St} {fd : TId} {args stmts callArgs : Ref} {name : String} {k : Ctx} {cs : List Ctx}
    {o : Out Ref} (hfd : s.nodes fd = some (.ident name)) (hb : Bound E (enterFn s name) args callArgs s1)
    (hc : s1.ctxs = k :: cs) (h : Conv E (fun R => finish R k.uid s.nextUid stmts) s1 o) :
    Conv E (fun R => callUser R (some fd) args stmts callArgs) s o := by
  have hcur : curCtx s1 = .ok k s1 := by simp [curCtx, hc]
  have h1 : Conv E (fun R => (do
      let jmp := (← curCtx).uid
      finish R jmp s.nextUid stmts : M Ref)) s1 o := Conv.bind_const hcur h
  rcases hb with ⟨rfl, rfl⟩ | ⟨ad, ds, as, rfl, had, hca, hp⟩
  · refine h1.of_eq fun R => ?_
    simp [callUser, idStr, nodeR, node_apply hfd]
    rfl
  · have h2 := Conv.bind (g := fun R _ => (do
      let jmp := (← curCtx).uid
      finish R jmp s.nextUid stmts : M Ref)) hp.conv h1
    refine h2.of_eq fun R => ?_
    have e : (callUser R (some fd) (some ad) stmts callArgs) s = ((do
        let ds ← chainElems (some ad)
        let vs ← chainElems callArgs
        if vs.length ≠ ds.length then die "Invalid number of parameters to function"
        else bindParams R ds vs
        let jmp := (← curCtx).uid
        finish R jmp s.nextUid stmts : M Ref)) (enterFn s name) := by
      simp only [callUser, bind_apply, idStr, nodeR, node_apply hfd]
      rfl
    rw [e]
    have hl := hp.length
    simp [chainElems_apply had, hca, hl]

theorem UidsOk.drop {n : Nat} {top rest : List Ctx} {c : Ctx} (h : UidsOk n (top ++ c :: rest)) : UidsOk c.uid rest := by
  induction top generalizing n with
  | nil => exact h.2
  | cons x l ih => exact ih h.2

/-- the scopes below that of the call stay as they are -/
theorem popped {f : Ctx → Ctx} (hf : ∀ c, (f c).uid = c.uid) {u n : Nat} (hu' : ∀ c, c.uid ≠ u → f c = c)
    {top rest rest' : List Ctx} {c c' : Ctx} (h2 : c.uid = u) (hu : UidsOk n ((top ++ c :: rest).map f))
    (h : popTo u ((top ++ c :: rest).map f) = some (c' :: rest')) : rest' = rest := by
  rw [List.map_append, List.map_cons] at h hu
  have h3 := popTo_exact hu
  rw [hf, h2] at h3
  have h5 : rest' = rest.map f := by
    have := h3.symm.trans h
    simp at this
    exact this.2.symm
  have hlt := hu.drop.lt
  rw [h5]
  conv => rhs; rw [← List.map_id rest]
  refine List.map_congr_left fun d hd => ?_
  have h6 := hlt _ (List.mem_map_of_mem hd)
  rw [hf, hf, h2] at h6
  exact hu' d (by omega)

/-- a call whose body returns -/
theorem callUser_return {E : Env} {Q : Option TId → Prop} {s s1 s' : St} {fd : TId} {args stmts callArgs r : Ref} {name : String}
    (hQ : Stable E Q) (hs : Sane s) (hfd : s.nodes fd = some (.ident name)) (hb : Bound E (enterFn s name) args callArgs s1)
    (hx : Exec (langOf Q) (Evt E) (CondIs E) s1 (.body stmts) (.ret r) s') :
    ∃ s'' t e, Conv E (fun R => callUser R (some fd) args stmts callArgs) s (.ok r s'') ∧
      s'.nodes t = some (.ret e) ∧ Q e ∧ s''.nodes = (retNode s' t r).nodes ∧ s''.next = s'.next ∧
      s''.mem = s'.mem ∧ s''.events = s'.events ∧ (s''.nextUid = s'.nextUid ∧ s''.includeCtx = s'.includeCtx) ∧ CtxsEvol s.ctxs s''.ctxs ∧
      ∀ top c rest, s'.ctxs = top ++ c :: rest → c.uid = s.nextUid → s''.ctxs = rest := by
  have hsf := hs.enterFn name
  have ev := hb.evol hsf.inv
  obtain ⟨hs1, cs⟩ := hb.keep hsf
  obtain ⟨d, sc⟩ := exec_doesQ hQ hx hs1
  have hfn : innerFn s1.ctxs = some s.nextUid := cs.innerFn
  obtain ⟨t, e, ht, hq, hconv⟩ := Returns.jump (f := fun R => evaluate R stmts) d hfn
  have ev2 := hconv.evolStop (fun _ hR => pres_evaluate hR _) hs1.inv
  have hp : Evol E false s (enterFn s name) := by
    obtain ⟨c, s2, h1, _, h3, _⟩ := pushFn (E := E) hs.inv name
    have := h1 (fun _ => get)
    have : s2 = enterFn s name := by
      have e : (pushCtx name >>= fun _ => modCur (fun c => { c with isFn := true }) >>= fun _ => get) s =
        get (enterFn s name) := rfl
      rw [e] at this
      simp only [get] at this
      exact ((Out.ok.inj this).1).symm
    rw [← this]; exact h3
  cases hc1 : s1.ctxs with
  | nil => exact absurd hc1 hs1.ne
  | cons k ks =>
    have hku : k.uid = s.nextUid := by
      rw [hc1] at cs
      cases cs with | cons h _ => exact h.uid
    obtain ⟨c', rest', hpop, hcc, hcr, _⟩ := jump_evol (s := s) (s1 := enterFn s name) rfl hp (ev.trans ev2)
    have hrv : c'.retval = r := by
      obtain ⟨top, rest, e1, c1, _⟩ := (ev.trans ev2).ctxs
      have hmem : c' ∈ (retSt s' t r s.nextUid).ctxs := by
        cases c1 with
        | @cons _ c2 _ r2 h1 h2 =>
          have := popTo_exact (n := (retSt s' t r s.nextUid).nextUid) (top := top) (c := c2) (rest := r2)
            (by rw [← e1]; exact ev2.inv.uids)
          rw [e1] at hpop
          rw [h1.uid] at this
          have h3 : some (c2 :: r2) = some (c' :: rest') := by rw [← this]; exact hpop
          cases h3
          rw [e1]; simp
      obtain ⟨d0, _, hd0⟩ := List.mem_map.mp hmem
      by_cases hd : d0.uid = s.nextUid
      · rw [if_pos hd] at hd0; rw [← hd0]
      · rw [if_neg hd] at hd0
        have := hcc.uid
        rw [← hd0] at this
        exact absurd this hd
    have hne : rest' ≠ [] := hcr.ne hs.ne
    refine ⟨{ retSt s' t r s.nextUid with ctxs := rest' }, t, e, callUser_conv hfd hb hc1 ?_, ht, hq, rfl, rfl, rfl, rfl, ⟨rfl, rfl⟩, hcr, ?_⟩
    case refine_2 =>
      intro top c rest h1 h2
      have hu := ev2.inv.uids
      have hp := hpop
      simp only [retSt, h1] at hu hp
      refine popped (f := fun c => if c.uid = s.nextUid then { c with retval := r } else c) ?_ ?_ h2 hu hp
      · intro c; by_cases h : c.uid = s.nextUid <;> simp [h]
      · intro c h; simp [h]
    obtain ⟨N, hN⟩ := hconv
    refine ⟨N, fun n hn => ?_⟩
    have hN := hN n hn
    rw [hku]
    simp only [finish, bind_apply, runBody, hN, if_true]
    have hpop' : popTo s.nextUid (retSt s' t r s.nextUid).ctxs = some (c' :: rest') := hpop
    rw [hpop']
    simp only
    cases rest' with
    | nil => exact absurd rfl hne
    | cons y ys => simp [popCtx, hrv]

/-- a call whose body ends without `return` -/
theorem callUser_end {E : Env} {s s1 s' : St} {fd : TId} {args stmts callArgs : Ref} {name : String}
    (hs : Sane s) (hfd : s.nodes fd = some (.ident name)) (hb : Bound E (enterFn s name) args callArgs s1)
    (hx : Exec okLang (Evt E) (CondIs E) s1 (.body stmts) .next s') :
    Conv E (fun R => callUser R (some fd) args stmts callArgs) s (.ok none (leave s')) ∧
      CtxsEvol s.ctxs (leave s').ctxs := by
  have hsf := hs.enterFn name
  have ev := hb.evol hsf.inv
  obtain ⟨hs1, cs⟩ := hb.keep hsf
  obtain ⟨d, sc⟩ := exec_does hx hs1
  have cc := cs.trans sc.2
  cases hc1 : s1.ctxs with
  | nil => exact absurd hc1 hs1.ne
  | cons k ks =>
    have d : Conv E (fun R => evaluate R stmts) s1 (.ok () s') := d
    cases hc2 : s'.ctxs with
    | nil => exact absurd hc2 sc.1.ne
    | cons k' ks' =>
      rw [hc2] at cc
      have ct : CtxsEvol s.ctxs ks' := by cases cc with | cons _ h => exact h
      refine ⟨callUser_conv hfd hb hc1 ?_, by simpa [leave, hc2] using ct⟩
      obtain ⟨N, hN⟩ := d
      refine ⟨N, fun n hn => ?_⟩
      have hN := hN n hn
      simp only [finish, bind_apply, runBody, hN]
      cases hk : ks' with
      | nil => exact absurd hk (ct.ne hs.ne)
      | cons y ys => simp [popCtx, hc2, hk, leave]

/-- the call expression `i(args)` -/
theorem fnCall_conv {E : Env} {s : St} {t i f fd : TId} {args stmts callArgs ret : Ref} {o : Out Ref}
    (ht : s.nodes t = some (.fnCall (some i) callArgs)) (hi : Evl E s (some i) (some f) s)
    (hf : s.nodes f = some (.fn (some fd) args ret stmts)) (hst : stmts ≠ none)
    (h : Conv E (fun R => callUser R (some fd) args stmts callArgs) s o) : Conv E (fun R => R.ev (some t)) s o := by
  refine Conv.evNode ht ?_
  unfold evalNode evalFnCall
  refine Conv.bind hi (h.of_eq fun R => ?_)
  cases stmts with
  | none => exact absurd rfl hst
  | some b => simp [peek_apply hf, node_apply hf]

end Bic
