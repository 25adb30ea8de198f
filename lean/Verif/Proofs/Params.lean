import Verif.Proofs.Prog
/-!
# Calls of functions on integers
-/

namespace Bic
open Spec

/-- `t` is a call of a function with the parameters `ps` and the body `b` with the
arguments `es` -/
structure CallTo (E : Env) (s : St) (t : TId) (ps : List (CT × String)) (es : List Expr) (b : Ref) : Prop where
  call : ∃ i f fd name args callArgs ret, s.nodes t = some (.fnCall (some i) callArgs) ∧ Evl E s (some i) (some f) s ∧
    s.nodes f = some (.fn (some fd) args ret b) ∧ s.nodes fd = some (.ident name) ∧ b ≠ none ∧
    ((args = none ∧ callArgs = none ∧ ps = [] ∧ es = []) ∨
     ∃ ad ca ds as, args = some ad ∧ callArgs = some ca ∧ s.nodes ad = some (.chain ds) ∧ s.nodes ca = some (.chain as) ∧
       ParamsRep s.nodes ds ps ∧ ArgsRep s.nodes as es)

theorem Denotes.retNode {s : St} {t r q : TId} {e : Ref} {v : Int} (h : Denotes s r v) (ht : s.nodes t = some (.ret e)) (s' : St)
    (hn : s'.nodes = (retNode s t (some q)).nodes) (hm : s'.mem = s.mem) : Denotes s' r v := by
  have key : ∀ x n, s.nodes x = some n → (∀ e, n ≠ .ret e) → s'.nodes x = some n := by
    intro x n hx hne
    rw [hn]
    by_cases h : x = t
    · subst h; rw [ht] at hx; cases hx; exact absurd rfl (hne _)
    · simp [Bic.retNode, h, hx]
  rcases h with h | ⟨c, w, ⟨τ, a, ⟨⟨arr, sz, h1⟩, ⟨e, h2⟩, h3, h4⟩, h5⟩, h6⟩
  · exact .inl (key _ _ h (by simp))
  · exact .inr ⟨c, w, ⟨τ, a, ⟨⟨arr, sz, key _ _ h1 (by simp)⟩, ⟨e, key _ _ h2 (by simp)⟩, h3, by rw [hm]; exact h4⟩,
      by rw [hm]; exact h5⟩, h6⟩

/-- A call whose body returns the value `v`, once the parameters are bound. -/
theorem bound_return {E : Env} {s s1 : St} {σ σ' : Store} {t i f fd : TId} {name : String} {args callArgs ret : Ref} {b fr fr' p v n m} (hs : Sane s)
    (hne0 : s.ctxs ≠ []) (c1 : s.nodes t = some (.fnCall (some i) callArgs)) (c2 : Evl E s (some i) (some f) s)
    (c3 : s.nodes f = some (.fn (some fd) args ret b)) (c4 : s.nodes fd = some (.ident name)) (c5 : b ≠ none)
    (b1 : Bound E (enterFn s name) args callArgs s1) (b2 : Good s1 (fr :: σ) (n + m)) (b3 : Kept s s1) (b4 : uids s1 = s.nextUid :: uids s)
    (hr : SRep s.nodes (.body b) p) (hrun : Run okRules (fr :: σ) p (.ret v) (fr' :: σ') n) :
    ∃ r s', Evl E s (some t) (some r) s' ∧ Denotes s' r v ∧ Good s' σ' m ∧ Sane s' ∧ uids s' = uids s ∧ KeptX s s' := by
  obtain ⟨r, s', top, base, x1, x2, x3, x4, x5, x6⟩ := run_ended (E := E) hrun (hr.mono b3) b2
  obtain ⟨s'', q, e, y1, y2, _, y3, y4, y5, _, ⟨_, hinc⟩, _, y9⟩ := callUser_return (stable_any E) hs c4 b1 x1
  have hev : Evl E s (some t) (some r) s'' := fnCall_conv c1 c2 c3 c5 y1
  rw [b4] at x4
  cases base with
  | nil => simp at x4
  | cons c rest =>
    simp only [List.map_cons, List.cons.injEq] at x4
    have hctx := y9 top c rest x3 x4.1
    have hkx : KeptX s' s'' := by
      intro x k hx hne
      rw [y3]
      by_cases h : x = q
      · subst h; rw [y2] at hx; cases hx; exact absurd rfl (hne _)
      · simp [retNode, h, hx]
    have hne : rest ≠ [] := by
      intro h
      have h2 := x4.2
      rw [h] at h2
      exact hne0 (List.map_eq_nil_iff.mp h2.symm)
    have hrel : Rel s'' σ' := by
      obtain ⟨as, z1, z2⟩ := x5.rel
      have z1 : StoreRel (onBase s' (c :: rest)) (fr' :: σ') (c :: (rest ++ s'.includeCtx.toList)) as := z1
      cases z1 with
      | cons z3 z4 =>
        refine ⟨_, ?_, (List.pairwise_append.mp z2).2.1⟩
        rw [show lookups s'' = rest ++ s'.includeCtx.toList by simp only [lookups, hctx, hinc]]
        exact z4.map rfl fun t c' v a _ h => VarAt.keptX (s := onBase s' (c :: rest)) h hkx y5
    have hflags : ∀ c ∈ s''.ctxs, c.shouldBreak = false := by
      intro d hd
      rw [hctx] at hd
      exact x5.flags d (List.mem_cons_of_mem _ hd)
    have hwf : WF s'' := (Conv.evol hev hs.inv).inv.wf
    have hroom : Room s'' m := ⟨by rw [y5]; exact x5.room.brk, by rw [hctx]; exact hne, by rw [y5]; exact x5.room.livelt⟩
    refine ⟨r, s'', hev, x2.retNode y2 s'' y3 y5, ⟨hwf, hflags, hroom, hrel⟩, evl_sane hev hs hflags hroom.ctxs, ?_, ?_⟩
    · unfold uids; rw [hctx]; exact x4.2
    · intro x k hx hne
      exact hkx _ _ (x6 _ _ (b3 _ _ hx)) hne

/-- A call whose body returns the value `v`. -/
theorem call_conv {E : Env} {s : St} {σ σ' : Store} {t : TId} {ps es b fr fr' p v n m} (hs : Sane s)
    (g : Good s σ (ps.length + (n + m))) (hc : CallTo E s t ps es b) (hP : Params okRules σ ps es fr) (hav : Avoid [] ps es)
    (hnd : fr.names.Nodup) (hr : SRep s.nodes (.body b) p) (hrun : Run okRules (fr :: σ) p (.ret v) (fr' :: σ') n) :
    ∃ r s', Evl E s (some t) (some r) s' ∧ Denotes s' r v ∧ Good s' σ' m ∧ Sane s' ∧ uids s' = uids s ∧ KeptX s s' := by
  obtain ⟨i, f, fd, name, args, callArgs, ret, c1, c2, c3, c4, c5, c6⟩ := hc.call
  obtain ⟨s1, b1, b2, b3, b4⟩ := bound_conv (E := E) (name := name) g hP hav hnd c6
  exact bound_return hs g.room.ctxs c1 c2 c3 c4 c5 b1 b2 b3 b4 hr hrun

/-- A call whose body ends without `return`, once the parameters are bound. -/
theorem bound_end {E : Env} {s s1 : St} {σ σ' : Store} {t i f fd : TId} {name : String} {args callArgs ret : Ref} {b fr fr' p n m} (hs : Sane s)
    (hne0 : s.ctxs ≠ []) (c1 : s.nodes t = some (.fnCall (some i) callArgs)) (c2 : Evl E s (some i) (some f) s)
    (c3 : s.nodes f = some (.fn (some fd) args ret b)) (c4 : s.nodes fd = some (.ident name)) (c5 : b ≠ none)
    (b1 : Bound E (enterFn s name) args callArgs s1) (b2 : Good s1 (fr :: σ) (n + m)) (b3 : Kept s s1) (b4 : uids s1 = s.nextUid :: uids s)
    (hr : SRep s.nodes (.body b) p) (hrun : Run okRules (fr :: σ) p .next (fr' :: σ') n) :
    ∃ s', Evl E s (some t) none s' ∧ Good s' σ' m ∧ Sane s' ∧ uids s' = uids s ∧ Kept s s' := by
  obtain ⟨s', x1, x2, x3, x4⟩ := run_ended (E := E) hrun (hr.mono b3) b2
  obtain ⟨y1, y2⟩ := callUser_end hs c4 b1 (x1 _)
  have hev : Evl E s (some t) none (leave s') := fnCall_conv c1 c2 c3 c5 y1
  obtain ⟨g1, u1⟩ := good_out (s := s) (s1 := s) (nm := "") x2 (by rw [x4, b4]; rfl) hne0 rfl
  exact ⟨leave s', hev, g1, evl_sane hev hs g1.flags g1.room.ctxs, u1, b3.trans x3⟩

/-- A call whose body ends without `return`. -/
theorem call_end {E : Env} {s : St} {σ σ' : Store} {t : TId} {ps es b fr fr' p n m} (hs : Sane s)
    (g : Good s σ (ps.length + (n + m))) (hc : CallTo E s t ps es b) (hP : Params okRules σ ps es fr) (hav : Avoid [] ps es)
    (hnd : fr.names.Nodup) (hr : SRep s.nodes (.body b) p) (hrun : Run okRules (fr :: σ) p .next (fr' :: σ') n) :
    ∃ s', Evl E s (some t) none s' ∧ Good s' σ' m ∧ Sane s' ∧ uids s' = uids s ∧ Kept s s' := by
  obtain ⟨i, f, fd, name, args, callArgs, ret, c1, c2, c3, c4, c5, c6⟩ := hc.call
  obtain ⟨s1, b1, b2, b3, b4⟩ := bound_conv (E := E) (name := name) g hP hav hnd c6
  exact bound_end hs g.room.ctxs c1 c2 c3 c4 c5 b1 b2 b3 b4 hr hrun

/-- A call whose body ends with `return;`, once the parameters are bound. -/
theorem bound_left {E : Env} {s s1 : St} {σ σ' : Store} {t i f fd : TId} {name : String} {args callArgs ret : Ref} {b fr fr' p n m} (hs : Sane s)
    (hne0 : s.ctxs ≠ []) (c1 : s.nodes t = some (.fnCall (some i) callArgs)) (c2 : Evl E s (some i) (some f) s)
    (c3 : s.nodes f = some (.fn (some fd) args ret b)) (c4 : s.nodes fd = some (.ident name)) (c5 : b ≠ none)
    (b1 : Bound E (enterFn s name) args callArgs s1) (b2 : Good s1 (fr :: σ) (n + m)) (b3 : Kept s s1) (b4 : uids s1 = s.nextUid :: uids s)
    (hr : SRep s.nodes (.body b) p) (hrun : Run okRules (fr :: σ) p .left (fr' :: σ') n) :
    ∃ s', Evl E s (some t) none s' ∧ Good s' σ' m ∧ Sane s' ∧ uids s' = uids s ∧ Kept s s' := by
  obtain ⟨s', top, base, x1, x3, x4, x5, x6⟩ := run_ended (E := E) hrun (hr.mono b3) b2
  obtain ⟨s'', y1, y2, y3, y4⟩ := callUser_left hs c4 b1 x1 x3 (by rw [x4, b4]) hne0 x5
  have hev : Evl E s (some t) none s'' := fnCall_conv c1 c2 c3 c5 y1
  have g1 := y2 (Conv.evol hev hs.inv).inv.wf
  exact ⟨s'', hev, g1, evl_sane hev hs g1.flags g1.room.ctxs, y4, fun t n hn => by rw [y3]; exact x6 _ _ (b3 _ _ hn)⟩

/-- A call whose body ends with `return;`. -/
theorem call_left {E : Env} {s : St} {σ σ' : Store} {t : TId} {ps es b fr fr' p n m} (hs : Sane s)
    (g : Good s σ (ps.length + (n + m))) (hc : CallTo E s t ps es b) (hP : Params okRules σ ps es fr) (hav : Avoid [] ps es)
    (hnd : fr.names.Nodup) (hr : SRep s.nodes (.body b) p) (hrun : Run okRules (fr :: σ) p .left (fr' :: σ') n) :
    ∃ s', Evl E s (some t) none s' ∧ Good s' σ' m ∧ Sane s' ∧ uids s' = uids s ∧ Kept s s' := by
  obtain ⟨i, f, fd, name, args, callArgs, ret, c1, c2, c3, c4, c5, c6⟩ := hc.call
  obtain ⟨s1, b1, b2, b3, b4⟩ := bound_conv (E := E) (name := name) g hP hav hnd c6
  exact bound_left hs g.room.ctxs c1 c2 c3 c4 c5 b1 b2 b3 b4 hr hrun

end Bic
