import Verif.Props.ForDecl
/-!
# C135: `for` loops with parts left out
-/

namespace Bic

/-- nothing is written where the part `p` of a `for` stands -/
def LeftOut (nd : TId → Option Node) (p : Ref) : Prop := p = none ∨ ∃ t, p = some t ∧ nd t = some .empty

/-- `p'` is `p`, or `p` is left out and `p'` is the constant `one` -/
def Filled (nd : TId → Option Node) (one : TId) (p p' : Ref) : Prop := p = p' ∨ (LeftOut nd p ∧ p' = some one)

/-- C135: a `for` whose first, second or third part is left out does exactly what the loop with the constant 1 in its place does. -/
def C135_statement : Prop :=
  ∀ (E : Env) (s : St) (t u one : TId) (i c a i' c' a' b : Ref) (o : Out Ref), Inv s → s.nodes one = some (.integer 1) →
    s.nodes t = some (.forS i c a b) → s.nodes u = some (.forS i' c' a' b) →
    Filled s.nodes one i i' → Filled s.nodes one c c' → Filled s.nodes one a a' →
    (Conv E (fun R => R.ev (some t)) s o ∧ o ≠ .fuel ↔ Conv E (fun R => R.ev (some u)) s o ∧ o ≠ .fuel)

/-- one round of a loop up to its third part; `none`: the loop ends -/
def forHead (R : Rec) (cond stmts : Ref) : M Ref := do
  let c ← R.ev cond
  let v ← convComparable R c
  if mpzGetSi v = 0 then pure none
  else do
    pushCtx "For Loop"
    evaluate R stmts
    let k ← curCtx
    if k.shouldBreak then pure none
    else do
      popCtx
      pure (some 0)

theorem loopFor_head (R : Rec) (c a b : Ref) (s : St) : loopForStep R c a b s =
    (forHead R c b >>= fun x => match x with
      | none => pure none
      | some _ => do let _ ← R.ev a; R.loopFor c a b) s := by
  unfold loopForStep forHead
  simp only [bind_apply]
  cases R.ev c s with
  | fuel => rfl
  | stop w s1 => rfl
  | ok r s1 =>
    simp only
    cases convComparable R r s1 with
    | fuel => rfl
    | stop w s2 => rfl
    | ok v s2 =>
      simp only
      by_cases hv : mpzGetSi v = 0
      · simp [hv]
      · simp only [hv, if_false, bind_apply]
        cases pushCtx "For Loop" s2 with
        | fuel => rfl
        | stop w s3 => rfl
        | ok r s3 =>
          simp only
          cases evaluate R b s3 with
          | fuel => rfl
          | stop w s4 => rfl
          | ok r s4 =>
            simp only
            cases curCtx s4 with
            | fuel => rfl
            | stop w s5 => rfl
            | ok k s5 =>
              simp only
              cases k.shouldBreak with
              | true => rfl
              | false =>
                simp only [Bool.false_eq_true, if_false, bind_apply]
                cases popCtx s5 <;> rfl

theorem mono_forHead (c b) : Lean.Order.monotone (fun R : Rec => forHead R c b) := by
  unfold forHead
  repeat' mono1

theorem pres_forHead {E : Env} {R : Rec} (hR : RPres E R) (c b) : Pres E (forHead R c b) := by
  unfold forHead
  refine Pres.bind (hR.ev _) fun _ => Pres.bind (pres_convComparable hR _) fun v => ?_
  split
  · exact Pres.pure _
  · exact fun s hi => loop_evol hi _ (pres_evaluate hR _) (Pres.pure _)

/-- what `s0` has and nothing changes is in `s` -/
def KeptNodes (s0 s : St) : Prop := ∀ t n, s0.nodes t = some n → mutKey n = none → s.nodes t = some n

theorem KeptNodes.evol {E : Env} {ok : Bool} {s0 s s' : St} (h : KeptNodes s0 s) (e : Evol E ok s s') : KeptNodes s0 s' := by
  intro t n hn hm
  obtain ⟨n', h1, h2⟩ := e.nodes t n (h t n hn hm)
  rcases h2 with rfl | ⟨_, h3⟩
  · exact h1
  · exact absurd hm h3

/-- evaluating the part `p` has no effect -/
def NoEffect (E : Env) (s0 : St) (p : Ref) : Prop := ∀ s, KeptNodes s0 s → ∃ r, Conv E (fun R => R.ev p) s (.ok r s)

theorem LeftOut.noEffect {E : Env} {s0 : St} {p : Ref} (h : LeftOut s0.nodes p) : NoEffect E s0 p := by
  intro s hs
  rcases h with rfl | ⟨t, rfl, ht⟩
  · exact ⟨none, Conv.ev (Conv.pure _)⟩
  · exact ⟨none, Conv.evNode (hs _ _ ht rfl) (Conv.pure _)⟩

theorem noEffect_int {E : Env} {s0 : St} {t : TId} {v : Int} (h : s0.nodes t = some (.integer v)) : NoEffect E s0 (some t) :=
  fun _ hs => ⟨some t, Conv.evNode (hs _ _ h rfl) (Conv.pure _)⟩

/-- the same part, or two parts without effect -/
def SamePart (E : Env) (s0 : St) (p p' : Ref) : Prop := p = p' ∨ (NoEffect E s0 p ∧ NoEffect E s0 p')

theorem SamePart.symm {E : Env} {s0 : St} {p p' : Ref} (h : SamePart E s0 p p') : SamePart E s0 p' p := by
  rcases h with rfl | ⟨h, h'⟩
  · exact .inl rfl
  · exact .inr ⟨h', h⟩

theorem Filled.same {E : Env} {s0 : St} {one : TId} {p p' : Ref} (ho : s0.nodes one = some (.integer 1)) (h : Filled s0.nodes one p p') :
    SamePart E s0 p p' := by
  rcases h with rfl | ⟨h, rfl⟩
  · exact .inl rfl
  · exact .inr ⟨h.noEffect, noEffect_int ho⟩

/-- going on after a part -/
theorem SamePart.conv {E : Env} {s0 s : St} {p p' : Ref} {o : Out Ref} {m : Nat} {G G' : Rec → M Ref} (h : SamePart E s0 p p') (hi : Inv s)
    (hk : KeptNodes s0 s) (ho : o ≠ .fuel) (he : (do let _ ← (run E m).ev p; G (run E m) : M Ref) s = o)
    (hG : ∀ s', Inv s' → KeptNodes s0 s' → G (run E m) s' = o → Conv E G' s' o) : Conv E (fun R => do let _ ← R.ev p'; G' R) s o := by
  rw [bind_apply] at he
  cases h1 : (run E m).ev p s with
  | fuel => rw [h1] at he; exact absurd he.symm ho
  | stop w s1 =>
    rw [h1] at he
    have hc : Conv E (fun R => R.ev p) s (.stop w s1) := Conv.of_run (mono_ev _) h1 nofun
    rcases h with rfl | ⟨h, _⟩
    · rw [← he]
      exact Conv.bind_stop hc
    · obtain ⟨r, h⟩ := h s hk
      cases hc.unique h
  | ok r s1 =>
    rw [h1] at he
    have hc : Conv E (fun R => R.ev p) s (.ok r s1) := Conv.of_run (mono_ev _) h1 nofun
    have e1 := hc.evol hi
    have hg := hG s1 e1.inv (hk.evol e1) he
    rcases h with rfl | ⟨h, h'⟩
    · exact Conv.bind (g := fun R _ => G' R) hc hg
    · obtain ⟨r1, h⟩ := h s hk
      obtain ⟨r2, h'⟩ := h' s hk
      have := hc.unique h
      injection this with _ this
      rw [this] at hg
      exact Conv.bind (g := fun R _ => G' R) h' hg

theorem loopFor_same {E : Env} {s0 : St} {a a' : Ref} (h : SamePart E s0 a a') (c b : Ref) : ∀ (n : Nat) (s : St) (o : Out Ref), Inv s → KeptNodes s0 s →
    o ≠ .fuel → (run E n).loopFor c a b s = o → Conv E (fun R => R.loopFor c a' b) s o := by
  intro n
  induction n with
  | zero => exact fun s o _ _ ho he => absurd he.symm ho
  | succ n ih =>
    intro s o hi hk ho he
    have he : loopForStep (run E n) c a b s = o := he
    rw [loopFor_head, bind_apply] at he
    refine Conv.loopFor (Conv.congr (f := fun R => forHead R c b >>= fun x => match x with
      | none => pure none
      | some _ => do let _ ← R.ev a'; R.loopFor c a' b) ?_ fun R => loopFor_head R c a' b s)
    cases h1 : forHead (run E n) c b s with
    | fuel => rw [h1] at he; exact absurd he.symm ho
    | stop w s1 =>
      rw [h1] at he
      rw [← he]
      exact Conv.bind_stop (Conv.of_run (mono_forHead c b) h1 nofun)
    | ok x s1 =>
      have hc : Conv E (fun R => forHead R c b) s (.ok x s1) := Conv.of_run (mono_forHead c b) h1 nofun
      have e1 := pres_forHead (run_pres E n) c b s hi
      rw [h1] at he e1
      refine Conv.bind (g := fun R x => match x with
        | none => pure none
        | some _ => do let _ ← R.ev a'; R.loopFor c a' b) hc ?_
      cases x with
      | none => exact Conv.const he
      | some y => exact h.conv (G := fun R => R.loopFor c a b) e1.inv (hk.evol e1) ho he fun s' hi' hk' he' => ih s' o hi' hk' ho he'

theorem for_same {E : Env} {s : St} {t u : TId} {i c a i' a' b : Ref} {o : Out Ref} (hi : Inv s) (ht : s.nodes t = some (.forS i c a b))
    (hu : s.nodes u = some (.forS i' c a' b)) (h1 : SamePart E s i i') (h2 : SamePart E s a a') (ho : o ≠ .fuel)
    (h : Conv E (fun R => R.ev (some t)) s o) : Conv E (fun R => R.ev (some u)) s o := by
  obtain ⟨n, h⟩ := h
  have h : (run E (n + 1)).ev (some t) s = o := h (n + 1) (by omega)
  have e1 : (run E (n + 1)).ev (some t) s = (do let _ ← (run E n).ev i; (run E n).loopFor c a b : M Ref) s := by
    show evStep E (run E n) (some t) s = _
    simp only [evStep, bind_apply, node_apply ht]
    rfl
  rw [e1] at h
  refine Conv.evNode hu ?_
  exact h1.conv (G := fun R => R.loopFor c a b) hi (fun _ _ h _ => h) ho h fun s' hi' hk' he' => loopFor_same h2 c b n s' o hi' hk' ho he'

/-- C135, the part that holds: the first and the third part. Missing is the second. -/
theorem C135_partial (E : Env) (s : St) (t u one : TId) (i c a i' a' b : Ref) (o : Out Ref) (hi : Inv s) (h1 : s.nodes one = some (.integer 1))
    (ht : s.nodes t = some (.forS i c a b)) (hu : s.nodes u = some (.forS i' c a' b)) (fi : Filled s.nodes one i i') (fa : Filled s.nodes one a a') :
    Conv E (fun R => R.ev (some t)) s o ∧ o ≠ .fuel ↔ Conv E (fun R => R.ev (some u)) s o ∧ o ≠ .fuel :=
  ⟨fun h => ⟨for_same hi ht hu (fi.same h1) (fa.same h1) h.2 h.1, h.2⟩,
    fun h => ⟨for_same hi hu ht (fi.same h1).symm (fa.same h1).symm h.2 h.1, h.2⟩⟩

/-- C135, the second part: every loop whose condition is left out reads a null pointer before its body, when its first part has ended. -/
theorem C135_cond (E : Env) (s s1 : St) (t : TId) (i c a b r : Ref) (hi : Inv s) (ht : s.nodes t = some (.forS i c a b)) (hc : LeftOut s.nodes c)
    (h : Conv E (fun R => R.ev i) s (.ok r s1)) : Conv E (fun R => R.ev (some t)) s (.stop (.ub "TYPE of NULL") s1) := by
  have e : Evol E true s s1 := h.evol hi
  have hk : KeptNodes s s1 := KeptNodes.evol (fun _ _ h _ => h) e
  have hn : Conv E (fun R => R.ev c) s1 (.ok none s1) := by
    rcases hc with rfl | ⟨e, rfl, he⟩
    · exact Conv.ev (Conv.pure _)
    · exact Conv.evNode (hk _ _ he rfl) (Conv.pure _)
  have h0 : Conv E (fun R => R.ev none) s1 (.ok none s1) := Conv.ev (Conv.pure _)
  refine Conv.evNode ht (Conv.bind (g := fun R _ => R.loopFor c a b) h (Conv.loopFor ?_))
  unfold loopForStep
  refine Conv.bind hn (Conv.bind_stop ?_)
  exact Conv.bind (g := fun R x => _) h0 (Conv.const rfl)

/-- `for (;;) break;`, `for (1; 1; 1) break;`, `for (x = 0; x < 3; ) x++;` and `for (x = 0; x < 3; 1) x++;` -/
def stForParts : St :=
  stOf [.ident "x", .ctype .int none, .lv (some 1) 4096 false 0, .empty, .integer 1, .brk, .forS (some 3) (some 3) none (some 5),
        .forS (some 4) (some 4) (some 4) (some 5), .integer 0, .integer 3, .assign (some 0) (some 8), .cmp .lt (some 0) (some 9), .pInc (some 0),
        .forS (some 10) (some 11) none (some 12), .forS (some 10) (some 11) (some 4) (some 12)] [⟨"x", 0, some 2⟩] [0, 0, 0, 0]

/-- C135 is false: `for (;;) break;` reads a null pointer, and `for (1; 1; 1) break;` ends. -/
theorem C135_refuted : ¬ C135_statement := by
  intro h
  have h1 := C135_cond E0 stForParts stForParts 6 (some 3) (some 3) none (some 5) none (stOf_Inv _ _ _) rfl (.inr ⟨3, rfl, rfl⟩)
    (Conv.evNode (nd := .empty) rfl (Conv.pure _))
  have h2 := ((h E0 stForParts 6 7 4 _ _ _ _ _ _ _ _ (stOf_Inv _ _ _) rfl rfl rfl (.inr ⟨.inr ⟨3, rfl, rfl⟩, rfl⟩) (.inr ⟨.inr ⟨3, rfl, rfl⟩, rfl⟩)
    (.inr ⟨.inl rfl, rfl⟩)).mp ⟨h1, nofun⟩).1
  have h3 : Conv E0 (fun R => R.ev (some 7)) stForParts (.ok none (outSt stForParts ((run E0 30).ev (some 7) stForParts))) :=
    Conv.computed 30 (by decide +kernel)
  cases h2.unique h3

/-- `for (x = 0; x < 3; ) x++;` does what `for (x = 0; x < 3; 1) x++;` does, and it ends with 3 in `x` -/
example : ∃ s', Conv E0 (fun R => R.ev (some 14)) stForParts (.ok none s') ∧ s'.mem.load 4 4096 = 3 :=
  ⟨outSt stForParts ((run E0 60).ev (some 13) stForParts),
    ((C135_partial E0 stForParts 13 14 4 _ _ _ _ _ _ _ (stOf_Inv _ _ _) rfl rfl rfl (.inl rfl) (.inr ⟨.inl rfl, rfl⟩)).mp
      ⟨Conv.computed 60 (by decide +kernel), nofun⟩).1, by decide +kernel⟩

end Bic
