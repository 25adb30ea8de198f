import Verif.Proofs.Calls
/-!
# C30–C33, C43: statements
-/

namespace Bic
open Spec

theorem stOf_Sane (l : List Node) (ids : List Binding) (bs : List Byte) : Sane (stOf l ids bs) where
  inv := stOf_Inv l ids bs
  flags c hc := by obtain rfl : c = ctx1 ids := by simpa [stOf] using hc
                   rfl
  ne := by simp [stOf]

/-- a computed evaluation during which no loop is left -/
theorem evTo_tidy (n : Nat) (t : TId) (s : St) (r : Ref) (hok : isOk ((run E0 n).ev (some t) s) = true)
    (hr : outRef ((run E0 n).ev (some t) s) = r) (hl : (evTo n t s).ctxs.length = s.ctxs.length)
    (hf : ∀ c ∈ (evTo n t s).ctxs, c.shouldBreak = false) : Evt E0 s (some t) r (evTo n t s) :=
  ⟨evTo_conv n t s r hok hr, hl, hf⟩

theorem int_tidy {E : Env} {s : St} {t : TId} {v : Int} (ht : s.nodes t = some (.integer v))
    (hf : ∀ c ∈ s.ctxs, c.shouldBreak = false) : Evt E s (some t) (some t) s :=
  ⟨Conv.evNode ht (Conv.pure _), rfl, hf⟩

/-- statements without `break` whose conditions may have any value -/
def truthLang : Lang := ⟨cTruth, False, fun _ => True, False, False⟩

/-! ## C33 -/

/-- C33 in full: `if` does what C says for every value of its condition -/
def C33_statement : Prop :=
  ∀ (E : Env) (s s' : St) (t c : TId) (x y : Ref), Sane s → s.nodes t = some (.ifS (some c) x y) →
    Exec truthLang (Evt E) (CondIs E) s (.stmt t) .next s' →
    ∃ r, Conv E (fun R => R.ev (some t)) s (.ok r s')

/-- C33 for the values that are not a positive multiple of 2^63: whatever the
branches are, `if` executes the one C selects, in a scope of its own; if the branch
is left by `return`, so is the `if`. -/
theorem C33_if_partial (E : Env) (s s1 s' : St) (t c : TId) (x y : Ref) (v : Int) (b : Bool) (f : Flow) (hs : Sane s)
    (ht : s.nodes t = some (.ifS (some c) x y)) (hc : CondIs E s c v s1) (hv : cTruth v b)
    (hm : 0 < v → v % 2 ^ 63 ≠ 0)
    (hx : Exec okLang (Evt E) (CondIs E) (enter s1 "If statement") (.body (if b then x else y)) f s') :
    (f = .next → Conv E (fun R => R.ev (some t)) s (.ok none (leave s'))) ∧
    (∀ r, f = .ret r → Returns E AnyReturn (fun R => R.ev (some t)) s r s') := by
  have h : Exec okLang (Evt E) (CondIs E) s (.stmt t) f (close f s') :=
    .cond (L := okLang) ht hc (show okTruth v b from ⟨hv, hm⟩) hx
  obtain ⟨d, sc⟩ := exec_does h hs
  refine ⟨?_, ?_⟩
  · rintro rfl
    obtain ⟨r, hr, _⟩ := d
    have : ∃ r', r = r' := ⟨r, rfl⟩
    -- the result of `if` is always NULL
    obtain ⟨s2, hs2⟩ : ∃ s2, Conv E (fun R => R.ev (some t)) s (.ok none s2) := by
      have hs1 := (hc.keep hs).1
      obtain ⟨d2, sc2⟩ := exec_does hx (hs1.enter _)
      obtain ⟨_, _, hpop, _⟩ := hs1.leave sc2.1 sc2.2
      have d2 : Conv E (fun R => evaluate R (if b then x else y)) (enter s1 "If statement") (.ok () s') := d2
      refine ⟨leave s', Conv.evNode ht ?_⟩
      unfold evalNode evalIf
      refine Conv.bind hc.conv ?_
      have h2 := Conv.bind (g := fun R _ => (do popCtx; pure none : M Ref)) d2
        (Conv.fixed (o := .ok none (leave s')) fun R => by simp [hpop])
      refine h2.of_eq fun R => ?_
      have hz := mpzGetSi_truth (x := v) (b := b) ⟨hv, hm⟩
      have hb : (if mpzGetSi v = 0 then evaluate R y else evaluate R x) = evaluate R (if b then x else y) := by
        cases b
        · rw [if_pos (hz.mpr rfl)]; rfl
        · rw [if_neg (fun h => by cases hz.mp h)]; rfl
      rw [hb]; rfl
    have := Conv.unique hr hs2
    cases this
    exact hr
  · rintro r rfl
    rcases d with ⟨e, _, h1, _⟩ | ⟨_, h⟩
    · rw [ht] at h1; cases h1
    · exact h

/-- C33, `!`: on every integer value of the operand it is 1 for zero and 0 for all
others, so it has a truth value and `if` agrees with it. -/
theorem C33_not (E : Env) (s : St) (t c : TId) (v : Int) (w : WF s) (ht : s.nodes t = some (.negate (some c)))
    (hc : EvalsTo E s c v) : ∃ u, EvalsTo E s t u ∧ (cTruth u true ↔ v = 0) ∧ (cTruth u false ↔ v ≠ 0) ∧
      ∀ b, cTruth u b → okTruth u b := by
  obtain ⟨l', s1, c1, x1, d1⟩ := hc
  obtain ⟨s2, c2, x2⟩ := convComparable_conv (d1.ev (E := E)) (x1.wf w) d1
  refine ⟨if v = 0 then 1 else 0, EvalsTo.ofInt w (x1.trans x2) ?_, ?_, ?_, ?_⟩
  · exact Conv.evNode ht (Conv.bind c1 (Conv.bind c2 (Conv.const rfl)))
  · split <;> simp_all [cTruth]
  · split <;> simp_all [cTruth]
  · intro b hb
    refine ⟨hb, ?_⟩
    split <;> simp

/-- `if (2^63) x = 5;` -/
def stBigIf : St :=
  stOf [.ident "x", .ctype .int none, .lv (some 1) 4096 false 0, .integer 5, .assign (some 0) (some 3), .integer (2 ^ 63),
        .ifS (some 5) (some 4) none, .integer 7, .ifS (some 7) (some 4) none] [⟨"x", 0, some 2⟩] [1, 0, 0, 0]

def stBigIf1 : St := evTo 10 4 (enter stBigIf "If statement")

theorem stBigIf_body : Exec okLang (Evt E0) (CondIs E0) (enter stBigIf "If statement") (.body (some 4)) .next stBigIf1 :=
  .single (n := .assign (some 0) (some 3)) rfl rfl (fun h => by cases h)
    (.expr (n := .assign (some 0) (some 3)) (r := some 3) rfl rfl
      (evTo_tidy 10 4 _ _ (by decide +kernel) (by decide +kernel) (by decide +kernel) (by decide +kernel))
      (fun t h => ⟨.integer 5, by cases h; decide +kernel, rfl⟩))

theorem stBigIf_flags : ∀ c ∈ stBigIf.ctxs, c.shouldBreak = false := (stOf_Sane _ _ _).flags

example : Conv E0 (fun R => R.ev (some 8)) stBigIf (.ok none (leave stBigIf1)) :=
  (C33_if_partial E0 stBigIf stBigIf stBigIf1 8 7 (some 4) none 7 true .next (stOf_Sane _ _ _) rfl
    ⟨7, stBigIf, int_tidy rfl stBigIf_flags, .inl ⟨rfl, rfl⟩⟩ (by simp [cTruth]) (by decide) stBigIf_body).1 rfl

theorem Spec.Exec.mono {L L' : Lang} {Ev Cd} (ht : ∀ v b, L.truth v b → L'.truth v b) (hb : L.brk → L'.brk)
    (hr : ∀ e, L.ret e → L'.ret e) (hsi : L.single → L'.single) (hn : L.nested → L'.nested) {s k f s'}
    (h : Exec L Ev Cd s k f s') : Exec L' Ev Cd s k f s' := by
  induction h with
  | expr h1 h2 h3 h4 => exact .expr h1 h2 h3 h4
  | brk h1 h2 => exact .brk (hb h1) h2
  | ret h1 h2 h3 => exact .ret (hr _ h1) h2 h3
  | nested h1 h2 _ ih => exact .nested (hn h1) h2 ih
  | cond h1 h2 h3 _ ih => exact .cond h1 h2 (ht _ _ h3) ih
  | whileS h1 _ ih => exact .whileS h1 ih
  | forS h1 h2 h3 h4 _ ih => exact .forS h1 h2 h3 h4 ih
  | stop h1 h2 => exact .stop h1 (ht _ _ h2)
  | round h1 h2 _ _ ih1 ih2 => exact .round h1 (ht _ _ h2) ih1 ih2
  | roundFor h1 h2 _ h3 _ ih1 ih2 => exact .roundFor h1 (ht _ _ h2) ih1 h3 ih2
  | left h1 h2 _ ih => exact .left h1 (ht _ _ h2) ih
  | returned h1 h2 _ ih => exact .returned h1 (ht _ _ h2) ih
  | nil => exact .nil
  | cons _ _ ih1 ih2 => exact .cons ih1 ih2
  | jump h1 _ ih => exact .jump h1 ih
  | none => exact .none
  | braces h1 _ ih => exact .braces h1 ih
  | single h1 h2 h3 _ ih => exact .single h1 h2 (fun h => hsi (h3 h)) ih

/-- C33 in full is false: `if (9223372036854775808) x = 5;` leaves `x` alone. -/
theorem C33_refuted : ¬ C33_statement := by
  intro h
  have hx : Exec truthLang (Evt E0) (CondIs E0) stBigIf (.stmt 6) .next (leave stBigIf1) :=
    .cond (v := 2 ^ 63) (b := true) (f := .next) (s1 := stBigIf) (c := 5) (x := some 4) (y := none) rfl
      ⟨5, stBigIf, int_tidy rfl stBigIf_flags, .inl ⟨rfl, rfl⟩⟩ (by simp [truthLang, cTruth])
      (stBigIf_body.mono (L := okLang) (L' := truthLang) (fun _ _ (h : okTruth _ _) => h.1) id (fun _ => id) id id)
  obtain ⟨r, hr⟩ := h E0 stBigIf _ 6 5 (some 4) none (stOf_Sane _ _ _) rfl hx
  have := evTo_unique 20 (by decide +kernel) hr
  have h1 : (leave stBigIf1).mem.byte 4096 = (evTo 20 6 stBigIf).mem.byte 4096 := by rw [this]
  exact absurd h1 (by decide +kernel)

/-! ## C32 -/

/-- C32 in full, for `while` and `for` -/
def C32_statement : Prop :=
  ∀ (E : Env) (s s' : St) (t : TId), Sane s →
    ((∃ c b, s.nodes t = some (.whileS (some c) b)) ∨ (∃ i c a b, s.nodes t = some (.forS (some i) (some c) a b))) →
    Exec truthLang (Evt E) (CondIs E) s (.stmt t) .next s' →
    ∃ r, Conv E (fun R => R.ev (some t)) s (.ok r s')

/-- C32 where no condition is a positive multiple of 2^63: a loop that according to C
ends after some number of rounds does just those rounds. -/
theorem C32_loops_partial (E : Env) (s s' : St) (t : TId) (hs : Sane s)
    (h : Exec okLang (Evt E) (CondIs E) s (.stmt t) .next s') : ∃ r, Conv E (fun R => R.ev (some t)) s (.ok r s') := by
  obtain ⟨⟨r, hr, _⟩, _⟩ := exec_does h hs
  exact ⟨r, hr⟩

/-- one round of `while (c) b`: the condition is not zero, the body is executed -/
def Round (E : Env) (c : TId) (b : Ref) (s s' : St) : Prop :=
  ∃ r v s1 s2 s3, Evl E s (some c) r s1 ∧ Conv E (fun R => convComparable R r) s1 (.ok v s2) ∧ v ≠ 0 ∧
    Conv E (fun R => evaluate R b) (enter s2 "While Loop") (.ok () s3) ∧ s' = leave s3

/-- any number of rounds -/
inductive Rounds (E : Env) (c : TId) (b : Ref) : St → St → Prop
  | none {s} : Rounds E c b s s
  | more {s s1 s'} : Round E c b s s1 → Rounds E c b s1 s' → Rounds E c b s s'

/-- C32, the other direction: a `while` loop that ends does so after some number of
rounds with non-zero condition; then either its condition was zero (or a positive
multiple of 2^63) or the body had set the flag of `break`. -/
theorem C32_only_partial (E : Env) (s s' : St) (t c : TId) (b r : Ref) (ht : s.nodes t = some (.whileS (some c) b))
    (h : Conv E (fun R => R.ev (some t)) s (.ok r s')) :
    ∃ s1, Rounds E c b s s1 ∧ ∃ q v s2 s3, Evl E s1 (some c) q s2 ∧
      Conv E (fun R => convComparable R q) s2 (.ok v s3) ∧
      (((v = 0 ∨ (0 < v ∧ v % 2 ^ 63 = 0)) ∧ s' = s3) ∨
       (v ≠ 0 ∧ Conv E (fun R => evaluate R b) (enter s3 "While Loop") (.ok () s') ∧
        ∃ k ks, s'.ctxs = k :: ks ∧ k.shouldBreak = true)) := by
  obtain ⟨N, hN⟩ := h
  have h1 : (run E (N + 1)).ev (some t) s = .ok r s' := hN _ (Nat.le_succ N)
  have h2 : (run E N).loopWhile (some c) b s = .ok r s' := by
    have e : (run E (N + 1)).ev (some t) s = (run E N).loopWhile (some c) b s := by
      show evStep E (run E N) (some t) s = _
      simp [evStep, node_apply ht, evalNode]
    rw [← e]; exact h1
  clear h1 hN ht
  induction N generalizing s with
  | zero => cases h2
  | succ n ih =>
    have h3 : loopWhileStep (run E n) (some c) b s = .ok r s' := h2
    unfold loopWhileStep at h3
    simp only [bind_apply] at h3
    cases hc : (run E n).ev (some c) s with
    | stop w s1 => rw [hc] at h3; cases h3
    | fuel => rw [hc] at h3; cases h3
    | ok q s1 =>
      rw [hc] at h3
      simp only at h3
      have hc' : Evl E s (some c) q s1 := Conv.of_run (mono_ev _) hc (by simp)
      cases hv : convComparable (run E n) q s1 with
      | stop w s2 => rw [hv] at h3; cases h3
      | fuel => rw [hv] at h3; cases h3
      | ok v s2 =>
        rw [hv] at h3
        simp only at h3
        have hv' : Conv E (fun R => convComparable R q) s1 (.ok v s2) := Conv.of_run (mono_convComparable _) hv (by simp)
        by_cases hz : mpzGetSi v = 0
        · rw [if_pos hz] at h3
          simp only [pure_apply, Out.ok.injEq] at h3
          refine ⟨s, .none, q, v, s1, s2, hc', hv', .inl ⟨?_, h3.2.symm⟩⟩
          rw [mpzGetSi_eq_zero] at hz
          omega
        · rw [if_neg hz] at h3
          have hv0 : v ≠ 0 := by rintro rfl; exact hz (by decide)
          have h4 : ((evaluate (run E n) b >>= fun _ => curCtx >>= fun k =>
            if k.shouldBreak then pure none else (popCtx >>= fun _ => (run E n).loopWhile (some c) b)) : M Ref)
            (enter s2 "While Loop") = .ok r s' := h3
          rw [bind_apply] at h4
          cases hb : evaluate (run E n) b (enter s2 "While Loop") with
          | stop w s3 => rw [hb] at h4; cases h4
          | fuel => rw [hb] at h4; cases h4
          | ok u s3 =>
            rw [hb] at h4
            simp only at h4
            have hb' : Conv E (fun R => evaluate R b) (enter s2 "While Loop") (.ok () s3) :=
              Conv.of_run (mono_evaluate _) hb (by simp)
            rw [bind_apply] at h4
            cases hk : s3.ctxs with
            | nil => simp [curCtx, hk] at h4
            | cons k ks =>
              simp only [curCtx, hk] at h4
              by_cases hkb : k.shouldBreak = true
              · rw [if_pos hkb] at h4
                simp only [pure_apply, Out.ok.injEq] at h4
                obtain ⟨_, rfl⟩ := h4
                exact ⟨s, .none, q, v, s1, s2, hc', hv', .inr ⟨hv0, hb', k, ks, hk, hkb⟩⟩
              · rw [if_neg hkb, bind_apply] at h4
                have hpop : popCtx s3 = .ok () (leave s3) := by
                  cases ks with
                  | nil => simp [popCtx, hk] at h4
                  | cons y ys => simp [popCtx, hk, leave]
                rw [hpop] at h4
                obtain ⟨s4, hr, rest⟩ := ih _ h4
                exact ⟨s4, .more ⟨q, v, s1, s2, s3, hc', hv', hv0, hb', rfl⟩ hr, rest⟩

/-- `while (x) x = 0;` and `while (x << 62) x = 0;`, `x` being 2 -/
def stLoop : St :=
  stOf [.ident "x", .ctype .int none, .lv (some 1) 4096 false 0, .integer 0, .assign (some 0) (some 3),
        .whileS (some 0) (some 4), .integer 62, .bin .lshift (some 0) (some 6), .whileS (some 7) (some 4)]
    [⟨"x", 0, some 2⟩] [2, 0, 0, 0]

/-- the states of `while (c) x = 0;`: condition, body, condition -/
def loopA (c : TId) : St := evTo 10 c stLoop
def loopB (s : St) : St := leave (evTo 10 4 (enter s "While Loop"))

theorem loop_ex (L : Lang) (c : TId) (v : Int) (s1 s2 : St)
    (h1 : CondIs E0 stLoop c v s1) (hv : L.truth v true) (hz : L.truth 0 false)
    (hn1 : s1.nodes 4 = some (.assign (some 0) (some 3)))
    (he : Evt E0 (enter s1 "While Loop") (some 4) (some 3) (evTo 10 4 (enter s1 "While Loop")))
    (hj : (evTo 10 4 (enter s1 "While Loop")).nodes 3 = some (.integer 0))
    (h2 : CondIs E0 (loopB s1) c 0 s2) : Exec L (Evt E0) (CondIs E0) stLoop (.loop c none (some 4)) .next s2 :=
  .round h1 hv
    (.single (n := .assign (some 0) (some 3)) hn1 rfl (fun h => by cases h)
      (.expr (n := .assign (some 0) (some 3)) (r := some 3) hn1 rfl he (fun t h => ⟨.integer 0, by cases h; exact hj, rfl⟩)))
    (.stop h2 hz)

def stLoop1 : St := addNode stLoop (.integer 2)
def stLoop2 : St := addNode (loopB stLoop1) (.integer 0)

theorem stLoop_var : Holds stLoop 2 .int 2 :=
  ⟨1, 4096, ⟨⟨false, 0, rfl⟩, ⟨none, rfl⟩, .inl (by decide), by decide⟩, by decide +kernel⟩

theorem stLoop_cond2 : CondIs E0 (loopB stLoop1) 0 0 stLoop2 :=
  ⟨2, loopB stLoop1, ⟨ident_conv rfl rfl, rfl, by decide +kernel⟩,
    .inr ⟨.int, 0, ⟨1, 4096, ⟨⟨false, 0, rfl⟩, ⟨none, rfl⟩, .inl (by decide), by decide +kernel⟩, by decide +kernel⟩,
      by decide, rfl⟩⟩

example : ∃ r, Conv E0 (fun R => R.ev (some 5)) stLoop (.ok r stLoop2) :=
  C32_loops_partial E0 stLoop stLoop2 5 (stOf_Sane _ _ _) (.whileS (c := 0) (b := some 4) rfl
    (loop_ex okLang 0 2 stLoop1 stLoop2
      ⟨2, stLoop, ⟨ident_conv rfl rfl, rfl, (stOf_Sane _ _ _).flags⟩, .inr ⟨.int, 2, stLoop_var, by decide, rfl⟩⟩
      (show okTruth 2 true from ⟨by simp [cTruth], by decide⟩) (show okTruth 0 false from ⟨by simp [cTruth], by decide⟩) rfl
      (evTo_tidy 10 4 _ _ (by decide +kernel) (by decide +kernel) (by decide +kernel) (by decide +kernel))
      (by decide +kernel) stLoop_cond2))

example := C32_only_partial E0 stLoop _ 5 0 (some 4) _ rfl (Conv.computed 20 (by decide +kernel))

def stLoop3 : St := evTo 10 7 stLoop
def stLoop4 : St := evTo 10 7 (loopB stLoop3)

/-- C32 in full is false: with `x` = 2, `while (x << 62) x = 0;` does nothing. -/
theorem C32_refuted : ¬ C32_statement := by
  intro h
  have hx : Exec truthLang (Evt E0) (CondIs E0) stLoop (.stmt 8) .next stLoop4 :=
    .whileS (c := 7) (b := some 4) rfl
      (loop_ex _ 7 (2 ^ 63) stLoop3 stLoop4
        ⟨10, stLoop3, evTo_tidy 10 7 _ _ (by decide +kernel) (by decide +kernel) (by decide +kernel) (by decide +kernel),
          .inl ⟨by decide +kernel, rfl⟩⟩
        (by simp [truthLang, cTruth]) (by simp [truthLang, cTruth]) (by decide +kernel)
        (evTo_tidy 10 4 _ _ (by decide +kernel) (by decide +kernel) (by decide +kernel) (by decide +kernel))
        (by decide +kernel)
        ⟨12, stLoop4, evTo_tidy 10 7 _ _ (by decide +kernel) (by decide +kernel) (by decide +kernel) (by decide +kernel),
          .inl ⟨by decide +kernel, rfl⟩⟩)
  obtain ⟨r, hr⟩ := h E0 stLoop _ 8 (stOf_Sane _ _ _) (.inl ⟨7, some 4, rfl⟩) hx
  have := evTo_unique 20 (by decide +kernel) hr
  have h1 : stLoop4.mem.byte 4096 = (evTo 20 8 stLoop).mem.byte 4096 := by rw [this]
  exact absurd h1 (by decide +kernel)

/-! ## C31 -/

/-- everything the specification describes -/
def cLang : Lang := ⟨cTruth, True, fun _ => True, True, True⟩

/-- C31 in full: a loop with `break`s in it does to memory what C says. -/
def C31_statement : Prop :=
  ∀ (E : Env) (s s' : St) (t c : TId) (b : Ref), Sane s → s.nodes t = some (.whileS (some c) b) →
    Exec cLang (Evt E) (CondIs E) s (.stmt t) .next s' →
    ∃ r s'', Conv E (fun R => R.ev (some t)) s (.ok r s'') ∧ s''.mem = s'.mem

/-- the flag of `break` set in the innermost scope -/
def broken (s : St) : St :=
  { s with ctxs := match s.ctxs with
      | [] => []
      | k :: ks => { k with shouldBreak := true } :: ks }

/-- The loop does some complete rounds, then one in which, after the statements
before it, a `break` standing directly in the braces of the loop is executed. -/
inductive Breaks (E : Env) (c : TId) (b : Ref) : Option Ref → St → St → Prop
  | now {a s v s1 s2 bt pre k post} : CondIs E s c v s1 → okTruth v true → b = some bt →
      s1.nodes bt = some (.chain (pre ++ k :: post)) →
      Exec okLang (Evt E) (CondIs E) (enter s1 (loopName a)) (.block pre) .next s2 → s2.nodes k = some .brk →
      Breaks E c b a s s2
  | round {s v s1 s2 s'} : CondIs E s c v s1 → okTruth v true →
      Exec okLang (Evt E) (CondIs E) (enter s1 "While Loop") (.body b) .next s2 →
      Breaks E c b none (leave s2) s' → Breaks E c b none s s'
  | roundFor {a s v r s1 s2 s3 s'} : CondIs E s c v s1 → okTruth v true →
      Exec okLang (Evt E) (CondIs E) (enter s1 "For Loop") (.body b) .next s2 → Evt E (leave s2) a r s3 →
      Breaks E c b (some a) s3 s' → Breaks E c b (some a) s s'

theorem evalElems_break {E : Env} {s s2 : St} {pre post : List TId} {k : TId}
    (h : Exec okLang (Evt E) (CondIs E) s (.block pre) .next s2) (hs : Sane s) (hk : s2.nodes k = some .brk) :
    Conv E (fun R => evalElems R (pre ++ k :: post)) s (.ok () (broken s2)) := by
  generalize hc : Code.block pre = kc at h
  generalize hf : Flow.next = f at h
  induction h generalizing pre with
  | nil =>
    cases hc
    unfold evalElems
    rename_i s
    have h1 : Conv E (fun R => R.ev (some k)) s (.ok (some k) (broken s)) := by
      refine Conv.evNode hk (Conv.const ?_)
      cases hcx : s.ctxs with
      | nil => exact absurd hcx hs.ne
      | cons x xs => simp [modCur, hcx, broken]
    refine h1.bind (Conv.fixed fun R => ?_)
    have hk' : (broken s).nodes k = some .brk := hk
    simp [peek_apply hk']
  | cons h1 h2 ih1 ih2 =>
    cases hc
    obtain ⟨d, sc⟩ := exec_does h1 hs
    obtain ⟨r, d, hj⟩ := d
    have := ih2 sc.1 hk rfl hf
    show Conv E (fun R => evalElems R (_ :: (_ ++ k :: post))) _ _
    unfold evalElems
    refine d.bind (this.of_eq fun R => ?_)
    cases r with
    | none => simp only [bind_apply, peek_none]
    | some r =>
      obtain ⟨n, hn, hnj⟩ := hj r rfl
      simp only [bind_apply, peek_apply hn]
      cases n <;> simp [isJump] at hnj <;> rfl
  | jump h => cases hf; exact absurd rfl h
  | _ => cases hc

/-- the loop `while (c) b` or `for (…; c; a) b` -/
def loopOf (R : Rec) (c : TId) (b : Ref) : Option Ref → M Ref
  | none => R.loopWhile (some c) b
  | some a => R.loopFor (some c) a b

theorem breaks_conv {E : Env} {s s' : St} {c : TId} {b : Ref} {a : Option Ref} (h : Breaks E c b a s s') : Sane s →
    Conv E (fun R => loopOf R c b a) s (.ok none (broken s')) := by
  induction h with
  | @now a s v s1 s2 bt pre k post hc hv hb hbt hx hk =>
    intro hs
    subst hb
    obtain ⟨hs1, _⟩ := hc.keep hs
    obtain ⟨_, sc⟩ := exec_does hx (hs1.enter _)
    have hbr : Conv E (fun R => evaluate R (some bt)) (enter s1 (loopName a)) (.ok () (broken s2)) :=
      (evalElems_break hx (hs1.enter _) hk).of_eq fun R => evaluate_chain (s := enter s1 (loopName a)) hbt
    have hz : mpzGetSi v ≠ 0 := fun h => by cases (mpzGetSi_truth hv).mp h
    have hcur : ∃ k, curCtx (broken s2) = .ok k (broken s2) ∧ k.shouldBreak = true := by
      cases hcx : s2.ctxs with
      | nil => exact absurd hcx sc.1.ne
      | cons x xs => exact ⟨{ x with shouldBreak := true }, by simp [curCtx, broken, hcx], rfl⟩
    obtain ⟨kk, hk1, hk2⟩ := hcur
    have key : ∀ K : Rec → M Ref, Conv E (fun R => (do
        let c ← R.ev (some c)
        let v ← convComparable R c
        if mpzGetSi v = 0 then pure none
        else do
          pushCtx (loopName a)
          evaluate R (some bt)
          let k ← curCtx
          if k.shouldBreak then pure none
          else do
            popCtx
            K R : M Ref)) s (.ok none (broken s2)) := by
      intro K
      have h2 : Conv E (fun R => (do
          evaluate R (some bt)
          let k ← curCtx
          if k.shouldBreak then pure none
          else do
            popCtx
            K R : M Ref)) (enter s1 (loopName a)) (.ok none (broken s2)) :=
        hbr.bind (Conv.fixed fun R => by simp [hk1, hk2])
      have h6 := Conv.bind (g := fun R v => (do
          if mpzGetSi v = 0 then pure none
          else do
            pushCtx (loopName a)
            evaluate R (some bt)
            let k ← curCtx
            if k.shouldBreak then pure none
            else do
              popCtx
              K R : M Ref)) hc.twice (h2.of_eq fun R => by simp only [if_neg hz]; rfl)
      refine h6.of_eq fun R => ?_
      simp only [bind_apply]
      cases R.ev (some c) s <;> rfl
    cases a with
    | none => exact Conv.loopWhile (key fun R => R.loopWhile (some c) (some bt))
    | some a => exact Conv.loopFor (key fun R => do let _ ← R.ev a; R.loopFor (some c) a (some bt))
  | @round s v s1 s2 s' hc hv hx _ ih =>
    intro hs
    obtain ⟨hs1, _⟩ := hc.keep hs
    obtain ⟨d, sc⟩ := exec_does hx (hs1.enter _)
    obtain ⟨hl, _⟩ := hs1.leave sc.1 sc.2
    have hz : mpzGetSi v ≠ 0 := fun h => by cases (mpzGetSi_truth hv).mp h
    exact Conv.loopWhile (loop_conv hc hz hs1 d sc.1 sc.2 (ih hl))
  | @roundFor a s v r s1 s2 s3 s' hc hv hx he _ ih =>
    intro hs
    obtain ⟨hs1, _⟩ := hc.keep hs
    obtain ⟨d, sc⟩ := exec_does hx (hs1.enter _)
    obtain ⟨hl, _⟩ := hs1.leave sc.1 sc.2
    obtain ⟨hl2, _⟩ := he.keep hl
    have hz : mpzGetSi v ≠ 0 := fun h => by cases (mpzGetSi_truth hv).mp h
    exact Conv.loopFor (loop_conv hc hz hs1 d sc.1 sc.2 (Conv.bind he.1 (ih hl2)))

/-- C31 for a `break` directly in the braces of the loop: the loop is left at once,
what follows the `break` in the body is not executed. (The scope of the round stays
open, which is why an outer loop would end, too.) -/
theorem C31_while_partial (E : Env) (s s' : St) (t c : TId) (b : Ref) (hs : Sane s)
    (ht : s.nodes t = some (.whileS (some c) b)) (h : Breaks E c b none s s') :
    Conv E (fun R => R.ev (some t)) s (.ok none (broken s')) :=
  Conv.evNode ht (breaks_conv h hs)

/-- … and for `for` loops -/
theorem C31_for_partial (E : Env) (s s1 s' : St) (t i c : TId) (a b r : Ref) (hs : Sane s)
    (ht : s.nodes t = some (.forS (some i) (some c) a b)) (hi : Evt E s (some i) r s1) (h : Breaks E c b (some a) s1 s') :
    Conv E (fun R => R.ev (some t)) s (.ok none (broken s')) :=
  Conv.evNode ht (Conv.bind hi.1 (breaks_conv h (hi.keep hs).1))

/-- `while (1) { x = 5; break; x = 6; }`, `for (x = 1; x; x = 6) { x = 5; break; }` and
`while (1) { if (1) { break; } x = 5; break; }` -/
def stBreaks : St :=
  stOf [.ident "x", .ctype .int none, .lv (some 1) 4096 false 0, .integer 5, .assign (some 0) (some 3),
        .brk, .integer 6, .assign (some 0) (some 6), .chain [4, 5, 7], .integer 1,
        .whileS (some 9) (some 8), .chain [5], .ifS (some 9) (some 11) none, .brk, .chain [12, 4, 13],
        .whileS (some 9) (some 14), .assign (some 0) (some 9), .forS (some 16) (some 9) (some 7) (some 8)]
    [⟨"x", 0, some 2⟩] [2, 0, 0, 0]

def stBreaks1 (nm : String) (s : St) : St := evTo 10 4 (enter s nm)

theorem stBreaks_five (L : Lang) (nm : String) (s : St) (hn : s.nodes 4 = some (.assign (some 0) (some 3)))
    (he : Evt E0 (enter s nm) (some 4) (some 3) (stBreaks1 nm s)) (hj : (stBreaks1 nm s).nodes 3 = some (.integer 5)) :
    Exec L (Evt E0) (CondIs E0) (enter s nm) (.block [4]) .next (stBreaks1 nm s) :=
  .cons (.expr (n := .assign (some 0) (some 3)) (r := some 3) hn rfl he (fun t h => ⟨.integer 5, by cases h; exact hj, rfl⟩)) .nil

theorem one_true (s : St) (h : s.nodes 9 = some (.integer 1)) (hf : ∀ c ∈ s.ctxs, c.shouldBreak = false) :
    CondIs E0 s 9 1 s := ⟨9, s, int_tidy h hf, .inl ⟨h, rfl⟩⟩

theorem okTruth_one : okTruth 1 true := ⟨by simp [cTruth], by decide⟩

example : Conv E0 (fun R => R.ev (some 10)) stBreaks (.ok none (broken (stBreaks1 "While Loop" stBreaks))) :=
  C31_while_partial E0 stBreaks _ 10 9 (some 8) (stOf_Sane _ _ _) rfl
    (.now (pre := [4]) (k := 5) (post := [7]) (one_true _ rfl (stOf_Sane _ _ _).flags) okTruth_one rfl rfl
      (stBreaks_five _ _ _ rfl (evTo_tidy 10 4 _ _ (by decide +kernel) (by decide +kernel) (by decide +kernel) (by decide +kernel))
        (by decide +kernel)) (by decide +kernel))

def stBreaks2 : St := evTo 10 16 stBreaks

example : Conv E0 (fun R => R.ev (some 17)) stBreaks (.ok none (broken (stBreaks1 "For Loop" stBreaks2))) :=
  C31_for_partial E0 stBreaks stBreaks2 _ 17 16 9 (some 7) (some 8) (some 9) (stOf_Sane _ _ _) rfl
    (evTo_tidy 10 16 _ _ (by decide +kernel) (by decide +kernel) (by decide +kernel) (by decide +kernel))
    (.now (pre := [4]) (k := 5) (post := [7]) (one_true _ (by decide +kernel) (by decide +kernel)) okTruth_one rfl (by decide +kernel)
      (stBreaks_five _ _ _ (by decide +kernel)
        (evTo_tidy 10 4 _ _ (by decide +kernel) (by decide +kernel) (by decide +kernel) (by decide +kernel))
        (by decide +kernel)) (by decide +kernel))

/-- C31 in full is false: the `break` in `while (1) { if (1) { break; } x = 5; break; }`
leaves the braces of the `if` only. -/
theorem C31_refuted : ¬ C31_statement := by
  intro h
  have hx : Exec cLang (Evt E0) (CondIs E0) stBreaks (.stmt 15) .next
      (leave (leave (enter (enter stBreaks "While Loop") "If statement"))) :=
    .whileS (c := 9) (b := some 14) rfl
      (.left (v := 1) (s1 := stBreaks) (a := none) (one_true _ rfl (stOf_Sane _ _ _).flags) (by simp [cLang, cTruth])
        (.braces (ts := [12, 4, 13]) rfl (.jump (by simp)
          (.cond (c := 9) (x := some 11) (y := none) (v := 1) (b := true) (f := .brk) (s1 := enter stBreaks "While Loop")
            rfl (one_true _ rfl ((stOf_Sane _ _ _).enter _).flags)
            (by simp [cLang, cTruth]) (.braces (t := 11) (ts := [5]) rfl (.jump (by simp) (.brk trivial rfl)))))))
  obtain ⟨r, s'', hr, hm⟩ := h E0 stBreaks _ 15 9 (some 14) (stOf_Sane _ _ _) rfl hx
  have := evTo_unique 20 (by decide +kernel) hr
  subst this
  have h1 := congrArg (fun m : Mem => m.byte 4096) hm
  exact absurd h1 (by decide +kernel)

/-! ## C43 -/

/-- C43 in full: a block in which blocks are nested -/
def C43_statement : Prop :=
  ∀ (E : Env) (s s' : St) (b : TId), Sane s → Exec cLang (Evt E) (CondIs E) s (.body (some b)) .next s' →
    ∃ s'', Conv E (fun R => evaluate R (some b)) s (.ok () s'') ∧ s''.mem = s'.mem

/-- C43 for blocks that are the body of an `if` or a loop: the statements of a block
are executed in order, those of the blocks nested in this way at their place. -/
theorem C43_blocks_partial (E : Env) (s s' : St) (b : Ref) (hs : Sane s)
    (h : Exec okLang (Evt E) (CondIs E) s (.body b) .next s') : Conv E (fun R => evaluate R b) s (.ok () s') :=
  (exec_does h hs).1

/-- `{ { x = 5; } }` and `{ if (1) { x = 5; } }` -/
def stNest : St :=
  stOf [.ident "x", .ctype .int none, .lv (some 1) 4096 false 0, .integer 5, .assign (some 0) (some 3),
        .chain [4], .chain [5], .chain [8], .ifS (some 9) (some 5) none, .integer 1] [⟨"x", 0, some 2⟩] [2, 0, 0, 0]

example : Conv E0 (fun R => evaluate R (some 7)) stNest (.ok () (leave (stBreaks1 "If statement" stNest))) :=
  C43_blocks_partial E0 stNest _ (some 7) (stOf_Sane _ _ _) (.braces (ts := [8]) rfl
    (.cons (.cond (c := 9) (x := some 5) (y := none) (v := 1) (b := true) (f := .next) (s1 := stNest) rfl
      (one_true _ rfl (stOf_Sane _ _ _).flags) okTruth_one
      (.braces (t := 5) (ts := [4]) rfl (stBreaks_five _ _ _ rfl
        (evTo_tidy 10 4 _ _ (by decide +kernel) (by decide +kernel) (by decide +kernel) (by decide +kernel))
        (by decide +kernel)))) .nil))

/-- C43 in full is false: `{ { x = 5; } }` leaves `x` alone. -/
theorem C43_refuted : ¬ C43_statement := by
  intro h
  have hx : Exec cLang (Evt E0) (CondIs E0) stNest (.body (some 6)) .next (leave (stBreaks1 "Block" stNest)) :=
    .braces (ts := [5]) rfl (.cons (.nested (f := .next) trivial (ts := [4]) rfl
      (stBreaks_five _ _ _ rfl
        (evTo_tidy 10 4 _ _ (by decide +kernel) (by decide +kernel) (by decide +kernel) (by decide +kernel))
        (by decide +kernel))) .nil)
  obtain ⟨s'', hr, hm⟩ := h E0 stNest _ 6 (stOf_Sane _ _ _) hx
  have hc : Conv E0 (fun R => evaluate R (some 6)) stNest (.ok () (evTo 10 5 stNest)) := by
    refine Conv.of_eq (f := fun R => evalElems R [5]) (s' := stNest) ?_ fun R => evaluate_chain rfl
    unfold evalElems
    exact (evTo_conv 10 5 stNest none (by decide +kernel) (by decide +kernel)).bind (Conv.const rfl)
  have := Conv.unique hr hc
  cases this
  have h1 := congrArg (fun m : Mem => m.byte 4096) hm
  exact absurd h1 (by decide +kernel)

end Bic
