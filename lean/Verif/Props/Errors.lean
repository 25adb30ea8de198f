import Verif.Props.Script
/-!
# C84: an error ends the script with status 1
-/

namespace Bic
open Spec Script

/-- evaluating the expression `e` is given up with the message `m` -/
def Error (E : Env) (s : St) (e : Ref) (m : String) (s' : St) : Prop :=
  Conv E (fun R => R.ev e) s (.stop (.die m) s')

/-- `Fails … s k m s'`: executing `k` in state `s`, an expression is reached, in state `s'`, whose evaluation is given up
with the message `m`.  What comes before is executed as `Exec` says. -/
inductive Fails (E : Env) : St → Code → String → St → Prop
  | expr {s t n m s'} : s.nodes t = some n → isControl n = false → Error E s (some t) m s' → Fails E s (.stmt t) m s'
  | ret {s t e m s'} : s.nodes t = some (.ret e) → Error E s e m s' → Fails E s (.stmt t) m s'
  | test {s t c x y m s'} : s.nodes t = some (.ifS (some c) x y) → Error E s (some c) m s' → Fails E s (.stmt t) m s'
  | branch {s t c x y v b m s1 s'} : s.nodes t = some (.ifS (some c) x y) → CondIs E s c v s1 → okTruth v b →
      Fails E (enter s1 "If statement") (.body (if b then x else y)) m s' → Fails E s (.stmt t) m s'
  | whileS {s t c b m s'} : s.nodes t = some (.whileS (some c) b) → Fails E s (.loop c none b) m s' → Fails E s (.stmt t) m s'
  | init {s t i c a b m s'} : s.nodes t = some (.forS (some i) (some c) a b) → Error E s (some i) m s' → Fails E s (.stmt t) m s'
  | forS {s t i c a b r s1 m s'} : s.nodes t = some (.forS (some i) (some c) a b) → Evt E s (some i) r s1 →
      Fails E s1 (.loop c (some a) b) m s' → Fails E s (.stmt t) m s'
  | loopTest {s c a b m s'} : Error E s (some c) m s' → Fails E s (.loop c a b) m s'
  | loopBody {s c a b v m s1 s'} : CondIs E s c v s1 → okTruth v true → Fails E (enter s1 (loopName a)) (.body b) m s' →
      Fails E s (.loop c a b) m s'
  | after {s c a b v m s1 s2 s'} : CondIs E s c v s1 → okTruth v true →
      Exec okLang (Evt E) (CondIs E) (enter s1 "For Loop") (.body b) .next s2 → Error E (leave s2) a m s' →
      Fails E s (.loop c (some a) b) m s'
  | round {s c b v m s1 s2 s'} : CondIs E s c v s1 → okTruth v true →
      Exec okLang (Evt E) (CondIs E) (enter s1 "While Loop") (.body b) .next s2 →
      Fails E (leave s2) (.loop c none b) m s' → Fails E s (.loop c none b) m s'
  | roundFor {s c a b v r m s1 s2 s3 s'} : CondIs E s c v s1 → okTruth v true →
      Exec okLang (Evt E) (CondIs E) (enter s1 "For Loop") (.body b) .next s2 → Evt E (leave s2) a r s3 →
      Fails E s3 (.loop c (some a) b) m s' → Fails E s (.loop c (some a) b) m s'
  | here {s t ts m s'} : Fails E s (.stmt t) m s' → Fails E s (.block (t :: ts)) m s'
  | later {s t ts m s1 s'} : Exec okLang (Evt E) (CondIs E) s (.stmt t) .next s1 → Fails E s1 (.block ts) m s' →
      Fails E s (.block (t :: ts)) m s'
  | braces {s t ts m s'} : s.nodes t = some (.chain ts) → Fails E s (.block ts) m s' → Fails E s (.body (some t)) m s'
  | single {s t n m s'} : s.nodes t = some n → isChain n = false → Fails E s (.stmt t) m s' → Fails E s (.body (some t)) m s'

/-- what the evaluator does with code that fails -/
def Dies (E : Env) (s : St) : Code → String → St → Prop
  | .stmt t, m, s' => Error E s (some t) m s'
  | .block ts, m, s' => Conv E (fun R => evalElems R ts) s (.stop (.die m) s')
  | .body b, m, s' => Conv E (fun R => evaluate R b) s (.stop (.die m) s')
  | .loop c none b, m, s' => Conv E (fun R => R.loopWhile (some c) b) s (.stop (.die m) s')
  | .loop c (some a) b, m, s' => Conv E (fun R => R.loopFor (some c) a b) s (.stop (.die m) s')

theorem loop_stop {E : Env} {s s1 s' : St} {c : TId} {b : Ref} {v : Int} {nm : String} {K : Rec → M Ref} {w : Stop}
    (h : CondIs E s c v s1) (hv : mpzGetSi v ≠ 0) (hb : Conv E (fun R => evaluate R b) (enter s1 nm) (.stop w s')) :
    Conv E (fun R => (do
      let c ← R.ev (some c)
      let v ← convComparable R c
      if mpzGetSi v = 0 then pure none
      else do
        pushCtx nm
        evaluate R b
        let k ← curCtx
        if k.shouldBreak then pure none
        else do
          popCtx
          K R : M Ref)) s (.stop w s') := by
  have h2 : Conv E (fun R => (do
      evaluate R b
      let k ← curCtx
      if k.shouldBreak then pure none
      else do
        popCtx
        K R : M Ref)) (enter s1 nm) (.stop w s') := hb.bind_stop
  have h6 := Conv.bind (g := fun R v => (do
      if mpzGetSi v = 0 then pure none
      else do
        pushCtx nm
        evaluate R b
        let k ← curCtx
        if k.shouldBreak then pure none
        else do
          popCtx
          K R : M Ref)) h.twice (h2.of_eq fun R => by simp only [if_neg hv]; rfl)
  refine h6.of_eq fun R => ?_
  simp only [bind_apply]
  cases R.ev (some c) s <;> rfl

theorem fails_dies {E : Env} {s s' : St} {k : Code} {m : String} (h : Fails E s k m s') : Sane s → Dies E s k m s' := by
  induction h with
  | expr _ _ h => exact fun _ => h
  | ret hn h =>
    intro _
    refine Conv.evNode hn ?_
    unfold evalNode evalReturn
    exact Conv.bind_stop h
  | test hn h =>
    intro _
    refine Conv.evNode hn ?_
    unfold evalNode evalIf convComparable
    exact Conv.bind_stop (Conv.bind_stop h)
  | @branch s t c x y v b m s1 s' hn hc hv _ ih =>
    intro hs
    obtain ⟨hs1, _⟩ := hc.keep hs
    have d : Conv E (fun R => evaluate R (if b then x else y)) (enter s1 "If statement") (.stop (.die m) s') := ih (hs1.enter _)
    have hz := mpzGetSi_truth hv
    have hb : ∀ R : Rec, (if mpzGetSi v = 0 then evaluate R y else evaluate R x) = evaluate R (if b then x else y) := by
      intro R
      cases b
      · rw [if_pos (hz.mpr rfl)]; rfl
      · rw [if_neg (fun h => by cases hz.mp h)]; rfl
    refine Conv.evNode hn ?_
    unfold evalNode evalIf
    refine Conv.bind hc.conv ?_
    have h2 := Conv.bind_stop (g := fun R _ => (do popCtx; pure none : M Ref)) d
    refine h2.of_eq fun R => ?_
    rw [hb]; rfl
  | whileS hn _ ih => exact fun hs => Conv.evNode hn (ih hs)
  | init hn h =>
    intro _
    exact Conv.evNode hn (Conv.bind_stop h)
  | forS hn he _ ih =>
    intro hs
    exact Conv.evNode hn (Conv.bind he.1 (ih (he.keep hs).1))
  | @loopTest s c a b m s' h =>
    intro _
    cases a with
    | none => exact Conv.loopWhile (Conv.bind_stop h)
    | some a => exact Conv.loopFor (Conv.bind_stop h)
  | @loopBody s c a b v m s1 s' hc hv _ ih =>
    intro hs
    have hz : mpzGetSi v ≠ 0 := fun h => by cases (mpzGetSi_truth hv).mp h
    have d := ih ((hc.keep hs).1.enter _)
    cases a with
    | none => exact Conv.loopWhile (loop_stop hc hz d)
    | some a => exact Conv.loopFor (loop_stop (K := fun R => do let _ ← R.ev a; R.loopFor (some c) a b) hc hz d)
  | @after s c a b v m s1 s2 s' hc hv hb h =>
    intro hs
    have hz : mpzGetSi v ≠ 0 := fun h => by cases (mpzGetSi_truth hv).mp h
    obtain ⟨hs1, _⟩ := hc.keep hs
    obtain ⟨d, sc⟩ := exec_does hb (hs1.enter _)
    exact Conv.loopFor (loop_conv hc hz hs1 d sc.1 sc.2 (Conv.bind_stop (g := fun R _ => R.loopFor (some c) a b) h))
  | @round s c b v m s1 s2 s' hc hv hb _ ih =>
    intro hs
    have hz : mpzGetSi v ≠ 0 := fun h => by cases (mpzGetSi_truth hv).mp h
    obtain ⟨hs1, _⟩ := hc.keep hs
    obtain ⟨d, sc⟩ := exec_does hb (hs1.enter _)
    exact Conv.loopWhile (loop_conv hc hz hs1 d sc.1 sc.2 (ih (hs1.leave sc.1 sc.2).1))
  | @roundFor s c a b v r m s1 s2 s3 s' hc hv hb he _ ih =>
    intro hs
    have hz : mpzGetSi v ≠ 0 := fun h => by cases (mpzGetSi_truth hv).mp h
    obtain ⟨hs1, _⟩ := hc.keep hs
    obtain ⟨d, sc⟩ := exec_does hb (hs1.enter _)
    obtain ⟨hsl, _, _⟩ := hs1.leave sc.1 sc.2
    exact Conv.loopFor (loop_conv hc hz hs1 d sc.1 sc.2
      (Conv.bind (g := fun R _ => R.loopFor (some c) a b) he.1 (ih (he.keep hsl).1)))
  | @here s t ts m s' _ ih =>
    intro hs
    show Conv E (fun R => evalElems R (t :: ts)) _ _
    unfold evalElems
    exact Conv.bind_stop (ih hs)
  | @later s t ts m s1 s' hx _ ih =>
    intro hs
    obtain ⟨⟨r, d, hj⟩, sc⟩ := exec_does hx hs
    exact evalElems_cons d hj (ih sc.1)
  | @braces s t ts m s' hn _ ih =>
    intro hs
    have d : Conv E (fun R => evalElems R ts) s (.stop (.die m) s') := ih hs
    refine (show Conv E (fun R => evaluate R (some t)) s _ from d.of_eq fun R => ?_)
    rw [evaluate_chain hn]
  | @single s t n m s' hn hc _ ih =>
    intro hs
    have h2 := Conv.bind_stop (g := fun _ _ => (pure () : M Unit)) (show Conv E (fun R => R.ev (some t)) s (.stop (.die m) s') from ih hs)
    refine (show Conv E (fun R => evaluate R (some t)) s _ from h2.of_eq fun R => ?_)
    rw [evaluate_single hn hc]

/-- **C84** (scripts without `main`): when, wherever in blocks, branches and loops, an expression is reached whose evaluation
is given up, the script ends there with status 1: the state stays as it is at the error, nothing after it is executed. -/
theorem C84_error_partial (E : Env) (s s1 : St) (head : TId) (es : List TId) (ps : List Nat) (m : String) (s' : St)
    (hs : Startable s ps) (hh : s.nodes head = some (.chain es)) (hd : ∀ t ∈ es, DeclaresOther s t ∨ IsCode s t)
    (hc : Conv E (fun R => createArguments R ps) s (.ok () s1)) (hx : Fails E s1 (.block es) m s') :
    ExitsWith E s head ps 1 ∧ Conv E (fun R => evaluateCscript R head ps) s (.stop (.die m) s') := by
  obtain ⟨f', e, hf⟩ := inspect_noMain hd ⟨0, false, false⟩ rfl
  obtain ⟨hs1, hin, hmore⟩ := hs.start hc
  have d : Conv E (fun R => evalElems R es) s1 (.stop (.die m) s') := fails_dies hx hs1
  have hall : Conv E (fun R => evaluateCscript R head ps) s (.stop (.die m) s') := by
    unfold evaluateCscript
    refine Conv.bind (Conv.const (chainElems_apply hh)) (Conv.bind (Conv.const e) ?_)
    have : Conv E (fun R => createArguments R ps >>= fun _ => evaluate R (some head)) s (.stop (.die m) s') := by
      refine Conv.bind hc (d.congr fun R => ?_)
      rw [evaluate_chain (hmore _ _ hh)]
    refine this.congr fun R => ?_
    simp [hf]
  exact ⟨⟨_, hall, rfl⟩, hall⟩

/-- **C84** (scripts with `main`): the same for the declarations and the call of `main` that is added at their end. -/
theorem C84_main_partial (E : Env) (s s1 : St) (head d : TId) (pre post : List TId) (n : Nat) (ps : List Nat) (hs : Startable s ps)
    (hh : s.nodes head = some (.chain (pre ++ d :: post))) (h1 : ∀ t ∈ pre, DeclaresOther s t) (h2 : ∀ t ∈ post, DeclaresOther s t)
    (hd : DeclaresMain s d n) (hc : Conv E (fun R => createArguments R ps) s (.ok () s1)) :
    ∃ call s2, addCallToMain head n s1 = .ok () s2 ∧ s2.nodes head = some (.chain (pre ++ d :: post ++ [call])) ∧
      CallsMain s2 call (min n 2) ∧ ∀ m s', Fails E s2 (.block (pre ++ d :: post ++ [call])) m s' →
        ExitsWith E s head ps 1 ∧ Conv E (fun R => evaluateCscript R head ps) s (.stop (.die m) s') := by
  obtain ⟨hs1, hin, hmore⟩ := hs.start hc
  obtain ⟨call, s2, e, a1, a2, a3, a4, a5, a6⟩ := addCall_apply hs1.inv.wf (hmore _ _ hh) n
  have hs2 : Sane s2 := by
    have := pres_addCallToMain E head n s1 hs1.inv
    rw [e] at this
    exact ⟨EvolX.inv this, by rw [a4]; exact hs1.flags, by rw [a4]; exact hs1.ne⟩
  refine ⟨call, s2, e, a1, a2, fun m s' hx => ?_⟩
  have dd : Conv E (fun R => evalElems R (pre ++ d :: post ++ [call])) s2 (.stop (.die m) s') := fails_dies hx hs2
  have hf : inspectDecls (pre ++ d :: post) ⟨0, false, false⟩ s = .ok ⟨n, true, false⟩ s := by
    rw [inspect_append (inspect_others h1 _)]
    simp [inspectDecls, inspect_main hd, inspect_others h2]
  have hall : Conv E (fun R => evaluateCscript R head ps) s (.stop (.die m) s') := by
    unfold evaluateCscript
    refine Conv.bind (Conv.const (chainElems_apply hh)) (Conv.bind (Conv.const hf) ?_)
    have : Conv E (fun R => createArguments R ps >>= fun _ => addCallToMain head n >>= fun _ => evaluate R (some head)) s
        (.stop (.die m) s') := by
      refine Conv.bind hc (Conv.bind (Conv.const e) (dd.congr fun R => ?_))
      rw [evaluate_chain a1]
    refine this.congr fun R => ?_
    simp
  exact ⟨⟨_, hall, rfl⟩, hall⟩

/-! ### Examples -/

/-- `if (1) { 300; y; } return 0;` with `y` not declared -/
def progUndecl : List Node :=
  [.integer 1, .integer 300, .ident "y", .chain [1, 2], .ifS (some 0) (some 3) none, .integer 0, .ret (some 5), .chain [4, 6]]

example : ExitsWith E0 (stOf progUndecl [] []) 7 [4096] 1 := by
  have hs := stOf_startable progUndecl [4096] (by simp)
  obtain ⟨s1, h1, h2, _, h4, _, _, _, h3, _⟩ := C61_args E0 (stOf progUndecl [] []) [4096] hs.sane hs.livelt hs.few
    (by show (memOf []).brk + 368 + 104 * _ < _; decide +kernel) hs.argc hs.argv
  have hn := h3 "y" (by decide) (by decide)
  rw [show resolveGlobal "y" .normal (stOf progUndecl [] []) = none from rfl] at hn
  have hy : Error E0 (enter s1 "If statement") (some 2) "Could not resolve identifier" (enter s1 "If statement") := by
    have ht : (enter s1 "If statement").nodes 2 = some (.ident "y") := h4 2 _ rfl
    have hn : resolveGlobal "y" .normal (enter s1 "If statement") = none := hn
    refine Conv.evNode ht (Conv.const ?_)
    simp [resolveIdG, idStr, nodeR, node_apply ht, get, hn, die, Bic.stop]
  refine (C84_error_partial E0 _ s1 7 [4, 6] [4096] "Could not resolve identifier" (enter s1 "If statement") hs rfl ?_ h1 ?_).1
  · intro t ht
    simp only [List.mem_cons, List.not_mem_nil, or_false] at ht
    rcases ht with rfl | rfl
    · exact .inr ⟨_, rfl, by simp⟩
    · exact .inr ⟨_, rfl, by simp⟩
  · refine .here (.branch (c := 0) (v := 1) (b := true) (h4 4 _ rfl) ⟨0, s1, int_evt (h4 0 _ rfl) h2.flags,
      .inl ⟨h4 0 _ rfl, rfl⟩⟩ ⟨by simp [cTruth], by decide⟩ ?_)
    have hn : ∀ t n, (stOf progUndecl [] []).nodes t = some n → (enter s1 "If statement").nodes t = some n := h4
    have hf := (h2.enter "If statement").flags
    show Fails E0 _ (.body (some 3)) _ _
    generalize enter s1 "If statement" = s2 at *
    refine .braces (hn 3 _ rfl) (.later (s1 := s2) ?_ (.here (.expr (hn 2 _ rfl) rfl hy)))
    exact .expr (n := .integer 300) (r := some 1) (hn 1 _ rfl) rfl (int_evt (hn 1 _ rfl) hf)
      (fun t e => by cases e; exact ⟨_, hn 1 _ rfl, rfl⟩)

/-- `static; int main() { return 3; }` -/
def progNoType : List Node :=
  [.ident "main", .integer 3, .ret (some 1), .chain [2], .fn (some 0) none none (some 3), .chain [4], .kw .int, .chain [6],
   .decl (some 7) (some 5) 0, .kw .static, .chain [9], .decl (some 10) none 0, .chain [11, 8]]

example : ExitsWith E0 (stOf progNoType [] []) 12 [4096] 1 := by
  have hs := stOf_startable progNoType [4096] (by simp)
  obtain ⟨s1, h1, _, _, h4, _⟩ := C61_args E0 (stOf progNoType [] []) [4096] hs.sane hs.livelt hs.few
    (by show (memOf []).brk + 368 + 104 * _ < _; decide +kernel) hs.argc hs.argv
  obtain ⟨call, s2, e, a1, a2, h5⟩ := C84_main_partial E0 _ s1 12 8 [11] [] 0 [4096] hs rfl
    (by simp; exact .inr ⟨some 10, 0, rfl⟩) (by simp) ⟨some 7, 5, 0, 4, [], 0, none, none, some 3, rfl, rfl, rfl, rfl, .inl ⟨rfl, rfl⟩⟩ h1
  obtain ⟨_, _, e', _, _, a3, _⟩ := C60_main_zero E0 _ s1 12 8 [11] [] 0 [4096] hs rfl
    (by simp; exact .inr ⟨some 10, 0, rfl⟩) (by simp) ⟨some 7, 5, 0, 4, [], 0, none, none, some 3, rfl, rfl, rfl, rfl, .inl ⟨rfl, rfl⟩⟩ h1
  cases e.symm.trans e'
  have hn : ∀ t n, t ≠ 12 → (stOf progNoType [] []).nodes t = some n → s2.nodes t = some n := fun t n ht h => a3 t n ht (h4 t n h)
  have b1 := hn 11 (.decl (some 10) none 0) (by decide) rfl
  refine (h5 "Unknown combination of declaration specifiers" s2 (.here (.expr b1 rfl (Conv.evNode b1 (Conv.fixed fun R => ?_))))).1
  have hz : switchBits clangTable clangKeys 0 = none := by decide +kernel
  simp [evalNode, evalDecl, resolveSpecs, chainElems_apply (hn 10 (.chain [9]) (by decide) rfl), resolveSpecsLoop,
    node_apply (hn 9 (.kw .static) (by decide) rfl), ignoredSpec, hz, die, Bic.stop]

end Bic
