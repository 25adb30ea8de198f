import Verif.Props.ForParts
import Verif.Props.FloatAssign
/-!
# C138: operators on floating values
-/

namespace Bic

/-- `q` is a floating constant or a variable of a floating type -/
def FloatAt (s : St) (q : TId) : Prop :=
  (∃ b, s.nodes q = some (.flt b)) ∨ ∃ τ c e a arr n, s.nodes q = some (.lv (some τ) a arr n) ∧ s.nodes τ = some (.ctype c e) ∧ c.isFp = true

theorem FloatAt.evol {E : Env} {ok : Bool} {s s' : St} {q : TId} (h : FloatAt s q) (e : Evol E ok s s') : FloatAt s' q := by
  have k : KeptNodes s s' := KeptNodes.evol (fun _ _ h _ => h) e
  rcases h with ⟨b, h⟩ | ⟨τ, c, e, a, arr, n, h1, h2, h3⟩
  · exact .inl ⟨b, k _ _ h rfl⟩
  · exact .inr ⟨τ, c, e, a, arr, n, k _ _ h1 rfl, k _ _ h2 rfl, h3⟩

/-- C138: the arithmetic operators can be used on floating values: `l + r`, `l - r`, `l * r` and `l / r` have a value when `l` evaluates to a
floating value and `r` to an integer constant other than 0. -/
def C138_statement : Prop :=
  ∀ (E : Env) (s s1 s2 : St) (t q p : TId) (l r : Ref) (op : BinOp) (z : Int), Inv s → s.nodes t = some (.bin op l r) → op ∈ [.add, .sub, .mul, .div] →
    Conv E (fun R => R.ev l) s (.ok (some q) s1) → FloatAt s1 q → Conv E (fun R => R.ev r) s1 (.ok (some p) s2) → s2.nodes p = some (.integer z) →
    z ≠ 0 → ∃ v s', Conv E (fun R => R.ev (some t)) s (.ok v s')

/-- `e` is the operand of the tree that is evaluated first: the left operand of an arithmetic, bitwise, shift, comparison or logical operator,
the operand of `!` and `~`, the condition of `if` and `?:` -/
inductive FirstOperand : Node → Ref → Prop
  | bin {op l r} : FirstOperand (.bin op l r) l
  | cmp {op l r} : FirstOperand (.cmp op l r) l
  | lOr {l r} : FirstOperand (.lOr l r) l
  | lAnd {l r} : FirstOperand (.lAnd l r) l
  | negate {e} : FirstOperand (.negate e) e
  | onesComp {e} : FirstOperand (.onesComp e) e
  | cond {c t f} : FirstOperand (.ifS c t f) c
  | «infix» {c t f} : FirstOperand (.infix c t f) c

theorem FloatAt.comparable {s s1 : St} {q : TId} {R : Rec} {t : Ref} (h : FloatAt s1 q) (ht : R.ev t s = .ok (some q) s1) :
    ∃ m, convComparable R t s = .stop (.die m) s1 := by
  rcases h with ⟨b, h⟩ | ⟨τ, c, e, a, arr, n, h1, h2, h3⟩
  · exact ⟨_, by simp [convComparable, ht, node_apply h, die, stop]; rfl⟩
  · have hi : c.isInt = false ∧ c ≠ .ptr := by cases c <;> simp [CT.isFp] at h3 <;> decide
    exact ⟨_, by simp [convComparable, ht, node_apply h1, typeOf, nodeR, node_apply h2, hi, die, stop]; rfl⟩

theorem FloatAt.toInt {s : St} {q : TId} (h : FloatAt s q) :
    (∃ m, liveToInt (some q) s = .stop (.die m) s) ∨ (liveToInt (some q) s = .ok (some q) s ∧ ∃ b, s.nodes q = some (.flt b)) := by
  rcases h with ⟨b, h⟩ | ⟨τ, c, e, a, arr, n, h1, h2, h3⟩
  · exact .inr ⟨by simp [liveToInt, node_apply h], b, h⟩
  · have hi : c.isInt = false ∧ c ≠ .ptr := by cases c <;> simp [CT.isFp] at h3 <;> decide
    exact .inl ⟨_, by simp [liveToInt, node_apply h1, makeIntFromLV, lvFields, typeOf, nodeR, node_apply h2, hi, die, stop]; rfl⟩

theorem flt_notInt {s : St} {q : TId} {b : Nat} (h : s.nodes q = some (.flt b)) (m : String) : asInteger (some q) m s = .stop (.die m) s := by
  simp [asInteger, peek_apply h, die, stop]

/-- converting and reading an operand that is floating ends the evaluation -/
theorem FloatAt.never {s : St} {q : TId} (h : FloatAt s q) {m : String} {G : Int → M Ref} {v : Ref} {s' : St} :
    ¬ (do let a ← liveToInt (some q); let x ← asInteger a m; G x : M Ref) s = .ok v s' := by
  intro he
  rcases h.toInt with ⟨m', h1⟩ | ⟨h1, b, hb⟩
  · rw [bind_apply, h1] at he
    cases he
  · rw [bind_apply, h1] at he
    simp only [bind_apply, flt_notInt hb] at he
    cases he

theorem ev_float {E : Env} {s : St} {q : TId} (h : FloatAt s q) (m : Nat) : (run E (m + 1)).ev (some q) s = .ok (some q) s := by
  show evStep E (run E m) (some q) s = _
  rcases h with ⟨b, h⟩ | ⟨τ, c, e, a, arr, n, h1, h2, h3⟩
  · simp only [evStep, bind_apply, node_apply h]
    rfl
  · simp only [evStep, bind_apply, node_apply h1]
    rfl

/-- a state in which the integer of an operand has been made -/
theorem liveToInt_evol {E : Env} {s s' : St} {b a : Ref} (hi : Inv s) (h : liveToInt b s = .ok a s') : Evol E true s s' := by
  have e : EvolOut E s (liveToInt b s) := pres_liveToInt b s hi
  rw [h] at e
  exact e

/-- C138, what happens: no operator, `if` or `?:` whose first operand evaluates to a floating value ever ends normally. -/
theorem C138_first (E : Env) (s s1 s' : St) (t q : TId) (n : Node) (e v : Ref) (hi : Inv s) (ht : s.nodes t = some n) (ho : FirstOperand n e)
    (he : Conv E (fun R => R.ev e) s (.ok (some q) s1)) (hq : FloatAt s1 q) : ¬ Conv E (fun R => R.ev (some t)) s (.ok v s') := by
  intro h
  obtain ⟨N, hN⟩ := he
  obtain ⟨M, hM⟩ := h
  let m := N + M
  have h1 : (run E (m + 1)).ev e s = .ok (some q) s1 := hN (m + 1) (by omega)
  have h2 : (run E (m + 2)).ev (some t) s = .ok v s' := hM (m + 2) (by omega)
  have h2 : evStep E (run E (m + 1)) (some t) s = .ok v s' := h2
  simp only [evStep, bind_apply, node_apply ht] at h2
  obtain ⟨msg, hc⟩ := hq.comparable h1
  have e1 := (run_pres E (m + 1)).ev e s hi
  rw [h1] at e1
  cases ho with
  | @bin op l r =>
    have h2 : evalBin (run E (m + 1)) op e r s = .ok v s' := h2
    unfold evalBin at h2
    rw [bind_apply, h1] at h2
    simp only [bind_apply] at h2
    cases h3 : (run E (m + 1)).ev r s1 with
    | fuel => rw [h3] at h2; cases h2
    | stop w s2 => rw [h3] at h2; cases h2
    | ok b s2 =>
      rw [h3] at h2
      simp only at h2
      have e2 := (run_pres E (m + 1)).ev r s1 e1.inv
      rw [h3] at e2
      have hq2 := hq.evol e2
      rcases hq2.toInt with ⟨m', h4⟩ | ⟨h4, b0, hb0⟩
      · rw [h4] at h2
        cases h2
      · rw [h4] at h2
        simp only at h2
        cases h5 : liveToInt b s2 with
        | fuel => rw [h5] at h2; cases h2
        | stop w s3 => rw [h5] at h2; cases h2
        | ok b' s3 =>
          rw [h5] at h2
          simp only at h2
          have k : KeptNodes s2 s3 := KeptNodes.evol (fun _ _ h _ => h) (liveToInt_evol (E := E) e2.inv h5)
          rw [flt_notInt (k _ _ hb0 rfl)] at h2
          cases h2
  | cmp =>
    have h2 : evalCmp (run E (m + 1)) _ e _ s = .ok v s' := h2
    unfold evalCmp at h2
    rw [bind_apply, hc] at h2
    cases h2
  | lOr =>
    have h2 : evalLOr (run E (m + 1)) e _ s = .ok v s' := h2
    unfold evalLOr at h2
    rw [bind_apply, hc] at h2
    cases h2
  | lAnd =>
    have h2 : evalLAnd (run E (m + 1)) e _ s = .ok v s' := h2
    unfold evalLAnd at h2
    rw [bind_apply, hc] at h2
    cases h2
  | negate =>
    have h2 : evalNegate (run E (m + 1)) e s = .ok v s' := h2
    obtain ⟨msg, hc⟩ := hq.comparable (ev_float (E := E) hq m)
    unfold evalNegate at h2
    rw [bind_apply, h1] at h2
    simp only [bind_apply, hc] at h2
    cases h2
  | onesComp =>
    have h2 : evalOnesComp (run E (m + 1)) e s = .ok v s' := h2
    unfold evalOnesComp at h2
    rw [bind_apply, h1] at h2
    exact hq.never h2
  | cond =>
    have h2 : evalIf (run E (m + 1)) e _ _ s = .ok v s' := h2
    unfold evalIf at h2
    rw [bind_apply, hc] at h2
    cases h2
  | «infix» =>
    have h2 : evalInfix (run E (m + 1)) e _ _ s = .ok v s' := h2
    unfold evalInfix at h2
    rw [bind_apply, hc] at h2
    cases h2

/-- C138, the second operand of an arithmetic, bitwise or shift operator: likewise. -/
theorem C138_second (E : Env) (s s1 s2 s' : St) (t q : TId) (op : BinOp) (l r p v : Ref) (hi : Inv s) (ht : s.nodes t = some (.bin op l r))
    (hl : Conv E (fun R => R.ev l) s (.ok p s1)) (hr : Conv E (fun R => R.ev r) s1 (.ok (some q) s2)) (hq : FloatAt s2 q) :
    ¬ Conv E (fun R => R.ev (some t)) s (.ok v s') := by
  intro h
  have hi2 : Inv s2 := (hr.evol (hl.evol hi).inv).inv
  obtain ⟨N, hN⟩ := hl
  obtain ⟨K, hK⟩ := hr
  obtain ⟨M, hM⟩ := h
  let m := N + K + M
  have h1 : (run E m).ev l s = .ok p s1 := hN m (by omega)
  have h3 : (run E m).ev r s1 = .ok (some q) s2 := hK m (by omega)
  have h2 : evStep E (run E m) (some t) s = .ok v s' := hM (m + 1) (by omega)
  simp only [evStep, bind_apply, node_apply ht] at h2
  have h2 : evalBin (run E m) op l r s = .ok v s' := h2
  unfold evalBin at h2
  rw [bind_apply, h1] at h2
  simp only [bind_apply, h3] at h2
  cases h4 : liveToInt p s2 with
  | fuel => rw [h4] at h2; cases h2
  | stop w s3 => rw [h4] at h2; cases h2
  | ok a s3 =>
    rw [h4] at h2
    simp only at h2
    rcases (hq.evol (liveToInt_evol (E := E) hi2 h4)).toInt with ⟨m', h5⟩ | ⟨h5, b, hb⟩
    · rw [h5] at h2
      cases h2
    · rw [h5] at h2
      simp only at h2
      cases h6 : asInteger a "non integer operand" s3 with
      | fuel => rw [h6] at h2; cases h2
      | stop w s4 => rw [h6] at h2; cases h2
      | ok x s4 =>
        rw [h6] at h2
        have e6 := pres_asInteger (E := E) a "non integer operand" s3 (liveToInt_evol (E := E) hi2 h4).inv
        rw [h6] at e6
        have k : KeptNodes s3 s4 := KeptNodes.evol (fun _ _ h _ => h) e6
        simp only [flt_notInt (k _ _ hb rfl)] at h2
        cases h2

/-- C138, the second operand of a comparison: likewise. -/
theorem C138_compared (E : Env) (s s1 s2 s' : St) (t q : TId) (op : CmpOp) (l r v : Ref) (x : Int) (ht : s.nodes t = some (.cmp op l r))
    (hl : Conv E (fun R => convComparable R l) s (.ok x s1)) (hr : Conv E (fun R => R.ev r) s1 (.ok (some q) s2)) (hq : FloatAt s2 q) :
    ¬ Conv E (fun R => R.ev (some t)) s (.ok v s') := by
  intro h
  obtain ⟨N, hN⟩ := hl
  obtain ⟨K, hK⟩ := hr
  obtain ⟨M, hM⟩ := h
  let m := N + K + M
  have h1 : convComparable (run E m) l s = .ok x s1 := hN m (by omega)
  have h3 : (run E m).ev r s1 = .ok (some q) s2 := hK m (by omega)
  have h2 : evStep E (run E m) (some t) s = .ok v s' := hM (m + 1) (by omega)
  simp only [evStep, bind_apply, node_apply ht] at h2
  have h2 : evalCmp (run E m) op l r s = .ok v s' := h2
  obtain ⟨msg, hc⟩ := hq.comparable h3
  unfold evalCmp at h2
  simp only [bind_apply, h1, hc] at h2
  cases h2

/-- `double d` at 4096 and `int i` at 4104 with the value 5; `d + 5` (7), `i * d` (8), `i < d` (9), `!d` (10) -/
def stFloatOps : St :=
  stOf [.ctype .double none, .ctype .int none, .lv (some 0) 4096 false 0, .lv (some 1) 4104 false 0, .ident "d", .ident "i", .integer 5,
        .bin .add (some 4) (some 6), .bin .mul (some 5) (some 4), .cmp .lt (some 5) (some 4), .negate (some 4)]
    [⟨"d", 4, some 2⟩, ⟨"i", 5, some 3⟩] [0, 0, 0, 0, 0, 0, 0, 0, 5, 0, 0, 0, 0, 0, 0, 0]

theorem stFloatOps_d : FloatAt stFloatOps 2 := .inr ⟨0, .double, none, 4096, false, 0, rfl, rfl, rfl⟩

/-- C138 is false: with `double d`, `d + 5` has no value. -/
theorem C138_refuted : ¬ C138_statement := by
  intro h
  obtain ⟨v, s', h1⟩ := h E0 stFloatOps stFloatOps stFloatOps 7 2 6 (some 4) (some 6) .add 5 (stOf_Inv _ _ _) rfl (by simp) (ident_conv rfl rfl)
    stFloatOps_d (Conv.evNode (nd := .integer 5) rfl (Conv.pure _)) rfl (by decide)
  exact C138_first E0 stFloatOps stFloatOps s' 7 2 _ _ v (stOf_Inv _ _ _) rfl .bin (ident_conv rfl rfl) stFloatOps_d h1

example (v : Ref) (s' : St) : ¬ Conv E0 (fun R => R.ev (some 10)) stFloatOps (.ok v s') :=
  C138_first E0 stFloatOps stFloatOps s' 10 2 _ _ v (stOf_Inv _ _ _) rfl .negate (ident_conv rfl rfl) stFloatOps_d

example (v : Ref) (s' : St) : ¬ Conv E0 (fun R => R.ev (some 8)) stFloatOps (.ok v s') :=
  C138_second E0 stFloatOps stFloatOps stFloatOps s' 8 2 .mul (some 5) (some 4) (some 3) v (stOf_Inv _ _ _) rfl (ident_conv rfl rfl) (ident_conv rfl rfl)
    stFloatOps_d

example (v : Ref) (s' : St) : ¬ Conv E0 (fun R => R.ev (some 9)) stFloatOps (.ok v s') := by
  have h1 : Conv E0 (fun R => convComparable R (some 5)) stFloatOps (.ok 5 (addNode stFloatOps (.integer 5))) := by
    unfold convComparable
    exact Conv.bind (ident_conv (r := 3) rfl rfl) (Conv.const rfl)
  exact C138_compared E0 stFloatOps _ _ s' 9 2 .lt (some 5) (some 4) v 5 rfl h1 (ident_conv rfl rfl)
    (.inr ⟨0, .double, none, 4096, false, 0, rfl, rfl, rfl⟩)

end Bic
