import Verif.Proofs.Witness
import Verif.Proofs.Repr
/-!
# C01–C06: integer expressions
-/

namespace Bic
open Spec

/-- the variable `x` is visible and holds the value `v` of its type, or the enumeration constant `x` is `v` -/
def VarC (s : St) (x : String) (v : Int) : Prop :=
  ∃ t, resolveGlobal x .normal s = some t ∧ (s.nodes t = some (.integer v) ∨ ∃ c, Holds s t c v)

/-! ## C01 -/

/-- C01 in full: every expression has the value C gives it (on unbounded
integers), and evaluating it only allocates tree objects.  `EvalsTo E s t v`:
with any sufficient budget the evaluation of `t` ends with a result that denotes
`v`, in a state with the same memory and the same scopes. -/
def C01_statement : Prop :=
  ∀ (E : Env) (s : St) (e : Expr) (v : Int) (t : TId), WF s → CVal (VarC s) e v →
    ERep s.nodes t e → EvalsTo E s t v

/-- C01 holds on the operands on which bic's operators agree with C (`okOp`:
`>>` and `/` where rounding down and toward zero coincide, shift counts below
2^64; `okTruth`: a `?:` condition that is no positive multiple of 2^63), and
variables whose value is below 2^63 (`VarIs`). -/
theorem C01_expressions_partial (E : Env) (s : St) (e : Expr) (v : Int) (t : TId) (w : WF s)
    (hv : Val okOp okTruth (VarIs s) e v) (ht : ERep s.nodes t e) : EvalsTo E s t v :=
  eval_expr w hv ht

/-- the restriction only removes values: what is computed is C's value -/
theorem C01_value_is_C {s : St} {e : Expr} {v : Int} (hv : Val okOp okTruth (VarIs s) e v) :
    CVal (VarC s) e v :=
  hv.mono (fun _ _ _ _ h => h.1) (fun _ _ h => h.1) (fun _ _ ⟨t, h1, h2⟩ => ⟨t, h1, h2.imp id fun ⟨c, h, _⟩ => ⟨c, h⟩⟩)

/-- Without `>>`, `/`, `<<` and `?:`, and with no unsigned 64-bit variable, no
restriction is needed: the value C gives is the value computed. -/
def plain : Expr → Prop
  | .lit _ | .var _ => True
  | .bin o a b => o ≠ .div ∧ o ≠ .shl ∧ o ≠ .shr ∧ plain a ∧ plain b
  | .compl a | .lnot a => plain a
  | .land a b | .lor a b | .comma a b => plain a ∧ plain b
  | .cond _ _ _ => False

theorem plain_val {ρ ρ' : String → Int → Prop} (hρ : ∀ x v, ρ x v → ρ' x v) {e v}
    (h : CVal ρ e v) (hp : plain e) : Val okOp okTruth ρ' e v := by
  induction h with
  | lit z => exact .lit z
  | var h => exact .var (hρ _ _ h)
  | @bin o a b x y v _ _ h iha ihb =>
    obtain ⟨h1, h2, h3, h4, h5⟩ := hp
    refine .bin (iha h4) (ihb h5) ⟨h, ?_⟩
    cases o <;> first | trivial | exact absurd rfl h1 | exact absurd rfl h2 | exact absurd rfl h3
  | compl _ h ih => exact .compl (ih hp) h
  | lnot _ h ih => exact .lnot (ih hp) h
  | land_false _ ih => exact .land_false (ih hp.1)
  | land_true _ hx _ hv iha ihb => exact .land_true (iha hp.1) hx (ihb hp.2) hv
  | lor_true _ hx ih => exact .lor_true (ih hp.1) hx
  | lor_false _ _ hv iha ihb => exact .lor_false (iha hp.1) (ihb hp.2) hv
  | cond_true => exact hp.elim
  | cond_false => exact hp.elim
  | comma _ _ iha ihb => exact .comma (iha hp.1) (ihb hp.2)

theorem C01_plain_partial (E : Env) (s : St) (e : Expr) (v : Int) (t : TId) (w : WF s)
    (hp : plain e) (hlong : ∀ x t c v, resolveGlobal x .normal s = some t → Holds s t c v → InRange .long v)
    (hv : CVal (VarC s) e v) (ht : ERep s.nodes t e) : EvalsTo E s t v :=
  eval_expr w (plain_val (fun x _ ⟨t, h1, h2⟩ => ⟨t, h1, h2.imp id fun ⟨c, h⟩ => ⟨c, h, hlong x t c _ h1 h⟩⟩) hv hp) ht

/-- `-7 >> 1` -/
def stShr : St := stOf [.integer (-7), .integer 1, .bin .rshift (some 0) (some 1)] [] []

/-- C01 in full is false: C's `-7 >> 1` is -4, bic's is -3. -/
theorem C01_refuted : ¬ C01_statement := by
  intro h
  have h1 := h E0 stShr (.bin .shr (.lit (-7)) (.lit 1)) (-4) 2 (stOf_WF _ _ _)
    (.bin (.lit _) (.lit _) ⟨1, rfl, by decide⟩)
    (.bin (o := .rshift) (l := 0) (r := 1) rfl (.lit rfl) (.lit rfl))
  have h2 := h1.computed (w := -3) 10 (by decide)
  exact absurd h2 (by decide)

/-- variable `x`, an `int` with value 5, and the expression `(x + 3) * x == 40 && !x` -/
def stExpr : St :=
  stOf [.ident "x", .ctype .int none, .lv (some 1) 4096 false 0, .integer 3,
        .bin .add (some 0) (some 3), .bin .mul (some 4) (some 0), .integer 40,
        .cmp .eq (some 5) (some 6), .negate (some 0), .lAnd (some 7) (some 8)]
    [⟨"x", 0, some 2⟩] [5, 0, 0, 0, 0, 0, 0, 0, 0, 0, 0, 0, 0, 0, 0, 0]

theorem stExpr_x : VarIs stExpr "x" 5 :=
  ⟨2, rfl, .inr ⟨.int, ⟨1, 4096, ⟨⟨_, _, rfl⟩, ⟨_, rfl⟩, .inl trivial, rfl⟩, rfl⟩, by decide⟩⟩

/-- C01 is not vacuous -/
example : EvalsTo E0 stExpr 9 0 :=
  C01_expressions_partial E0 stExpr
    (.land (.bin .eq (.bin .mul (.bin .add (.var "x") (.lit 3)) (.var "x")) (.lit 40)) (.lnot (.var "x")))
    0 9 (stOf_WF _ _ _)
    (.land_true (x := 1) (y := 0)
      (.bin (x := 40) (y := 40)
        (.bin (x := 8) (y := 5) (.bin (x := 5) (y := 3) (.var stExpr_x) (.lit _) ⟨rfl, trivial⟩)
          (.var stExpr_x) ⟨rfl, trivial⟩)
        (.lit _) ⟨.inl ⟨rfl, rfl⟩, trivial⟩)
      (by decide) (.lnot (.var stExpr_x) (.inr ⟨by decide, rfl⟩)) (.inr ⟨by decide, rfl⟩))
    (.land (l := 7) (r := 8) rfl
      (.cmp (o := .eq) (l := 5) (r := 6) rfl
        (.bin (o := .mul) (l := 4) (r := 0) rfl
          (.bin (o := .add) (l := 0) (r := 3) rfl (.var rfl) (.lit rfl)) (.var rfl)) (.lit rfl))
      (.lnot (l := 0) rfl (.var rfl)))

/-! ## C02 -/

/-- C02 in full: whenever the operands have values `a` and `b ≠ 0`, `/` gives
`q` and `%` gives `r` with C's truncating division. -/
def C02_statement : Prop :=
  ∀ (E : Env) (s : St) (ea eb : Expr) (a b q r : Int) (td tm la lb ma mb : TId), WF s →
    Val okOp okTruth (VarIs s) ea a → Val okOp okTruth (VarIs s) eb b → TruncDiv a b q r →
    s.nodes td = some (.bin .div (some la) (some lb)) → ERep s.nodes la ea → ERep s.nodes lb eb →
    s.nodes tm = some (.bin .mod (some ma) (some mb)) → ERep s.nodes ma ea → ERep s.nodes mb eb →
    EvalsTo E s td q ∧ EvalsTo E s tm r

/-- the remainder is right for all operands -/
theorem C02_rem_partial (E : Env) (s : St) (ea eb : Expr) (a b q r : Int) (tm ma mb : TId) (w : WF s)
    (ha : Val okOp okTruth (VarIs s) ea a) (hb : Val okOp okTruth (VarIs s) eb b)
    (hd : TruncDiv a b q r) (hm : s.nodes tm = some (.bin .mod (some ma) (some mb)))
    (hma : ERep s.nodes ma ea) (hmb : ERep s.nodes mb eb) : EvalsTo E s tm r :=
  eval_expr w (.bin (o := .mod) ha hb ⟨⟨q, hd⟩, trivial⟩) (.bin (o := .mod) hm hma hmb)

/-- the quotient is right when the division is exact or the operands have the
same sign -/
theorem C02_div_partial (E : Env) (s : St) (ea eb : Expr) (a b q r : Int) (td la lb : TId) (w : WF s)
    (ha : Val okOp okTruth (VarIs s) ea a) (hb : Val okOp okTruth (VarIs s) eb b)
    (hd : TruncDiv a b q r) (hs : (∃ k, a = k * b) ∨ (0 ≤ a ∧ 0 < b) ∨ (a ≤ 0 ∧ b < 0))
    (hm : s.nodes td = some (.bin .div (some la) (some lb)))
    (hla : ERep s.nodes la ea) (hlb : ERep s.nodes lb eb) : EvalsTo E s td q :=
  eval_expr w (.bin (o := .div) ha hb ⟨⟨r, hd⟩, hs⟩) (.bin (o := .div) hm hla hlb)

/-- every pair of operands with non-zero divisor has a quotient and a remainder -/
theorem C02_total (a : Int) {b : Int} (hb : b ≠ 0) : ∃ q r, TruncDiv a b q r :=
  ⟨_, _, truncDiv_tdiv a hb⟩

/-- `-7 / 2` and `-7 % 2` -/
def stDiv : St :=
  stOf [.integer (-7), .integer 2, .bin .div (some 0) (some 1), .bin .mod (some 0) (some 1)] [] []

/-- C02 in full is false: bic's `-7 / 2` is -4 (and `-7 % 2` is -1, so that even
`(a / b) * b + a % b == a` fails). -/
theorem C02_refuted : ¬ C02_statement := by
  intro h
  have h1 := (h E0 stDiv (.lit (-7)) (.lit 2) (-7) 2 (-3) (-1) 2 3 0 1 0 1 (stOf_WF _ _ _) (.lit _)
    (.lit _) (by unfold TruncDiv; decide) rfl (.lit rfl) (.lit rfl) rfl (.lit rfl) (.lit rfl)).1
  have h2 := h1.computed (w := -4) 10 (by decide)
  exact absurd h2 (by decide)

theorem C02_identity_fails :
    outVal ((run E0 10).ev (some 2) stDiv) = some (-4) ∧
    outVal ((run E0 10).ev (some 3) stDiv) = some (-1) ∧ (-4) * 2 + (-1) ≠ (-7 : Int) := by decide

example : EvalsTo E0 stDiv 3 (-1) :=
  C02_rem_partial E0 stDiv (.lit (-7)) (.lit 2) (-7) 2 (-3) (-1) 3 0 1 (stOf_WF _ _ _) (.lit _) (.lit _)
    (by unfold TruncDiv; decide) rfl (.lit rfl) (.lit rfl)

/-- `-7 / -2` -/
example : EvalsTo E0 (stOf [.integer (-7), .integer (-2), .bin .div (some 0) (some 1)] [] []) 2 3 :=
  C02_div_partial E0 _ (.lit (-7)) (.lit (-2)) (-7) (-2) 3 (-1) 2 0 1 (stOf_WF _ _ _) (.lit _) (.lit _)
    (by unfold TruncDiv; decide) (.inr (.inr (by decide))) rfl (.lit rfl) (.lit rfl)

/-! ## C03 -/

/-- C03: whatever the operands are (they may have side effects) and whatever the
dividend is, if the divisor evaluates to something denoting 0 then evaluating
`l / r` or `l % r` never produces a result. -/
theorem C03_no_result (E : Env) (s s1 s2 : St) (op : BinOp) (hop : op = .div ∨ op = .mod) (t : TId)
    (l r a : Ref) (b : TId) (hn : s.nodes t = some (.bin op l r))
    (hl : Conv E (fun R => R.ev l) s (.ok a s1)) (hr : Conv E (fun R => R.ev r) s1 (.ok (some b) s2))
    (hi : Inv s) (hb : Denotes s2 b 0) :
    ∃ w s', Conv E (fun R => R.ev (some t)) s (.stop w s') ∧
      ∀ n x s'', (run E n).ev (some t) s ≠ .ok x s'' := by
  have wf : WF s2 := (hr.evol (hl.evol hi).inv).inv.wf
  suffices H : ∃ w s', Conv E (fun R => R.ev (some t)) s (.stop w s') by
    obtain ⟨w, s', h⟩ := H
    refine ⟨w, s', h, fun n x s'' hx => ?_⟩
    have := Conv.unique h (Conv.of_ev n hx (by intro h; cases h))
    cases this
  suffices H : ∃ w s', (do
      let a ← liveToInt a
      let b ← liveToInt (some b)
      let x ← asInteger a "non integer operand"
      let y ← asInteger b "non integer operand"
      match applyBin op x y with
      | some z => mkInt z
      | none => stop (.abort "SIGFPE: division by zero")) s2 = .stop w s' by
    obtain ⟨w, s', h⟩ := H
    exact ⟨w, s', Conv.evNode hn (Conv.bind hl (Conv.bind hr (Conv.const h)))⟩
  rcases Quiet.liveToInt a s2 wf with ⟨a', s3, h3, x3⟩ | ⟨k, s', h⟩
  · obtain ⟨b', s4, h4, x4, n4⟩ := liveToInt_apply (x3.wf wf) (hb.ext x3)
    rcases Quiet.asInteger a' "non integer operand" s4 (x4.wf (x3.wf wf)) with ⟨v, s5, h5, x5⟩ | ⟨k, s', h⟩
    · have h0 : applyBin op v 0 = none := by
        rcases hop with rfl | rfl <;> simp [applyBin, mpzDiv, mpzTdivR]
      exact ⟨.abort "SIGFPE: division by zero", s5, by
        simp only [bind_apply, h3, h4, h5, asInteger_apply (x5.nodes _ _ n4), h0]; rfl⟩
    · exact ⟨k, s', by simp [h3, h4, h]⟩
  · exact ⟨k, s', by simp [h]⟩

/-- `1 / x` with `x` an `int` holding 0 -/
def stDiv0 : St :=
  stOf [.ident "x", .ctype .int none, .lv (some 1) 4096 false 0, .integer 1,
        .bin .div (some 3) (some 0)] [⟨"x", 0, some 2⟩] [0, 0, 0, 0]

example : ∃ w s', Conv E0 (fun R => R.ev (some 4)) stDiv0 (.stop w s') ∧
    ∀ n x s'', (run E0 n).ev (some 4) stDiv0 ≠ .ok x s'' :=
  C03_no_result E0 stDiv0 stDiv0 stDiv0 .div (.inl rfl) 4 (some 3) (some 0) (some 3) 2 rfl
    (Conv.of_ev 5 rfl (by intro h; cases h)) (Conv.of_ev 5 rfl (by intro h; cases h)) (stOf_Inv _ _ _)
    (.inr ⟨.int, 0, ⟨1, 4096, ⟨⟨_, _, rfl⟩, ⟨_, rfl⟩, .inl trivial, rfl⟩, rfl⟩, rfl⟩)

/-! ## C04 -/

/-- C04 in full -/
def C04_statement : Prop :=
  ∀ (E : Env) (s : St) (ea eb : Expr) (a v : Int) (n : Nat) (t l r : TId), WF s →
    Val okOp okTruth (VarIs s) ea a → Val okOp okTruth (VarIs s) eb n →
    ERep s.nodes l ea → ERep s.nodes r eb →
    (s.nodes t = some (.bin .lshift (some l) (some r)) → v = a * 2 ^ n → EvalsTo E s t v) ∧
    (s.nodes t = some (.bin .rshift (some l) (some r)) →
      v * 2 ^ n ≤ a → a < (v + 1) * 2 ^ n → EvalsTo E s t v)

/-- C04 for shift counts below 2^64, and for `>>` when `a` is not negative or a
multiple of 2^n -/
theorem C04_shift_partial (E : Env) (s : St) (ea eb : Expr) (a v : Int) (n : Nat) (t l r : TId)
    (w : WF s) (ha : Val okOp okTruth (VarIs s) ea a) (hb : Val okOp okTruth (VarIs s) eb n)
    (hl : ERep s.nodes l ea) (hr : ERep s.nodes r eb) (hn : n < 2 ^ 64) :
    (s.nodes t = some (.bin .lshift (some l) (some r)) → v = a * 2 ^ n → EvalsTo E s t v) ∧
    (s.nodes t = some (.bin .rshift (some l) (some r)) → (0 ≤ a ∨ ∃ k, a = k * 2 ^ n) →
      v * 2 ^ n ≤ a → a < (v + 1) * 2 ^ n → EvalsTo E s t v) := by
  refine ⟨fun ht hv => ?_, fun ht hs h1 h2 => ?_⟩
  · exact eval_expr w (.bin (o := .shl) ha hb ⟨⟨n, rfl, hv⟩, by simp only [side]; omega⟩)
      (.bin (o := .lshift) ht hl hr)
  · exact eval_expr w (.bin (o := .shr) ha hb ⟨⟨n, rfl, h1, h2⟩, by omega, by simpa using hs⟩)
      (.bin (o := .rshift) ht hl hr)

/-- C04 in full is false: `-7 >> 1` is -3. -/
theorem C04_refuted : ¬ C04_statement := by
  intro h
  have h1 := (h E0 stShr (.lit (-7)) (.lit 1) (-7) (-4) 1 2 0 1 (stOf_WF _ _ _) (.lit _) (.lit _)
    (.lit rfl) (.lit rfl)).2 rfl (by decide) (by decide)
  exact absurd (h1.computed (w := -3) 10 (by decide)) (by decide)

/-- and a negative shift count shifts by its absolute value: `8 >> -1` is 4 -/
theorem C04_negative_count :
    outVal ((run E0 10).ev (some 2)
      (stOf [.integer 8, .integer (-1), .bin .rshift (some 0) (some 1)] [] [])) = some 4 := by decide

example : EvalsTo E0 (stOf [.integer (-5), .integer 100, .bin .lshift (some 0) (some 1)] [] []) 2
    (-5 * 2 ^ 100) :=
  (C04_shift_partial E0 _ (.lit (-5)) (.lit 100) (-5) _ 100 2 0 1 (stOf_WF _ _ _) (.lit _) (.lit _)
    (.lit rfl) (.lit rfl) (by decide)).1 rfl rfl

/-! ## C05 -/

/-- C05 in full, for operands that are any expressions with values `a` and `b`
(constants, variables of any integer type, …): each comparison yields 0 or 1 and
they are the comparisons of `a` and `b`. -/
def C05_statement : Prop :=
  ∀ (E : Env) (s : St) (ea eb : Expr) (a b : Int) (op : CmpOp) (t l r : TId), WF s →
    CVal (VarC s) ea a → CVal (VarC s) eb b → plain ea → plain eb →
    s.nodes t = some (.cmp op (some l) (some r)) → ERep s.nodes l ea → ERep s.nodes r eb →
    EvalsTo E s t (match op with
      | .lt => if a < b then 1 else 0
      | .gt => if b < a then 1 else 0
      | .lteq => if b < a then 0 else 1
      | .gteq => if a < b then 0 else 1
      | .eq => if a = b then 1 else 0
      | .neq => if a = b then 0 else 1)

/-- C05 for variables with values below 2^63 (i.e. all variables except
unsigned 64-bit ones with the top bit set) -/
theorem C05_compare_partial (E : Env) (s : St) (ea eb : Expr) (a b : Int) (op : CmpOp) (t l r : TId)
    (w : WF s) (ha : Val okOp okTruth (VarIs s) ea a) (hb : Val okOp okTruth (VarIs s) eb b)
    (ht : s.nodes t = some (.cmp op (some l) (some r))) (hl : ERep s.nodes l ea)
    (hr : ERep s.nodes r eb) :
    EvalsTo E s t (match op with
      | .lt => if a < b then 1 else 0
      | .gt => if b < a then 1 else 0
      | .lteq => if b < a then 0 else 1
      | .gteq => if a < b then 0 else 1
      | .eq => if a = b then 1 else 0
      | .neq => if a = b then 0 else 1) := by
  refine eval_expr w (.bin (o := BOp.ofCmp op) ha hb ⟨?_, by cases op <;> trivial⟩) (.cmp ht hl hr)
  cases op <;> simp only [BOp.ofCmp, cOp, isTruth] <;> split <;> omega

/-- exactly one of `<`, `==`, `>` yields 1 (consequence of the above, spelled
out): the three results are 0 or 1 and add up to 1 -/
theorem C05_trichotomy_partial (E : Env) (s : St) (ea eb : Expr) (a b : Int) (tl te tg l r : TId)
    (w : WF s) (ha : Val okOp okTruth (VarIs s) ea a) (hb : Val okOp okTruth (VarIs s) eb b)
    (h1 : s.nodes tl = some (.cmp .lt (some l) (some r)))
    (h2 : s.nodes te = some (.cmp .eq (some l) (some r)))
    (h3 : s.nodes tg = some (.cmp .gt (some l) (some r))) (hl : ERep s.nodes l ea)
    (hr : ERep s.nodes r eb) :
    ∃ x y z : Int, EvalsTo E s tl x ∧ EvalsTo E s te y ∧ EvalsTo E s tg z ∧
      (x = 0 ∨ x = 1) ∧ (y = 0 ∨ y = 1) ∧ (z = 0 ∨ z = 1) ∧ x + y + z = 1 :=
  ⟨_, _, _, C05_compare_partial E s ea eb a b .lt tl l r w ha hb h1 hl hr,
    C05_compare_partial E s ea eb a b .eq te l r w ha hb h2 hl hr,
    C05_compare_partial E s ea eb a b .gt tg l r w ha hb h3 hl hr, by grind, by grind, by grind, by grind⟩

/-- `x < 0` with `x` an `unsigned long` holding 2^63 -/
def stUlong : St :=
  stOf [.ident "x", .ctype .ulong none, .lv (some 1) 4096 false 0, .integer 0,
        .cmp .lt (some 0) (some 3), .bin .add (some 0) (some 3)]
    [⟨"x", 0, some 2⟩] [0, 0, 0, 0, 0, 0, 0, 128]

theorem stUlong_x : VarC stUlong "x" (2 ^ 63) :=
  ⟨2, rfl, .inr ⟨.ulong, ⟨1, 4096, ⟨⟨_, _, rfl⟩, ⟨_, rfl⟩, .inl trivial, rfl⟩, rfl⟩⟩⟩

/-- C05 in full is false: an unsigned long with the top bit set is "less than 0". -/
theorem C05_refuted : ¬ C05_statement := by
  intro h
  have h1 := h E0 stUlong (.var "x") (.lit 0) (2 ^ 63) 0 .lt 4 0 3 (stOf_WF _ _ _) (.var stUlong_x)
    (.lit _) trivial trivial rfl (.var rfl) (.lit rfl)
  exact absurd (h1.computed (w := 1) 10 (by decide)) (by decide)

example : EvalsTo E0 stExpr 7 1 :=
  C05_compare_partial E0 stExpr (.bin .mul (.bin .add (.var "x") (.lit 3)) (.var "x")) (.lit 40) 40 40 .eq
    7 5 6 (stOf_WF _ _ _)
    (.bin (x := 8) (y := 5) (.bin (x := 5) (y := 3) (.var stExpr_x) (.lit _) ⟨rfl, trivial⟩)
          (.var stExpr_x) ⟨rfl, trivial⟩) (.lit _) rfl
    (.bin (o := .mul) (l := 4) (r := 0) rfl
          (.bin (o := .add) (l := 0) (r := 3) rfl (.var rfl) (.lit rfl)) (.var rfl)) (.lit rfl)

/-! ## C06 -/

/-- C06 in full: for a variable `x` of integer type whose bytes represent `w`,
`x + k` is `w + k` for every `k`. -/
def C06_statement : Prop :=
  ∀ (E : Env) (s : St) (x : String) (v τ : TId) (c : CT) (a : Nat) (w k : Int) (t l r : TId), WF s →
    resolveGlobal x .normal s = some v → LvAt s v τ c a → integral c →
    Represents c (bytesAt s.mem a c.size) w →
    s.nodes t = some (.bin .add (some l) (some r)) → s.nodes l = some (.ident x) →
    s.nodes r = some (.integer k) → EvalsTo E s t (w + k)

/-- C06 for every content of the eight types other than the unsigned 64-bit
ones, and for those when the value is below 2^63 -/
theorem C06_read_partial (E : Env) (s : St) (x : String) (v τ : TId) (c : CT) (a : Nat) (w k : Int)
    (t l r : TId) (wf : WF s) (hx : resolveGlobal x .normal s = some v) (hl : LvAt s v τ c a)
    (hi : integral c) (hw : Represents c (bytesAt s.mem a c.size) w)
    (hu : (c ≠ .ulong ∧ c ≠ .ulonglong) ∨ w < 2 ^ 63)
    (ht : s.nodes t = some (.bin .add (some l) (some r))) (hn : s.nodes l = some (.ident x))
    (hk : s.nodes r = some (.integer k)) : EvalsTo E s t (w + k) := by
  have hh : Holds s v c w := (hl.holds_iff w).mpr hw
  have hlong : InRange .long w := by
    rcases hu with ⟨h1, h2⟩ | h
    · exact inRange_long_of hi h1 h2 hh.inRange
    · have := hh.inRange
      refine ⟨?_, by simpa [Spec.hi, signed, width] using h⟩
      cases c <;> simp [integral] at hi <;>
        simp [InRange, lo, signed, width] at this ⊢ <;> omega
  exact eval_expr wf (.bin (o := .add) (.var ⟨v, hx, .inr ⟨c, hh, hlong⟩⟩) (.lit k) ⟨rfl, trivial⟩)
    (.bin (o := .add) ht (.var hn) (.lit hk))

/-- C06 in full is false for unsigned long: 2^63 is read as -2^63. -/
theorem C06_refuted : ¬ C06_statement := by
  intro h
  have h1 := h E0 stUlong "x" 2 1 .ulong 4096 (2 ^ 63) 0 5 0 3 (stOf_WF _ _ _) rfl
    ⟨⟨_, _, rfl⟩, ⟨_, rfl⟩, .inl trivial, rfl⟩ trivial ⟨rfl, by decide, 0, by decide⟩ rfl rfl rfl
  exact absurd (h1.computed (w := -2 ^ 63) 10 (by decide)) (by decide)

/-- a `char` holding the byte 200 reads as -56 -/
example : EvalsTo E0 (stOf [.ident "x", .ctype .char none, .lv (some 1) 4096 false 0, .integer 1,
        .bin .add (some 0) (some 3)] [⟨"x", 0, some 2⟩] [200]) 4 (-56 + 1) :=
  C06_read_partial E0 _ "x" 2 1 .char 4096 (-56) 1 4 0 3 (stOf_WF _ _ _) rfl
    ⟨⟨_, _, rfl⟩, ⟨_, rfl⟩, .inl trivial, rfl⟩ trivial ⟨rfl, by decide, 1, by decide⟩
    (.inl (by decide)) rfl rfl rfl

end Bic
