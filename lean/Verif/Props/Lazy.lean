import Verif.Proofs.Witness
import Verif.Proofs.Control
/-!
# C68, C69, C70: operators that evaluate their operands in a fixed order

The operands are arbitrary trees: they may call functions, assign to variables, end
the program or never end.
-/

namespace Bic
open Spec

/-! ## Specification -/

/-- evaluating `t` in `s` ends with a value, the integer `v`, in the state `s'` -/
def Yields (E : Env) (s : St) (t : TId) (v : Int) (s' : St) : Prop :=
  ∃ r, Conv E (fun R => R.ev (some t)) s (.ok (some r) s') ∧ WF s' ∧ Denotes s' r v

/-- evaluating `t` in `s` ends with the integer `v`; the state differs from `s'` at
most by new tree objects -/
def GivesInt (E : Env) (s : St) (t : TId) (v : Int) (s' : St) : Prop :=
  ∃ r s1, Conv E (fun R => R.ev (some t)) s (.ok (some r) s1) ∧ s1.nodes r = some (.integer v) ∧ Ext s' s1

/-- `t`, evaluated in `s`, does whatever `t'` does when evaluated in `s'`: it has the
same result, stops for the same reason or does not end either -/
def SameRun (E : Env) (s : St) (t : TId) (s' : St) (t' : Ref) : Prop :=
  ∀ o, Conv E (fun R => R.ev (some t)) s o ↔ Conv E (fun R => R.ev t') s' o

/-- the trees `ts` evaluated one after the other; `r` is the result of the last -/
inductive InOrder (E : Env) : St → List TId → Ref → Ref → St → Prop
  | nil {s r} : InOrder E s [] r r s
  | cons {s s1 s' t ts r0 r r'} : Conv E (fun R => R.ev (some t)) s (.ok r s1) → InOrder E s1 ts r r' s' →
      InOrder E s (t :: ts) r0 r' s'

/-! ## C68 -/

theorem Conv.bind_iff {E : Env} {s s' : St} {f : Rec → M α} {g : Rec → α → M β} {a : α} {o : Out β}
    (h : Conv E f s (.ok a s')) : Conv E (fun R => f R >>= g R) s o ↔ Conv E (fun R => g R a) s' o := by
  refine ⟨fun ⟨N, hN⟩ => ?_, Conv.bind h⟩
  obtain ⟨K, hK⟩ := h
  refine ⟨max N K, fun n hn => ?_⟩
  have := hN n (by omega)
  simp only [bind_apply, hK n (by omega)] at this
  exact this

theorem Conv.evNode_iff {E : Env} {s : St} {t : TId} {nd : Node} {o : Out Ref} (hn : s.nodes t = some nd) :
    Conv E (fun R => R.ev (some t)) s o ↔ Conv E (fun R => evalNode E R t nd) s o := by
  refine ⟨fun ⟨N, hN⟩ => ⟨N, fun n hn' => ?_⟩, Conv.evNode hn⟩
  have h1 : (run E (n + 1)).ev (some t) s = o := hN (n + 1) (by omega)
  have h2 : (run E (n + 1)).ev (some t) s = evalNode E (run E n) t nd s := by
    show evStep E (run E n) (some t) s = _
    simp [evStep, node_apply hn]
  exact h2.symm.trans h1

theorem Yields.comparable {E : Env} {s s' : St} {t : TId} {v : Int} (h : Yields E s t v s') :
    ∃ s2, Conv E (fun R => convComparable R (some t)) s (.ok v s2) ∧ Ext s' s2 := by
  obtain ⟨r, h1, w, d⟩ := h
  exact convComparable_conv h1 w d

theorem givesInt {E : Env} {s s1 s2 : St} {t : TId} {v : Int} (w : WF s1) (x : Ext s1 s2)
    (h : Conv E (fun R => R.ev (some t)) s (mkInt v s2)) : GivesInt E s t v s1 :=
  ⟨s2.next, _, by simpa [mkInt_apply] using h, addNode_self _ _, x.trans (addNode_ext (x.wf w) _)⟩

/-- C68, `&&`: if the left operand gives 0 the value is 0 and nothing else happens,
whatever the right operand is; otherwise the right operand is evaluated next, and the
value is its truth value; an operand that stops the program stops the whole. -/
theorem C68_and (E : Env) (s s1 : St) (t l r : TId) (a : Int) (ht : s.nodes t = some (.lAnd (some l) (some r)))
    (hl : Yields E s l a s1) :
    (a = 0 → GivesInt E s t 0 s1) ∧
    (a ≠ 0 → ∃ s2, Ext s1 s2 ∧
      (∀ b s3, Yields E s2 r b s3 → GivesInt E s t (if b = 0 then 0 else 1) s3) ∧
      (∀ k s3, Conv E (fun R => R.ev (some r)) s2 (.stop k s3) → Conv E (fun R => R.ev (some t)) s (.stop k s3))) := by
  obtain ⟨s2, h2, x2⟩ := hl.comparable
  obtain ⟨_, _, w1, _⟩ := hl
  refine ⟨fun h0 => ?_, fun h0 => ⟨s2, x2, fun b s3 hr => ?_, fun k s3 hr => ?_⟩⟩
  · subst h0
    refine givesInt w1 x2 (Conv.evNode ht ?_)
    exact Conv.bind h2 (Conv.fixed fun _ => rfl)
  · obtain ⟨s4, h4, x4⟩ := hr.comparable
    obtain ⟨_, _, w3, _⟩ := hr
    refine givesInt w3 x4 (Conv.evNode ht ?_)
    refine Conv.bind h2 ?_
    simp only [if_neg h0]
    exact Conv.bind h4 (Conv.const rfl)
  · refine Conv.evNode ht (Conv.bind h2 ?_)
    simp only [if_neg h0]
    exact Conv.bind_stop (Conv.bind_stop hr)

/-- C68, `||`: if the left operand does not give 0 the value is 1 and nothing else
happens; otherwise the right operand is evaluated next. -/
theorem C68_or (E : Env) (s s1 : St) (t l r : TId) (a : Int) (ht : s.nodes t = some (.lOr (some l) (some r)))
    (hl : Yields E s l a s1) :
    (a ≠ 0 → GivesInt E s t 1 s1) ∧
    (a = 0 → ∃ s2, Ext s1 s2 ∧
      (∀ b s3, Yields E s2 r b s3 → GivesInt E s t (if b = 0 then 0 else 1) s3) ∧
      (∀ k s3, Conv E (fun R => R.ev (some r)) s2 (.stop k s3) → Conv E (fun R => R.ev (some t)) s (.stop k s3))) := by
  obtain ⟨s2, h2, x2⟩ := hl.comparable
  obtain ⟨_, _, w1, _⟩ := hl
  refine ⟨fun h0 => ?_, fun h0 => ⟨s2, x2, fun b s3 hr => ?_, fun k s3 hr => ?_⟩⟩
  · refine givesInt w1 x2 (Conv.evNode ht ?_)
    exact Conv.bind h2 (Conv.fixed fun _ => by rw [if_neg h0])
  · subst h0
    obtain ⟨s4, h4, x4⟩ := hr.comparable
    obtain ⟨_, _, w3, _⟩ := hr
    refine givesInt w3 x4 (Conv.evNode ht ?_)
    refine Conv.bind h2 ?_
    simp only [if_true]
    exact Conv.bind h4 (Conv.const rfl)
  · subst h0
    refine Conv.evNode ht (Conv.bind h2 ?_)
    simp only [if_true]
    exact Conv.bind_stop (Conv.bind_stop hr)

/-- C68, `?:` with a condition whose value is one of type `long` or smaller: after
the condition it does exactly what the selected operand does. -/
theorem C68_conditional (E : Env) (s s1 : St) (t c : TId) (x y : Ref) (v : Int)
    (ht : s.nodes t = some (.infix (some c) x y)) (hc : Yields E s c v s1) (hv : InRange .long v) :
    ∃ s2, Ext s1 s2 ∧ (v ≠ 0 → SameRun E s t s2 x) ∧ (v = 0 → SameRun E s t s2 y) := by
  obtain ⟨s2, h2, x2⟩ := hc.comparable
  have hv : -(2 ^ 63) ≤ v ∧ v < 2 ^ 63 := by simpa [InRange, lo, hi, signed, width] using hv
  have hz : mpzGetSi v = v := mpzGetSi_eq hv.1 hv.2
  refine ⟨s2, x2, fun h0 o => ?_, fun h0 o => ?_⟩
  · refine (Conv.evNode_iff ht).trans ((Conv.bind_iff h2).trans ?_)
    simp only [hz, if_neg h0]
  · subst h0
    refine (Conv.evNode_iff ht).trans ((Conv.bind_iff h2).trans ?_)
    simp [mpzGetSi]

/-- `x` is 0; `x && *0`, `!0 || *0`; `x && (x = 5)`; `5 && (x = 5)`; `5 ? (x = 5) : *0` -/
def stLazy : St :=
  stOf [.ident "x", .ctype .int none, .lv (some 1) 4096 false 0, .integer 0, .deref (some 3),
        .lAnd (some 0) (some 4), .integer 5, .lOr (some 6) (some 4), .assign (some 0) (some 6),
        .lAnd (some 6) (some 8), .infix (some 6) (some 8) (some 4), .comma (some 8) (some 0), .chain [8, 0],
        .exprList (some 12)] [⟨"x", 0, some 2⟩] [0, 0, 0, 0]

theorem stLazy_x : Yields E0 stLazy 0 0 stLazy :=
  ⟨2, Conv.computed 5 (by decide +kernel), stOf_WF _ _ _,
    .inr ⟨.int, 0, ⟨1, 4096, ⟨⟨false, 0, rfl⟩, ⟨none, rfl⟩, .inl (by decide), by decide +kernel⟩, by decide +kernel⟩,
      by decide⟩⟩

theorem yields_int {E : Env} {s : St} {t : TId} {v : Int} (w : WF s) (h : s.nodes t = some (.integer v)) :
    Yields E s t v s := ⟨t, Conv.evNode h (Conv.pure _), w, .inl h⟩

/-- evaluating the right operand would end the program -/
example : ∃ k s', Conv E0 (fun R => R.ev (some 4)) stLazy (.stop k s') :=
  ⟨_, _, Conv.of_ev 5 rfl (by intro h; cases h)⟩

example : GivesInt E0 stLazy 5 0 stLazy := (C68_and E0 stLazy stLazy 5 0 4 0 rfl stLazy_x).1 rfl

example : GivesInt E0 stLazy 7 1 stLazy :=
  (C68_or E0 stLazy stLazy 7 6 4 5 rfl (yields_int (stOf_WF _ _ _) rfl)).1 (by decide)

/-- the state after `x = 5` -/
def stLazy5 : St := evTo 6 8 stLazy

theorem stLazy_assign : Conv E0 (fun R => R.ev (some 8)) stLazy (.ok (some 6) stLazy5) :=
  evTo_conv 6 8 stLazy _ (by decide +kernel) (by decide +kernel)

example : ∃ s2, Ext stLazy s2 ∧ SameRun E0 stLazy 10 s2 (some 8) := by
  obtain ⟨s2, x, h, _⟩ := C68_conditional E0 stLazy stLazy 10 6 (some 8) (some 4) 5 rfl
    (yields_int (stOf_WF _ _ _) rfl) (by decide)
  exact ⟨s2, x, h (by decide)⟩

/-! ## C69 -/

/-- C69: `l , r` evaluates `l` and then does exactly what `r` does in the state `l`
left. -/
theorem C69_comma (E : Env) (s s1 : St) (t : TId) (l r q : Ref) (ht : s.nodes t = some (.comma l r))
    (hl : Conv E (fun R => R.ev l) s (.ok q s1)) : SameRun E s t s1 r :=
  fun _ => (Conv.evNode_iff ht).trans (Conv.bind_iff hl)

/-- C69: an operand that stops the program, or never ends, keeps the right operand
from being evaluated. -/
theorem C69_stops (E : Env) (s s1 : St) (t : TId) (l r : Ref) (k : Stop) (ht : s.nodes t = some (.comma l r))
    (hl : Conv E (fun R => R.ev l) s (.stop k s1)) : Conv E (fun R => R.ev (some t)) s (.stop k s1) :=
  Conv.evNode ht (Conv.bind_stop hl)

theorem forEachLast_inOrder {E : Env} {s s' : St} {ts : List TId} {r r' : Ref} (h : InOrder E s ts r r' s') :
    Conv E (fun R => forEachLast (fun t => R.ev (some t)) r ts) s (.ok r' s') := by
  induction h with
  | nil => exact Conv.pure _
  | cons h _ ih => exact Conv.bind h ih

/-- C69, parenthesised lists of expressions: the expressions are evaluated from left to
right and the value is that of the last. -/
theorem C69_list (E : Env) (s s' : St) (t c : TId) (ts : List TId) (r : Ref)
    (ht : s.nodes t = some (.exprList (some c))) (hc : s.nodes c = some (.chain ts))
    (h : InOrder E s ts none r s') : Conv E (fun R => R.ev (some t)) s (.ok r s') := by
  refine Conv.evNode ht ?_
  refine (forEachLast_inOrder h).of_eq fun R => ?_
  simp [evalNode, evalExprList, chainElems_apply hc]

example : SameRun E0 stLazy 11 stLazy5 (some 0) := C69_comma E0 stLazy stLazy5 11 (some 8) (some 0) _ rfl stLazy_assign

example : Conv E0 (fun R => R.ev (some 13)) stLazy (.ok (some 2) stLazy5) :=
  C69_list E0 stLazy stLazy5 13 12 [8, 0] (some 2) rfl rfl
    (.cons stLazy_assign (.cons (evTo_conv 6 0 stLazy5 _ (by decide +kernel) (by decide +kernel)) .nil))

/-! ## C70 -/

/-- C70 in full: `f(…) op g(…)` combines the values the two calls gave, in one of the
two orders -/
def C70_statement : Prop :=
  ∀ (E : Env) (s s1 s2 s1' s2' : St) (t l r : TId) (o : BinOp) (a b a' b' v v' : Int) (f g x y : Ref),
    s.nodes t = some (.bin o (some l) (some r)) → s.nodes l = some (.fnCall f x) → s.nodes r = some (.fnCall g y) →
    Yields E s l a s1 → Yields E s1 r b s2 → okOp (BOp.ofBin o) a b v →
    Yields E s r b' s1' → Yields E s1' l a' s2' → okOp (BOp.ofBin o) a' b' v' →
    GivesInt E s t v s2 ∨ GivesInt E s t v' s2'

/-- C70 where the result of the left operand is not a variable that the right operand
changes: each operand is evaluated once, the left one first, and their values are
combined. -/
theorem C70_arithmetic_partial (E : Env) (s s1 s2 : St) (t l r x : TId) (o : BinOp) (a b v : Int)
    (ht : s.nodes t = some (.bin o (some l) (some r)))
    (hl : Conv E (fun R => R.ev (some l)) s (.ok (some x) s1)) (hr : Yields E s1 r b s2)
    (hx : Denotes s2 x a) (hv : okOp (BOp.ofBin o) a b v) : GivesInt E s t v s2 := by
  obtain ⟨y, h2, w2, d2⟩ := hr
  obtain ⟨l', s3, e3, x3, n3⟩ := liveToInt_apply w2 hx
  obtain ⟨r', s4, e4, x4, n4⟩ := liveToInt_apply (x3.wf w2) (d2.ext x3)
  refine givesInt w2 (x3.trans x4) (Conv.evNode ht ?_)
  refine Conv.bind hl (Conv.bind h2 (Conv.const ?_))
  simp only [bind_apply, e3, e4, asInteger_apply (x4.nodes _ _ n3), asInteger_apply n4, applyBin_spec hv]

/-- C70, comparisons: each operand is evaluated once, the left one first, and the
values they had when they were evaluated are compared. -/
theorem C70_compare (E : Env) (s s1 : St) (t l r : TId) (o : CmpOp) (a v : Int)
    (ht : s.nodes t = some (.cmp o (some l) (some r))) (hl : Yields E s l a s1) :
    ∃ s1', Ext s1 s1' ∧ ∀ b s2, Yields E s1' r b s2 → cOp (BOp.ofCmp o) a b v → GivesInt E s t v s2 := by
  obtain ⟨s1', h1, x1⟩ := hl.comparable
  refine ⟨s1', x1, fun b s2 hr hv => ?_⟩
  obtain ⟨s3, h3, x3⟩ := hr.comparable
  obtain ⟨_, _, w2, _⟩ := hr
  refine givesInt w2 x3 (Conv.evNode ht ?_)
  refine Conv.bind h1 (Conv.bind h3 (Conv.const ?_))
  rw [applyCmp_spec hv]

/-- `int x = 1; f() { x = x + 1; return x; } g() { x = x * 10; return 0; }`, `f() + g()`
(22), `f() < g()` (23), `7 + g()` (24) -/
def stAlias : St :=
  stOf [.ident "x", .ctype .int none, .lv (some 1) 4096 false 0, .integer 1, .integer 10, .integer 0,
        .bin .add (some 0) (some 3), .assign (some 0) (some 6), .ret (some 0), .chain [7, 8],
        .ident "f", .fn (some 10) none none (some 9),
        .bin .mul (some 0) (some 4), .assign (some 0) (some 12), .ret (some 5), .chain [13, 14],
        .ident "g", .fn (some 16) none none (some 15),
        .fnCall (some 10) none, .fnCall (some 16) none, .integer 7, .empty,
        .bin .add (some 18) (some 19), .cmp .lt (some 18) (some 19), .bin .add (some 20) (some 19)]
    [⟨"x", 0, some 2⟩, ⟨"f", 10, some 11⟩, ⟨"g", 16, some 17⟩] [1, 0, 0, 0]

def stAliasF : St := evTo 12 18 stAlias
def stAliasFG : St := evTo 12 19 stAliasF
def stAliasG : St := evTo 12 19 stAlias
def stAliasGF : St := evTo 12 18 stAliasG

theorem evTo_Inv {n : Nat} {t : TId} {s : St} (hi : Inv s) (hok : isOk ((run E0 n).ev (some t) s) = true) :
    Inv (evTo n t s) := ((Conv.computed n hok).evol hi).inv

theorem stAlias_f : isOk ((run E0 12).ev (some 18) stAlias) = true := by decide +kernel
theorem stAlias_g : isOk ((run E0 12).ev (some 19) stAlias) = true := by decide +kernel
theorem stAlias_fg : isOk ((run E0 12).ev (some 19) stAliasF) = true := by decide +kernel
theorem stAlias_gf : isOk ((run E0 12).ev (some 18) stAliasG) = true := by decide +kernel
theorem stAlias_f_ref : outRef ((run E0 12).ev (some 18) stAlias) = some 2 := by decide +kernel
theorem stAlias_g_ref : outRef ((run E0 12).ev (some 19) stAlias) = some 5 := by decide +kernel
theorem stAlias_fg_ref : outRef ((run E0 12).ev (some 19) stAliasF) = some 5 := by decide +kernel
theorem stAlias_gf_ref : outRef ((run E0 12).ev (some 18) stAliasG) = some 2 := by decide +kernel
theorem stAliasF_inv : Inv stAliasF := evTo_Inv (stOf_Inv _ _ _) stAlias_f
theorem stAliasG_inv : Inv stAliasG := evTo_Inv (stOf_Inv _ _ _) stAlias_g

theorem stAliasF_x : Denotes stAliasF 2 2 :=
  .inr ⟨.int, 2, ⟨1, 4096, ⟨⟨false, 0, by decide +kernel⟩, ⟨none, by decide +kernel⟩, .inl (by decide), by decide +kernel⟩,
    by decide +kernel⟩, by decide⟩

theorem stAliasGF_x : Denotes stAliasGF 2 11 :=
  .inr ⟨.int, 11, ⟨1, 4096, ⟨⟨false, 0, by decide +kernel⟩, ⟨none, by decide +kernel⟩, .inl (by decide), by decide +kernel⟩,
    by decide +kernel⟩, by decide⟩

theorem stAlias_yf : Yields E0 stAlias 18 2 stAliasF :=
  ⟨2, evTo_conv 12 18 stAlias _ stAlias_f stAlias_f_ref, stAliasF_inv.wf, stAliasF_x⟩
theorem stAlias_yg : Yields E0 stAlias 19 0 stAliasG :=
  ⟨5, evTo_conv 12 19 stAlias _ stAlias_g stAlias_g_ref, stAliasG_inv.wf, .inl (by decide +kernel)⟩
theorem stAlias_yfg : Yields E0 stAliasF 19 0 stAliasFG :=
  ⟨5, evTo_conv 12 19 stAliasF _ stAlias_fg stAlias_fg_ref, (evTo_Inv stAliasF_inv stAlias_fg).wf, .inl (by decide +kernel)⟩
theorem stAlias_ygf : Yields E0 stAliasG 18 11 stAliasGF :=
  ⟨2, evTo_conv 12 18 stAliasG _ stAlias_gf stAlias_gf_ref, (evTo_Inv stAliasG_inv stAlias_gf).wf, stAliasGF_x⟩

theorem GivesInt.computed {E : Env} {s s' : St} {t : TId} {v w : Int} (h : GivesInt E s t v s') (n : Nat)
    (hc : outVal ((run E n).ev (some t) s) = some w) : v = w := by
  obtain ⟨r, s1, h1, h2, _⟩ := h
  have hne : (run E n).ev (some t) s ≠ .fuel := by
    intro hf; rw [hf] at hc; cases hc
  have := Conv.unique h1 (Conv.of_ev n rfl hne)
  rw [← this, outVal_denotes (.inl h2)] at hc
  exact Option.some.inj hc

theorem stAlias_sum : outVal ((run E0 12).ev (some 22) stAlias) = some 20 := by decide +kernel

/-- C70 in full is false: a call that returns a variable gives the variable, not its
value, so that the other operand can still change it; `f() + g()` above is 20, neither
2 + 0 nor 11 + 0. -/
theorem C70_refuted : ¬ C70_statement := by
  intro h
  rcases h E0 stAlias stAliasF stAliasFG stAliasG stAliasGF 22 18 19 .add 2 0 11 0 2 11 _ _ _ _ rfl rfl rfl
    stAlias_yf stAlias_yfg ⟨rfl, trivial⟩ stAlias_yg stAlias_ygf ⟨rfl, trivial⟩ with h | h
  · have := h.computed 12 stAlias_sum; omega
  · have := h.computed 12 stAlias_sum; omega

/-- `7 + g()` -/
example : GivesInt E0 stAlias 24 7 stAliasG :=
  C70_arithmetic_partial E0 stAlias stAlias stAliasG 24 20 19 20 .add 7 0 7 rfl (Conv.evNode rfl (Conv.pure _))
    stAlias_yg (.inl (by decide +kernel)) ⟨rfl, trivial⟩

example : ∃ s1', Ext stAliasF s1' ∧ ∀ b s2, Yields E0 s1' 19 b s2 → cOp .lt 2 b 0 → GivesInt E0 stAlias 23 0 s2 :=
  C70_compare E0 stAlias stAliasF 23 18 19 .lt 2 0 rfl stAlias_yf

end Bic
