import Verif.Props.Assign
import Verif.Proofs.Alloc
/-!
# C10–C14, C62: values of assignments, compound assignment, increment, casts
-/

namespace Bic
open Spec

/-! ## C10 -/

/-- what C10 says of `a = (b = n)`: the variables `a`, `b` of types `c`, `d` at
disjoint addresses; after evaluation `a` holds the value `b` holds, converted to the
type of `a`. -/
def Chained (E : Env) (c d : CT) (n : Int) : Prop :=
  ∀ (s : St) (t u la lb k a b τ τ' : TId) (x y : String) (pa pb : Nat), Inv s →
    s.nodes t = some (.assign (some la) (some u)) → s.nodes u = some (.assign (some lb) (some k)) →
    s.nodes la = some (.ident x) → s.nodes lb = some (.ident y) → s.nodes k = some (.integer n) →
    resolveGlobal x .normal s = some a → resolveGlobal y .normal s = some b →
    LvAt s a τ c pa → LvAt s b τ' d pb → (pa + c.size ≤ pb ∨ pb + d.size ≤ pa) →
    ∃ z s' v w, Conv E (fun R => R.ev (some t)) s (.ok z s') ∧
      Represents d (bytesAt s'.mem pb d.size) v ∧ Converts c v w ∧
      Represents c (bytesAt s'.mem pa c.size) w

/-- C10 in full -/
def C10_statement : Prop := ∀ E c d n, integral c → integral d → Chained E c d n

theorem converts_narrow {c d : CT} {n v w : Int} (hcd : width c ≤ width d)
    (h : Converts c n w) (hv : Converts d n v) : Converts c v w := by
  obtain ⟨_, k, hk⟩ := hv
  refine converts_of_congr h (-(k * 2 ^ (width d - width c))) ?_
  have hw : (2 : Int) ^ width d = 2 ^ (width d - width c) * 2 ^ width c := by
    rw [← Int.pow_add, Nat.sub_add_cancel hcd]
  rw [hw, ← Int.mul_assoc] at hk
  rw [Int.neg_mul]; omega

theorem bytesAt_congr {m m' : Mem} {a n : Nat} (h : ∀ x, a ≤ x → x < a + n → m.byte x = m'.byte x) :
    bytesAt m a n = bytesAt m' a n := by
  induction n generalizing a with
  | zero => rfl
  | succ n ih =>
    rw [bytesAt, bytesAt, h a (by omega) (by omega), ih fun x h1 h2 => h x (by omega) (by omega)]

/-- C10 when `n` is a value of the type of `b`, or the type of `a` is not wider than
that of `b`; 64-bit types only with `n` in the range of `long`.  (Otherwise `a`
receives `n`, not the value of `b`: `C10_refuted`.) -/
theorem C10_chained_partial (E : Env) (c d : CT) (n : Int) (hc : integral c) (hd : integral d)
    (h : InRange d n ∨ width c ≤ width d)
    (hn : (-2 ^ 63 ≤ n ∧ n < 2 ^ 63) ∨ (width c ≤ 32 ∧ width d ≤ 32)) : Chained E c d n := by
  intro s t u la lb k a b τ τ' x y pa pb hi ht hu hla hlb hk hx hy ha hb hdis
  have h1 := ident_conv (E := E) hla hx
  have h2 := ident_conv (E := E) hlb hy
  have h3 : Conv E (fun R => R.ev (some k)) s (.ok (some k) s) := Conv.evNode hk (Conv.pure _)
  have h4 := assign_conv hu h2 h3 hb hd (.int hk)
  have h5 := assign_conv ht h1 h4 (ha.wr d.size pb _) hc (.int hk)
  have hcv : Converts c n (c.decode (c.encode (mpzGetSi n))) := getSi_converts hc (by omega)
  have hdv : Converts d n (d.decode (d.encode (mpzGetSi n))) := getSi_converts hd (by omega)
  refine ⟨_, _, d.decode (d.encode (mpzGetSi n)), c.decode (c.encode (mpzGetSi n)), h5, ?_, ?_, ((ha.wr _ _ _).wr _ _ _).holds_iff _ |>.mp ((ha.wr _ _ _).holds_wr _)⟩
  · have := ((hb.wr _ _ _).holds_iff _).mp (hb.holds_wr (mpzGetSi n))
    rwa [bytesAt_congr (m' := (wr s d.size pb (d.encode (mpzGetSi n))).mem)]
    intro z h1 h2
    exact Mem.store_byte_other _ _ _ _ _ (by omega)
  · rcases h with h | h
    · rwa [Converts.unique (.inl hd) hdv (Converts.self h)]
    · exact converts_narrow h hcv hdv

/-- `x = (y = n)` -/
def stChain (c d : CT) (n : Int) (bs : List Byte) : St :=
  stOf [.ident "x", .ctype c none, .lv (some 1) 4096 false 0,
        .ident "y", .ctype d none, .lv (some 4) 4112 false 0,
        .integer n, .assign (some 3) (some 6), .assign (some 0) (some 7)]
    [⟨"x", 0, some 2⟩, ⟨"y", 3, some 5⟩] bs

theorem stChain_lv (c d n) (bs : List Byte) (hc : integral c) (hd : integral d) (h : bs.length = 32) :
    LvAt (stChain c d n bs) 2 1 c 4096 ∧ LvAt (stChain c d n bs) 5 4 d 4112 := by
  have h1 : c.size ≤ 8 := by cases c <;> simp [integral] at hc <;> decide
  have h2 : d.size ≤ 8 := by cases d <;> simp [integral] at hd <;> decide
  exact ⟨⟨⟨_, _, rfl⟩, ⟨_, rfl⟩, .inl hc, by
      rw [Mem.ok_iff]; intro y h1 h2; simp [stChain, stOf, memOf]; omega⟩,
    ⟨⟨_, _, rfl⟩, ⟨_, rfl⟩, .inl hd, by
      rw [Mem.ok_iff]; intro y h1 h2; simp [stChain, stOf, memOf]; omega⟩⟩

example : ∃ z s' v w, Conv E0 (fun R => R.ev (some 8)) (stChain .uchar .short (-300) bytesY) (.ok z s') ∧
    Represents .short (bytesAt s'.mem 4112 2) v ∧ Converts .uchar v w ∧
    Represents .uchar (bytesAt s'.mem 4096 1) w :=
  C10_chained_partial E0 .uchar .short (-300) trivial trivial (.inl (by decide)) (.inl (by decide))
    _ 8 7 0 3 6 2 5 1 4 "x" "y" 4096 4112 (stOf_Inv _ _ _) rfl rfl rfl rfl rfl rfl rfl
    (stChain_lv _ _ _ _ (by decide) (by decide) rfl).1 (stChain_lv _ _ _ _ (by decide) (by decide) rfl).2 (.inl (by decide))

/-- C10 in full is false: with `int a; char b;`, `a = (b = 300)` leaves 300 in `a`
and 44 in `b`. -/
theorem C10_refuted : ¬ C10_statement := by
  intro h
  obtain ⟨z, s', v, w, h1, h2, h3, h4⟩ := h E0 .int .char 300 trivial trivial
    (stChain .int .char 300 bytesY) 8 7 0 3 6 2 5 1 4 "x" "y" 4096 4112 (stOf_Inv _ _ _)
    rfl rfl rfl rfl rfl rfl rfl
    (stChain_lv _ _ _ _ (by decide) (by decide) rfl).1 (stChain_lv _ _ _ _ (by decide) (by decide) rfl).2 (.inl (by decide))
  have hb : bytesAt s'.mem 4112 1 = [44] := bytesAfter_conv 10 (by decide) h1
  have ha : bytesAt s'.mem 4096 4 = [44, 1, 0, 0] := bytesAfter_conv 10 (by decide) h1
  have e1 : v = 44 := by
    refine Converts.unique (c := .char) (.inl trivial) h2.2 ?_
    rw [show bytesAt s'.mem 4112 CT.char.size = _ from hb]
    exact ⟨by decide, 0, by decide⟩
  subst e1
  have e2 : w = 44 := Converts.unique (c := .int) (.inl trivial) h3 (Converts.self (by decide))
  have e3 : w = 300 := by
    refine Converts.unique (c := .int) (.inl trivial) h4.2 ?_
    rw [show bytesAt s'.mem 4096 CT.int.size = _ from ha]
    exact ⟨by decide, 0, by decide⟩
  omega

/-! ## C11 -/

/-- C11 in full: the tree the parser builds for `l op= r`, evaluated where `l`
evaluates to the variable `x` and then `r` to something, changes nothing more than
these evaluations do, except `x`. -/
def C11_statement : Prop :=
  ∀ (E : Env) (s s0 s1 s2 s' : St) (op : BinOp) (l r q y : Ref) (t x τ : TId) (c : CT) (e : Ref) (a : Nat)
    (arr : Bool) (sz : Nat), Inv s → binmod op l r s = .ok t s0 →
    Conv E (fun R => R.ev l) s0 (.ok (some x) s1) → Conv E (fun R => R.ev r) s1 (.ok q s2) →
    s2.nodes x = some (.lv (some τ) a arr sz) → s2.nodes τ = some (.ctype c e) →
    Conv E (fun R => R.ev (some t)) s0 (.ok y s') →
    ∀ b, s2.mem.live b = true → (b < a ∨ a + c.size ≤ b) → s'.mem.byte b = s2.mem.byte b

theorem binmod_apply (op : BinOp) (l r : Ref) (s : St) : binmod op l r s =
    .ok (s.next + 1) (addNode (addNode s (.bin op l r)) (.assign l (some s.next))) := rfl

/-- C11 when evaluating `l` has no side effects — it always gives `x` and only
allocates tree objects — and `r` is an expression with a value: then `x` receives
the value of `l op r` converted to its type, and nothing else changes. -/
theorem C11_pure_partial (E : Env) (s s0 : St) (op : BinOp) (l r t x τ : TId) (c : CT) (a : Nat)
    (e : Expr) (p q v : Int) (w : WF s) (hb : binmod op (some l) (some r) s = .ok t s0)
    (hl : ∀ s', Ext s s' → ∃ s'', Conv E (fun R => R.ev (some l)) s' (.ok (some x) s'') ∧ Ext s' s'')
    (hx : LvAt s x τ c a) (hc : integral c) (hp : Holds s x c p) (hlong : InRange .long p)
    (hr : ERep s.nodes r e) (hq : Val okOp okTruth (VarIs s) e q) (hop : okOp (BOp.ofBin op) p q v)
    (hv : width c ≤ 32 ∨ (-2 ^ 63 ≤ v ∧ v < 2 ^ 63)) :
    ∃ y s' z, Conv E (fun R => R.ev (some t)) s0 (.ok y s') ∧ Converts c v z ∧
      Represents c (bytesAt s'.mem a c.size) z ∧ s'.ctxs = s.ctxs ∧
      ∀ b, (b < a ∨ a + c.size ≤ b) → s'.mem.byte b = s.mem.byte b := by
  rw [binmod_apply] at hb
  obtain ⟨rfl, rfl⟩ : s.next + 1 = t ∧ _ = s0 := by simpa using hb
  clear hb
  have x0 : Ext s (addNode s (.bin op (some l) (some r))) := addNode_ext w _
  have x1 : Ext s (addNode (addNode s (.bin op (some l) (some r))) (.assign (some l) (some s.next))) :=
    x0.trans (addNode_ext (x0.wf w) _)
  generalize hs0 : addNode (addNode s (.bin op (some l) (some r))) (.assign (some l) (some s.next)) = s0 at x1
  have n1 : s0.nodes (s.next + 1) = some (.assign (some l) (some s.next)) := by
    rw [← hs0]; exact addNode_self (addNode s (.bin op (some l) (some r))) _
  have n2 : s0.nodes s.next = some (.bin op (some l) (some r)) := by
    rw [← hs0]; exact (addNode_ext (x0.wf w) _).nodes _ _ (addNode_self _ _)
  obtain ⟨s2, c2, x2⟩ := hl s0 x1
  obtain ⟨s3, c3, x3⟩ := hl s2 (x1.trans x2)
  have x13 := x1.trans (x2.trans x3)
  obtain ⟨r', s4, c4, x4, d4, _⟩ := eval_exprG (E := E) w (fun _ _ h => h) hr q hq s3 x13
  have x14 := x13.trans x4
  have hden : Denotes s4 x p := .inr ⟨c, p, hp.ext x14, (toPtrdiff_of_inRange hlong).symm⟩
  have w4 := x14.wf w
  obtain ⟨l'', s5, e5, x5, n5⟩ := liveToInt_apply w4 hden
  obtain ⟨r'', s6, e6, x6, n6⟩ := liveToInt_apply (x5.wf w4) (d4.ext x5)
  have hbin : Conv E (fun R => R.ev (some s.next)) s2 (mkInt v s6) := by
    refine Conv.evNode (x2.nodes _ _ n2) ?_
    refine Conv.bind c3 (Conv.bind c4 (Conv.const ?_))
    simp only [bind_apply, e5, e6, asInteger_apply (x6.nodes _ _ n5), asInteger_apply n6,
      applyBin_spec hop]
  rw [mkInt_apply] at hbin
  have x16 : Ext s (addNode s6 (.integer v)) :=
    (x14.trans (x5.trans x6)).trans (addNode_ext ((x5.trans x6).wf w4) _)
  have hasg := assign_conv n1 c2 hbin (hx.ext x16) hc (.int (addNode_self _ _))
  refine ⟨_, _, _, hasg, getSi_converts hc hv,
    (((hx.ext x16).wr _ _ _).holds_iff _).mp ((hx.ext x16).holds_wr _), x16.ctxs, ?_⟩
  intro b hb
  rw [wr_mem, Mem.store_byte_other _ _ _ _ _ hb, x16.mem]

/-- in particular for `x op= e` with a variable `x` -/
theorem C11_variable_partial (E : Env) (s s0 : St) (op : BinOp) (n : String) (l r t x τ : TId) (c : CT) (a : Nat)
    (e : Expr) (p q v : Int) (w : WF s) (hb : binmod op (some l) (some r) s = .ok t s0)
    (hn : s.nodes l = some (.ident n)) (hg : resolveGlobal n .normal s = some x)
    (hx : LvAt s x τ c a) (hc : integral c) (hp : Holds s x c p) (hlong : InRange .long p)
    (hr : ERep s.nodes r e) (hq : Val okOp okTruth (VarIs s) e q) (hop : okOp (BOp.ofBin op) p q v)
    (hv : width c ≤ 32 ∨ (-2 ^ 63 ≤ v ∧ v < 2 ^ 63)) :
    ∃ y s' z, Conv E (fun R => R.ev (some t)) s0 (.ok y s') ∧ Converts c v z ∧
      Represents c (bytesAt s'.mem a c.size) z ∧ s'.ctxs = s.ctxs ∧
      ∀ b, (b < a ∨ a + c.size ≤ b) → s'.mem.byte b = s.mem.byte b :=
  C11_pure_partial E s s0 op l r t x τ c a e p q v w hb
    (fun s' x' => ⟨s', ident_conv (x'.nodes _ _ hn) (by rw [x'.resolveGlobal]; exact hg), Ext.refl _⟩)
    hx hc hp hlong hr hq hop hv

/-- `x += 200` with a `char x` holding 100: the new value is 300 reduced to `char` -/
example : ∃ y s' z, Conv E0 (fun R => R.ev (some 5))
      (addNode (addNode (stOf [.ident "x", .ctype .char none, .lv (some 1) 4096 false 0, .integer 200]
        [⟨"x", 0, some 2⟩] [100, 5]) (.bin .add (some 0) (some 3))) (.assign (some 0) (some 4))) (.ok y s') ∧
    Converts .char 300 z ∧ Represents .char (bytesAt s'.mem 4096 1) z ∧ s'.ctxs = [ctx1 [⟨"x", 0, some 2⟩]] ∧
    ∀ b, (b < 4096 ∨ 4096 + 1 ≤ b) → s'.mem.byte b = (memOf [100, 5]).byte b :=
  C11_variable_partial E0 (stOf [.ident "x", .ctype .char none, .lv (some 1) 4096 false 0, .integer 200]
        [⟨"x", 0, some 2⟩] [100, 5]) _ .add "x" 0 3 5 2 1 .char 4096 (.lit 200) 100 200 300 (stOf_WF _ _ _) rfl rfl rfl
    ⟨⟨_, _, rfl⟩, ⟨_, rfl⟩, .inl trivial, rfl⟩ trivial
    ⟨1, 4096, ⟨⟨_, _, rfl⟩, ⟨_, rfl⟩, .inl trivial, rfl⟩, rfl⟩ (by decide) (.lit rfl) (.lit _)
    ⟨rfl, trivial⟩ (.inl (by decide))

/-- `a[i++] += 1` with `char *a` at 4096 pointing to 4128, `int i` at 4112 -/
def stIdx : St :=
  stOf [.ident "a", .ctype .char none, .ctype .ptr (some 1), .lv (some 2) 4096 false 0,
        .ident "i", .ctype .int none, .lv (some 5) 4112 false 0,
        .pInc (some 4), .arrAccess (some 0) (some 7), .integer 1]
    [⟨"a", 0, some 3⟩, ⟨"i", 4, some 6⟩]
    ([32, 16, 0, 0, 0, 0, 0, 0, 0, 0, 0, 0, 0, 0, 0, 0] ++ [0, 0, 0, 0, 0, 0, 0, 0, 0, 0, 0, 0, 0, 0, 0, 0] ++
     [50, 60, 70, 80, 0, 0, 0, 0, 0, 0, 0, 0, 0, 0, 0, 0])

/-- the same with the compound assignment -/
def stIdx' : St := addNode (addNode stIdx (.bin .add (some 8) (some 9))) (.assign (some 8) (some 10))

/-- after evaluating the left hand side once -/
def stIdx1 : St := outSt stIdx ((run E0 20).ev (some 8) stIdx')

/-- after the compound assignment -/
def stIdx2 : St := outSt stIdx ((run E0 20).ev (some 11) stIdx')

/-- C11 in full is false: `a[i++] += 1` increments `i` twice. -/
theorem C11_refuted : ¬ C11_statement := by
  intro h
  have h1 : Conv E0 (fun R => R.ev (some 8)) stIdx' (.ok (outRef ((run E0 20).ev (some 8) stIdx')) stIdx1) :=
    Conv.computed 20 (by decide +kernel)
  have hr : outRef ((run E0 20).ev (some 8) stIdx') = some 18 := by decide +kernel
  have h2 : Conv E0 (fun R => R.ev (some 9)) stIdx1 (.ok (some 9) stIdx1) :=
    Conv.evNode (nd := .integer 1) (by decide +kernel) (Conv.pure _)
  have h3 : Conv E0 (fun R => R.ev (some 11)) stIdx' (.ok (outRef ((run E0 20).ev (some 11) stIdx')) stIdx2) :=
    Conv.computed 20 (by decide +kernel)
  rw [hr] at h1
  have := h E0 stIdx stIdx' _ _ _ .add (some 8) (some 9) _ _ 11 18 1 .char none 4128 false 0 (stOf_Inv _ _ _)
    (binmod_apply _ _ _ _) h1 h2 (by decide +kernel) (by decide +kernel) h3 4112 (by decide +kernel) (by decide)
  exact absurd this (by decide +kernel)

/-! ## C12 -/

/-- the four operators: the tree, whether the operator stands before its operand,
what it adds, the operand -/
inductive IsStep : Node → Bool → Int → Ref → Prop
  | postInc (e) : IsStep (.pInc e) false 1 e
  | postDec (e) : IsStep (.pDec e) false (-1) e
  | preInc (e) : IsStep (.inc e) true 1 e
  | preDec (e) : IsStep (.dec e) true (-1) e

/-- what C12 says: the operand evaluates to a variable `x` of type `c` at `a` with
value `v`; evaluating the tree yields the old or the new value, `x` holds the new
one and nothing else changes. -/
def Steps (E : Env) (c : CT) (pre : Bool) (d v : Int) : Prop :=
  ∀ (s s1 : St) (t x τ : TId) (nd : Node) (e : Ref) (a : Nat), WF s1 → IsStep nd pre d e →
    s.nodes t = some nd → Conv E (fun R => R.ev e) s (.ok (some x) s1) → LvAt s1 x τ c a →
    Represents c (bytesAt s1.mem a c.size) v →
    ∃ r s' w, Conv E (fun R => R.ev (some t)) s (.ok (some r) s') ∧ Converts c (v + d) w ∧
      Represents c (bytesAt s'.mem a c.size) w ∧
      s'.nodes r = some (.integer (if pre then w else v)) ∧ s'.ctxs = s1.ctxs ∧
      ∀ b, (b < a ∨ a + c.size ≤ b) → s'.mem.byte b = s1.mem.byte b

/-- C12 in full -/
def C12_statement : Prop := ∀ E c pre d v, integral c → Steps E c pre d v

theorem addNode_LvAt {s : St} {x τ c a} (w : WF s) (h : LvAt s x τ c a) (n) : LvAt (addNode s n) x τ c a :=
  h.ext (addNode_ext w n)

/-- C12 with the yielded value (old for `x++`, new for `++x`) in the range of
`long`; always so except for large values of the unsigned 64-bit types. -/
theorem C12_steps_partial (E : Env) (c : CT) (pre : Bool) (d v : Int) (hc : integral c)
    (hv : ∀ w, Converts c (v + d) w → InRange .long (if pre then w else v)) : Steps E c pre d v := by
  intro s s1 t x τ nd e a w hs hn he hx hb
  have hlv := evalLvalue_conv he hx
  have hld : v = c.decode (s1.mem.load c.size a) := by
    have h1 := (hx.holds_iff v).mpr hb
    exact (h1.unique ⟨_, _, hx, rfl⟩).2
  have hcv := CT.decode_encode_converts (c := c) (.inl hc) (v + d)
  have hw := hv _ hcv
  have hx' := hx.wr c.size a (c.encode (v + d))
  have post : pre = false → ∃ r s' w, Conv E (fun R => evalPost E R d e) s (.ok (some r) s') ∧
      Converts c (v + d) w ∧ Represents c (bytesAt s'.mem a c.size) w ∧
      s'.nodes r = some (.integer (if pre then w else v)) ∧ s'.ctxs = s1.ctxs ∧
      ∀ b, (b < a ∨ a + c.size ≤ b) → s'.mem.byte b = s1.mem.byte b := by
    rintro rfl
    have hm := makeIntFromLV_apply hx
    rw [mkInt_apply, ← hld, toPtrdiff_of_inRange (show InRange .long v from hw)] at hm
    have hx1 := addNode_LvAt w hx (.integer v)
    have ha := liveVarAdd_apply (E := E) hx1 d
    rw [show (addNode s1 (.integer v)).mem = s1.mem from rfl, ← hld] at ha
    refine ⟨_, _, _, Conv.bind hlv (Conv.const (o := .ok (some s1.next)
      (wr (addNode s1 (.integer v)) c.size a (c.encode (v + d)))) ?_), hcv, ?_, ?_, rfl, ?_⟩
    · simp [hm, ha]
    · exact ((hx1.wr _ _ _).holds_iff _).mp (hx1.holds_wr _)
    · exact addNode_self s1 _
    · intro b hb; exact Mem.store_byte_other _ _ _ _ _ hb
  have prec : pre = true → ∃ r s' w, Conv E (fun R => evalPre E R d e) s (.ok (some r) s') ∧
      Converts c (v + d) w ∧ Represents c (bytesAt s'.mem a c.size) w ∧
      s'.nodes r = some (.integer (if pre then w else v)) ∧ s'.ctxs = s1.ctxs ∧
      ∀ b, (b < a ∨ a + c.size ≤ b) → s'.mem.byte b = s1.mem.byte b := by
    rintro rfl
    have ha := liveVarAdd_apply (E := E) hx d
    rw [← hld] at ha
    have hm := makeIntFromLV_apply hx'
    have hl : c.decode ((wr s1 c.size a (c.encode (v + d))).mem.load c.size a) = c.decode (c.encode (v + d)) :=
      ((hx.holds_wr (v + d)).unique ⟨_, _, hx', rfl⟩).2.symm
    rw [mkInt_apply, hl, toPtrdiff_of_inRange (show InRange .long (c.decode (c.encode (v + d))) from hw)] at hm
    refine ⟨_, _, _, Conv.bind hlv (Conv.const (o := .ok (some s1.next)
      (addNode (wr s1 c.size a (c.encode (v + d))) (.integer (c.decode (c.encode (v + d)))))) ?_), hcv, ?_, ?_, rfl, ?_⟩
    · simp only [bind_apply, ha, hm]; rfl
    · exact (hx'.holds_iff _).mp (hx.holds_wr _)
    · exact addNode_self (wr s1 c.size a (c.encode (v + d))) _
    · intro b hb; exact Mem.store_byte_other _ _ _ _ _ hb
  cases hs with
  | postInc | postDec =>
    obtain ⟨r, s', w, h1, h2⟩ := post rfl
    exact ⟨r, s', w, Conv.evNode hn h1, h2⟩
  | preInc | preDec =>
    obtain ⟨r, s', w, h1, h2⟩ := prec rfl
    exact ⟨r, s', w, Conv.evNode hn h1, h2⟩

/-- so C12 holds without condition for every type but the two unsigned 64-bit ones -/
theorem C12_small_partial (E : Env) (c : CT) (pre : Bool) (d v : Int) (hc : integral c)
    (h1 : c ≠ .ulong) (h2 : c ≠ .ulonglong) : Steps E c pre d v := by
  intro s s1 t x τ nd e a w hs hn he hx hb
  refine C12_steps_partial E c pre d v hc ?_ s s1 t x τ nd e a w hs hn he hx hb
  intro w' hw
  split
  · exact inRange_long_of hc h1 h2 hw.1
  · exact inRange_long_of hc h1 h2 hb.2.1

/-- an operator applied to a variable of type `c` at 4096 -/
def stStep (nd : Node) (c : CT) (bs : List Byte) : St :=
  stOf [.ident "x", .ctype c none, .lv (some 1) 4096 false 0, nd] [⟨"x", 0, some 2⟩] bs

theorem stStep_lv (nd c) (bs : List Byte) (hc : integral c) (h : c.size ≤ bs.length) :
    LvAt (stStep nd c bs) 2 1 c 4096 :=
  ⟨⟨_, _, rfl⟩, ⟨_, rfl⟩, .inl hc, by
    rw [Mem.ok_iff]; intro y h1 h2; simp [stStep, stOf, memOf]; omega⟩

/-- `x++` for an `unsigned char` holding 255 yields 255 and leaves 0 -/
example : ∃ r s' w, Conv E0 (fun R => R.ev (some 3)) (stStep (.pInc (some 0)) .uchar [255, 7]) (.ok (some r) s') ∧
    Converts .uchar (255 + 1) w ∧ Represents .uchar (bytesAt s'.mem 4096 1) w ∧
    s'.nodes r = some (.integer 255) ∧ s'.ctxs = [ctx1 [⟨"x", 0, some 2⟩]] ∧
    ∀ b, (b < 4096 ∨ 4096 + 1 ≤ b) → s'.mem.byte b = (memOf [255, 7]).byte b :=
  C12_small_partial E0 .uchar false 1 255 trivial (by decide) (by decide) _ _ 3 2 1 _ (some 0) 4096
    (stOf_WF _ _ _) (.postInc _) rfl (ident_conv (x := "x") rfl rfl) (stStep_lv _ _ _ trivial (by decide))
    ⟨rfl, by decide, 0, rfl⟩

/-- C12 in full is false: `x++` with an `unsigned long` holding 2^63 yields -2^63. -/
theorem C12_refuted : ¬ C12_statement := by
  intro h
  obtain ⟨r, s', w, h1, _, _, h4, _⟩ := h E0 .ulong false 1 (2 ^ 63) trivial
    (stStep (.pInc (some 0)) .ulong [0, 0, 0, 0, 0, 0, 0, 128]) _ 3 2 1 _ (some 0) 4096 (stOf_WF _ _ _)
    (.postInc _) rfl (ident_conv (x := "x") rfl rfl) (stStep_lv _ _ _ trivial (by decide))
    ⟨rfl, by decide, 0, rfl⟩
  have hc : outVal (.ok (some r) s') = some (-2 ^ 63) := by
    have hk : outVal ((run E0 10).ev (some 3) (stStep (.pInc (some 0)) .ulong [0, 0, 0, 0, 0, 0, 0, 128])) =
        some (-2 ^ 63) := by decide
    rwa [Conv.unique h1 (Conv.of_ev 10 rfl (by intro hf; rw [hf] at hk; cases hk))]
  simp [outVal, h4] at hc

/-! ## C13 -/

/-- what C13 says for element type `k`: `p`, a pointer to `k` stored at `a`, holds
the address `v`.  `p++` makes it hold `v + size k` (modulo 2^64), and `p + i`
evaluates to `v + i * size k`. -/
def StepsBy (E : Env) (k : CT) : Prop :=
  ∀ (s : St) (t t' l r x τ ε : TId) (n : String) (v a : Nat) (i : Int) (arr : Bool) (sz : Nat) (e : Ref), WF s →
    s.nodes t = some (.pInc (some l)) → s.nodes t' = some (.bin .add (some l) (some r)) →
    s.nodes l = some (.ident n) → resolveGlobal n .normal s = some x →
    s.nodes x = some (.lv (some τ) a arr sz) → s.nodes τ = some (.ctype .ptr (some ε)) →
    s.nodes ε = some (.ctype k e) → s.nodes r = some (.integer i) →
    s.mem.ok 8 a = true → Represents .ptr (bytesAt s.mem a 8) v → v < 2 ^ 63 →
    (∃ y s' w, Conv E (fun R => R.ev (some t)) s (.ok y s') ∧ Converts .ptr (v + width k / 8) w ∧
      Represents .ptr (bytesAt s'.mem a 8) w) ∧
    (∃ y s', Conv E (fun R => R.ev (some t')) s (.ok (some y) s') ∧
      s'.nodes y = some (.integer (v + i * (width k / 8))))

/-- C13 in full -/
def C13_statement : Prop := ∀ E k, integral k → StepsBy E k

/-- C13 for elements of one byte.  (Whatever the element, one byte is stepped:
`C13_refuted`.) -/
theorem C13_bytes_partial (E : Env) (k : CT) (hk : width k = 8) : StepsBy E k := by
  intro s t t' l r x τ ε n v a i arr sz e w ht ht' hl hg hx hτ _ hr hok hv hlt
  have hlv : LvAt s x τ .ptr a := ⟨⟨_, _, hx⟩, ⟨_, hτ⟩, .inr rfl, hok⟩
  have hh : Holds s x .ptr v := (hlv.holds_iff v).mpr hv
  have hld : (v : Int) = CT.ptr.decode (s.mem.load CT.ptr.size a) := (hh.unique ⟨_, _, hlv, rfl⟩).2
  have hr1 : InRange .long (v : Int) := by
    constructor
    · show -(2 ^ (64 - 1) : Int) ≤ v
      have : (0 : Int) ≤ v := Int.natCast_nonneg v
      omega
    · show (v : Int) < 2 ^ (64 - 1)
      omega
  have hm := makeIntFromLV_apply hlv
  rw [mkInt_apply, ← hld, toPtrdiff_of_inRange hr1] at hm
  have hw8 : (width k : Int) / 8 = 1 := by rw [hk]; rfl
  refine ⟨?_, ?_⟩
  · have hx1 := addNode_LvAt w hlv (.integer v)
    have ha := liveVarAdd_apply (E := E) hx1 1
    rw [show (addNode s (.integer v)).mem = s.mem from rfl, ← hld] at ha
    refine ⟨_, _, _, Conv.evNode ht (Conv.bind (evalLvalue_conv (ident_conv hl hg) hlv)
      (Conv.const (o := .ok (some s.next) (wr (addNode s (.integer v)) CT.ptr.size a (CT.ptr.encode ((v : Int) + 1)))) ?_)),
      ?_, ((hx1.wr _ _ _).holds_iff _).mp (hx1.holds_wr _)⟩
    · simp [hm, ha]
    · rw [hw8]; exact CT.decode_encode_converts (.inr rfl) _
  · have h1 : liveToInt (some x) s = .ok (some s.next) (addNode s (.integer v)) := by
      simp [liveToInt, node_apply hx, hm]
    have h2 : liveToInt (some r) (addNode s (.integer v)) = .ok (some r) (addNode s (.integer v)) := by
      simp [liveToInt, node_apply ((addNode_ext w _).nodes _ _ hr)]
    refine ⟨s.next + 1, addNode (addNode s (.integer v)) (.integer (v + i)), Conv.evNode ht'
      (Conv.bind (ident_conv hl hg) (Conv.bind (Conv.evNode hr (Conv.pure _)) (Conv.const ?_))), ?_⟩
    · simp only [bind_apply, h1, h2, asInteger_apply (addNode_self s _),
        asInteger_apply ((addNode_ext w (.integer v)).nodes _ _ hr), applyBin, mkInt_apply]
      rfl
    · rw [hw8, Int.mul_one]
      exact addNode_self (addNode s (.integer v)) _

/-- a pointer to `k` at 4096 holding 4112 -/
def stPtr (k : CT) : St :=
  stOf [.ident "p", .ctype k none, .ctype .ptr (some 1), .lv (some 2) 4096 false 0,
        .pInc (some 0), .integer 3, .bin .add (some 0) (some 5)]
    [⟨"p", 0, some 3⟩] [16, 16, 0, 0, 0, 0, 0, 0, 7, 7]

theorem stPtr_steps (E : Env) (k : CT) (h : StepsBy E k) :
    (∃ y s' w, Conv E (fun R => R.ev (some 4)) (stPtr k) (.ok y s') ∧ Converts .ptr ((4112 : Nat) + width k / 8) w ∧
      Represents .ptr (bytesAt s'.mem 4096 8) w) ∧
    (∃ y s', Conv E (fun R => R.ev (some 6)) (stPtr k) (.ok (some y) s') ∧
      s'.nodes y = some (.integer ((4112 : Nat) + 3 * (width k / 8)))) :=
  h (stPtr k) 4 6 0 5 3 2 1 "p" 4112 4096 3 false 0 none (stOf_WF _ _ _) rfl rfl rfl rfl rfl rfl rfl rfl
    rfl ⟨rfl, ⟨by simp [lo, signed], by simp [hi, signed, width]⟩, 0, by
      show leValue [16, 16, 0, 0, 0, 0, 0, 0] = _; decide⟩ (by omega)

example : ∃ y s' w, Conv E0 (fun R => R.ev (some 4)) (stPtr .uchar) (.ok y s') ∧ Converts .ptr (4112 + 1) w ∧
    Represents .ptr (bytesAt s'.mem 4096 8) w :=
  (stPtr_steps E0 .uchar (C13_bytes_partial E0 .uchar rfl)).1

/-- C13 in full is false: `int *p; p++` adds 1 to the address in `p`. -/
theorem C13_refuted : ¬ C13_statement := by
  intro h
  obtain ⟨⟨y, s', w, h1, h2, h3⟩, _⟩ := stPtr_steps E0 .int (h E0 .int trivial)
  have hb : bytesAt s'.mem 4096 8 = [17, 16, 0, 0, 0, 0, 0, 0] := bytesAfter_conv 10 (by decide) h1
  have e1 : w = 4116 := Converts.unique (c := .ptr) (.inr rfl) h2 (Converts.self (by decide))
  have e2 : w = 4113 := by
    refine Converts.unique (c := .ptr) (.inr rfl) h3.2 ?_
    rw [hb]
    exact ⟨by decide, 0, by decide⟩
  omega

/-! ## C14 -/

/-- C14: the cast tree `t`, whose operand evaluates to a variable `x` of type `d`
with value `v` and whose type evaluates to `c`, yields a new object of type `c`
with the converted value; everything that existed is unchanged. -/
theorem C14_cast (E : Env) (c d : CT) (hc : integral c ∨ c = .ptr) (hd : integral d ∨ d = .ptr)
    (s s1 s2 : St) (t x τ σ : TId) (e ty el : Ref) (a : Nat) (v : Int) (w : WF s2) (hroom : Room s2 1)
    (hn : s.nodes t = some (.cast ty e))
    (he : Conv E (fun R => R.ev e) s (.ok (some x) s1)) (hty : Conv E (fun R => R.ev ty) s1 (.ok (some σ) s2))
    (hσ : s2.nodes σ = some (.ctype c el))
    (hx : LvAt s2 x τ d a) (hv : Represents d (bytesAt s2.mem a d.size) v) :
    ∃ r s' b u, Conv E (fun R => R.ev (some t)) s (.ok (some r) s') ∧ LvAt s' r σ c b ∧
      Converts c v u ∧ Represents c (bytesAt s'.mem b c.size) u ∧ s2.nodes r = none ∧ Grow s2 s' := by
  have hld : v = d.decode (s2.mem.load d.size a) := by
    have h1 := (hx.holds_iff v).mpr hv
    exact (h1.unique ⟨_, _, hx, rfl⟩).2
  obtain ⟨arr, sz, hxl⟩ := hx.lv
  obtain ⟨el', hxt⟩ := hx.ty
  have hcv : castVal E d c (s2.mem.load d.size a) = some (some (c.encode v)) := by
    have h1 := integral_notFp hc
    have h2 := integral_notFp hd
    unfold castVal
    rw [h1, h2, ← hld]
    split <;> rfl
  have hr := newVar_lvAt w hσ hc
  refine ⟨s2.next, wr (newVar s2 (some σ)) c.size s2.mem.brk (c.encode v), s2.mem.brk, _, ?_,
    hr.wr _ _ _, CT.decode_encode_converts hc v, ((hr.wr _ _ _).holds_iff _).mp (hr.holds_wr v),
    w _ (Nat.le_refl _), (newVar_grow w _).wr _ _ _ hroom.fresh⟩
  refine Conv.evNode hn (Conv.bind he (Conv.bind hty (Conv.const ?_)))
  simp [node_apply hxl, peek_apply hxt, peek_apply hσ, loadRaw, hx.ok, hcv, makeLiveVar_apply _ hroom,
    lvFields_apply hr, storeRaw_apply hr.ok]

/-- `(unsigned char)x` with `int x` -/
def stCast : St :=
  stOf [.ident "x", .ctype .int none, .lv (some 1) 4096 false 0, .ctype .uchar none, .cast (some 3) (some 0)]
    [⟨"x", 0, some 2⟩] [254, 255, 255, 255]

/-- `x` is -2 -/
example : ∃ r s' b u, Conv E0 (fun R => R.ev (some 4)) stCast (.ok (some r) s') ∧ LvAt s' r 3 .uchar b ∧
      Converts .uchar (-2) u ∧ Represents .uchar (bytesAt s'.mem b 1) u ∧ stCast.nodes r = none ∧ Grow stCast s' :=
  C14_cast E0 .uchar .int (.inl trivial) (.inl trivial) stCast stCast stCast 4 2 1 3 (some 0) (some 3) none 4096 (-2)
    (stOf_WF _ _ _) ⟨by decide +kernel, by simp [stCast, stOf], memOf_livelt _⟩ rfl
    (ident_conv (x := "x") rfl rfl) (Conv.evNode (nd := .ctype .uchar none) rfl (Conv.pure _)) rfl
    ⟨⟨_, _, rfl⟩, ⟨_, rfl⟩, .inl trivial, rfl⟩ ⟨rfl, by decide, 1, rfl⟩

/-! ## C62 -/

/-- C62, first half: a value of the type written to memory is represented by the
bytes there, and by what is loaded again; no other byte changes. -/
theorem C62_store_load (c : CT) (hc : integral c ∨ c = .ptr) (m : Mem) (a : Nat) (v : Int) (hv : InRange c v) :
    Represents c (bytesAt (m.store c.size a (c.encode v)) a c.size) v ∧
    c.decode ((m.store c.size a (c.encode v)).load c.size a) = v ∧
    ∀ b, (b < a ∨ a + c.size ≤ b) → (m.store c.size a (c.encode v)).byte b = m.byte b := by
  have hl : (m.store c.size a (c.encode v)).load c.size a = c.encode v := by
    rw [Mem.load_store, Nat.mod_eq_of_lt (show _ < 256 ^ c.size from CT.encode_lt c v)]
  have hd := CT.decode_encode_of_inRange hc hv
  refine ⟨⟨by rw [bytesAt_length, width_size hc], ?_⟩, by rw [hl, hd], fun b hb => Mem.store_byte_other _ _ _ _ _ hb⟩
  rw [leValue_bytesAt, hl]
  have := decode_converts hc (CT.encode_lt c v)
  rwa [hd] at this

theorem bytesAt_of_load {m m' : Mem} {a a' n : Nat} (h : m.load n a = m'.load n a') :
    bytesAt m a n = bytesAt m' a' n := by
  induction n generalizing a a' with
  | zero => rfl
  | succ n ih =>
    simp only [Mem.load] at h
    have h1 := (m.byte a).isLt
    have h2 := (m'.byte a').isLt
    rw [bytesAt, bytesAt, ih (a := a + 1) (a' := a' + 1) (by omega), Fin.ext (show (m.byte a).val = (m'.byte a').val by omega)]

/-- C62, second half: every byte content is read as a value of the type, and two
different contents are read as different values. -/
theorem C62_load_injective (c : CT) (hc : integral c ∨ c = .ptr) (m m' : Mem) (a a' : Nat) :
    InRange c (c.decode (m.load c.size a)) ∧
    Represents c (bytesAt m a c.size) (c.decode (m.load c.size a)) ∧
    (c.decode (m.load c.size a) = c.decode (m'.load c.size a') → bytesAt m a c.size = bytesAt m' a' c.size) := by
  have hcv := decode_converts hc (Mem.load_lt m c.size a)
  refine ⟨CT.decode_inRange hc (Mem.load_lt m c.size a),
    ⟨by rw [bytesAt_length, width_size hc], by rw [leValue_bytesAt]; exact hcv⟩, fun h => ?_⟩
  exact bytesAt_of_load (CT.decode_inj (Mem.load_lt _ _ _) (Mem.load_lt _ _ _) h)

example : Represents .short (bytesAt ((memOf [1, 2, 3]).store 2 4096 (CT.short.encode (-2))) 4096 2) (-2) :=
  (C62_store_load .short (.inl trivial) (memOf [1, 2, 3]) 4096 (-2) (by decide)).1

/-! ## C64 -/

/-- C64: two runs of a program from the same state that both end within their
budgets have the same outcome — result, final state, or reason for stopping. -/
theorem C64_deterministic (E : Env) (n m : Nat) (t : Ref) (s : St)
    (hn : (run E n).ev t s ≠ .fuel) (hm : (run E m).ev t s ≠ .fuel) :
    (run E n).ev t s = (run E m).ev t s := by
  rcases Nat.le_total n m with h | h
  · exact (run_ev_mono h rfl hn).symm
  · exact run_ev_mono h rfl hm

example : (run E0 5).ev (some 4) (stPtr .int) = (run E0 9).ev (some 4) (stPtr .int) := by
  refine C64_deterministic E0 5 9 (some 4) (stPtr .int) ?_ ?_
  · intro h
    have : isOk ((run E0 5).ev (some 4) (stPtr .int)) = true := by decide +kernel
    rw [h] at this; cases this
  · intro h
    have : isOk ((run E0 9).ev (some 4) (stPtr .int)) = true := by decide +kernel
    rw [h] at this; cases this

end Bic
