import Verif.Proofs.Conv
import Verif.Proofs.CTypeLemmas
import Verif.Proofs.GmpLemmas
import Verif.Spec.Expr
/-!
# Evaluating side-effect free integer expressions
-/

namespace Bic
open Spec

/-! ## States that only gained tree objects -/

/-- object identities above `next` are unused -/
def WF (s : St) : Prop := ∀ t, s.next ≤ t → s.nodes t = none

theorem WF.lt {s : St} (h : WF s) {t n} (hn : s.nodes t = some n) : t < s.next := by
  apply Nat.lt_of_not_le; intro hle; rw [h t hle] at hn; cases hn

/-- `s'` is `s` with more tree objects -/
structure Ext (s s' : St) : Prop where
  mem : s'.mem = s.mem
  ctxs : s'.ctxs = s.ctxs
  nextUid : s'.nextUid = s.nextUid
  includeCtx : s'.includeCtx = s.includeCtx
  includes : s'.includes = s.includes
  closures : s'.closures = s.closures
  events : s'.events = s.events
  next : s.next ≤ s'.next
  nodes : ∀ t n, s.nodes t = some n → s'.nodes t = some n
  wf : WF s → WF s'

theorem Ext.refl (s : St) : Ext s s :=
  ⟨rfl, rfl, rfl, rfl, rfl, rfl, rfl, Nat.le_refl _, fun _ _ h => h, id⟩

theorem Ext.trans {s s' s'' : St} (h : Ext s s') (h' : Ext s' s'') : Ext s s'' where
  mem := h'.mem.trans h.mem
  ctxs := h'.ctxs.trans h.ctxs
  nextUid := h'.nextUid.trans h.nextUid
  includeCtx := h'.includeCtx.trans h.includeCtx
  includes := h'.includes.trans h.includes
  closures := h'.closures.trans h.closures
  events := h'.events.trans h.events
  next := Nat.le_trans h.next h'.next
  nodes := fun t n hn => h'.nodes t n (h.nodes t n hn)
  wf := fun w => h'.wf (h.wf w)

theorem Ext.resolveGlobal {s s' : St} (h : Ext s s') (x ns) :
    resolveGlobal x ns s' = resolveGlobal x ns s := by
  unfold Bic.resolveGlobal; rw [h.ctxs, h.includeCtx]

/-- the state after allocating a tree object -/
def addNode (s : St) (n : Node) : St :=
  { s with nodes := (fun x => if x = s.next then some n else s.nodes x), next := s.next + 1 }

theorem mk_apply (n : Node) (s : St) : mk n s = .ok s.next (addNode s n) := rfl

theorem mkInt_apply (v : Int) (s : St) : mkInt v s = .ok (some s.next) (addNode s (.integer v)) := rfl

theorem addNode_self (s : St) (n : Node) : (addNode s n).nodes s.next = some n := by
  simp [addNode]

theorem addNode_ext {s : St} (w : WF s) (n : Node) : Ext s (addNode s n) where
  mem := rfl
  ctxs := rfl
  nextUid := rfl
  includeCtx := rfl
  includes := rfl
  closures := rfl
  events := rfl
  next := Nat.le_succ _
  nodes := by
    intro t m hm
    have := w.lt hm
    simp [addNode, Nat.ne_of_lt this, hm]
  wf := by
    intro _ t ht
    have ht' : s.next + 1 ≤ t := ht
    have h1 : t ≠ s.next := Nat.ne_of_gt ht'
    simp only [addNode, if_neg h1]
    exact w t (Nat.le_of_succ_le ht')

/-! ## Reading -/

theorem node_apply {s : St} {t : TId} {n : Node} (h : s.nodes t = some n) : node t s = .ok n s := by
  simp [node, h]

theorem peek_apply {s : St} {t : TId} {n : Node} (h : s.nodes t = some n) :
    peek (some t) s = .ok (some n) s := by
  simp [peek, node_apply h]

theorem peek_none {s : St} : peek none s = .ok none s := rfl

/-- `t` is a live variable of type `c` (integer or pointer) at address `a` with
type tree `τ`, and its storage may be accessed -/
structure LvAt (s : St) (t τ : TId) (c : CT) (a : Nat) : Prop where
  lv : ∃ arr sz, s.nodes t = some (.lv (some τ) a arr sz)
  ty : ∃ e, s.nodes τ = some (.ctype c e)
  int : integral c ∨ c = .ptr
  ok : s.mem.ok c.size a = true

/-- the variable holds the value `w` -/
def Holds (s : St) (t : TId) (c : CT) (w : Int) : Prop :=
  ∃ τ a, LvAt s t τ c a ∧ w = c.decode (s.mem.load c.size a)

theorem Holds.inRange {s t c w} (h : Holds s t c w) : InRange c w := by
  obtain ⟨τ, a, h, rfl⟩ := h
  exact CT.decode_inRange h.int (Mem.load_lt _ _ _)

theorem LvAt.ext {s s' : St} {t τ c a} (h : LvAt s t τ c a) (x : Ext s s') : LvAt s' t τ c a where
  lv := by obtain ⟨arr, sz, h⟩ := h.lv; exact ⟨arr, sz, x.nodes _ _ h⟩
  ty := by obtain ⟨e, h⟩ := h.ty; exact ⟨e, x.nodes _ _ h⟩
  int := h.int
  ok := by rw [x.mem]; exact h.ok

theorem Holds.ext {s s' : St} {t c w} (h : Holds s t c w) (x : Ext s s') : Holds s' t c w := by
  obtain ⟨τ, a, h, hw⟩ := h
  exact ⟨τ, a, h.ext x, by rw [x.mem]; exact hw⟩

theorem Holds.unique {s : St} {t c c' w w'} (h : Holds s t c w) (h' : Holds s t c' w') :
    c = c' ∧ w = w' := by
  obtain ⟨τ, a, ⟨⟨ar, sz, h1⟩, ⟨e, h2⟩, _, _⟩, hw⟩ := h
  obtain ⟨τ', a', ⟨⟨ar', sz', h3⟩, ⟨e', h4⟩, _, _⟩, hw'⟩ := h'
  rw [h1] at h3; cases h3
  rw [h2] at h4; cases h4
  exact ⟨rfl, hw.trans hw'.symm⟩

/-- what the object `r` means when an integer is wanted from it -/
def Denotes (s : St) (r : TId) (v : Int) : Prop :=
  s.nodes r = some (.integer v) ∨ ∃ c w, Holds s r c w ∧ v = toPtrdiff w

theorem Denotes.ext {s s' : St} {r v} (h : Denotes s r v) (x : Ext s s') : Denotes s' r v := by
  rcases h with h | ⟨c, w, h, e⟩
  · exact .inl (x.nodes _ _ h)
  · exact .inr ⟨c, w, h.ext x, e⟩

theorem lvFields_apply {s t τ c a} (h : LvAt s t τ c a) : lvFields t s = .ok (some τ, a) s := by
  obtain ⟨arr, sz, h⟩ := h.lv
  simp [lvFields, node_apply h]

theorem typeOf_apply {s t τ c a} (h : LvAt s t τ c a) : typeOf (some τ) s = .ok (some c) s := by
  obtain ⟨e, h⟩ := h.ty
  simp [typeOf, nodeR, node_apply h]

theorem isIntOrPtr {c : CT} (h : integral c ∨ c = .ptr) : (c.isInt || decide (c = .ptr)) = true := by
  rcases h with h | h
  · simp [CT.isInt_iff.mpr h]
  · simp [h]

theorem makeIntFromLV_apply {s t τ c a} (h : LvAt s t τ c a) :
    makeIntFromLV t s = mkInt (toPtrdiff (c.decode (s.mem.load c.size a))) s := by
  have hi := isIntOrPtr h.int
  simp only [makeIntFromLV, bind_apply, lvFields_apply h, typeOf_apply h, hi, if_true, loadRaw, h.ok]

/-- the conversion idiom of the arithmetic operators -/
theorem liveToInt_apply {s : St} {r : TId} {v : Int} (w : WF s) (h : Denotes s r v) :
    ∃ r' s', liveToInt (some r) s = .ok (some r') s' ∧ Ext s s' ∧ s'.nodes r' = some (.integer v) := by
  rcases h with h | ⟨c, x, ⟨τ, a, h, rfl⟩, rfl⟩
  · exact ⟨r, s, by simp [liveToInt, node_apply h], Ext.refl s, h⟩
  · obtain ⟨arr, sz, hl⟩ := h.lv
    refine ⟨_, _, ?_, addNode_ext w _, addNode_self _ _⟩
    simp only [liveToInt, bind_apply, node_apply hl]
    rw [makeIntFromLV_apply h]; exact mkInt_apply _ _

theorem asInteger_apply {s : St} {r : TId} {v : Int} {msg} (h : s.nodes r = some (.integer v)) :
    asInteger (some r) msg s = .ok v s := by
  simp [asInteger, peek_apply h]

/-- `convert_to_comparable_type` on something that evaluates to a value -/
theorem convComparable_conv {E : Env} {s s' : St} {t r : TId} {v : Int}
    (h : Conv E (fun R => R.ev (some t)) s (.ok (some r) s')) (w : WF s') (d : Denotes s' r v) :
    ∃ s'', Conv E (fun R => convComparable R (some t)) s (.ok v s'') ∧ Ext s' s'' := by
  rcases d with d | ⟨c, x, ⟨τ, a, hl, rfl⟩, rfl⟩
  · refine ⟨s', ?_, Ext.refl _⟩
    unfold convComparable
    refine Conv.bind h ?_
    exact Conv.const (by simp [node_apply d])
  · obtain ⟨arr, sz, hlv⟩ := hl.lv
    refine ⟨addNode s' (.integer (toPtrdiff (c.decode (s'.mem.load c.size a)))), ?_, addNode_ext w _⟩
    unfold convComparable
    refine Conv.bind h ?_
    refine Conv.const ?_
    simp only [bind_apply, node_apply hlv, typeOf_apply hl, isIntOrPtr hl.int, if_true,
      makeIntFromLV_apply hl, mkInt_apply]
    exact asInteger_apply (addNode_self _ _)

/-- evaluating something already evaluated changes nothing -/
theorem Denotes.ev {E : Env} {s : St} {r : TId} {v : Int} (d : Denotes s r v) :
    Conv E (fun R => R.ev (some r)) s (.ok (some r) s) := by
  rcases d with d | ⟨c, x, ⟨τ, a, hl, rfl⟩, rfl⟩
  · exact Conv.evNode d (Conv.pure _)
  · obtain ⟨arr, sz, hlv⟩ := hl.lv
    exact Conv.evNode hlv (Conv.pure _)

/-! ## Trees of expressions -/

/-- the operator a tree node stands for -/
def BOp.ofBin : BinOp → BOp
  | .add => .add | .sub => .sub | .mul => .mul | .div => .div | .mod => .mod
  | .lshift => .shl | .rshift => .shr | .ior => .or | .xor => .xor | .iand => .and

def BOp.ofCmp : CmpOp → BOp
  | .lt => .lt | .gt => .gt | .lteq => .le | .gteq => .ge | .eq => .eq | .neq => .ne

/-- a tree, or the elements of an expression list -/
inductive Trees where
  | one (t : TId)
  | many (ts : List TId)

/-- the tree objects form the syntax tree that parser.m4 (183-620) builds for the expression -/
inductive ERepG (nd : TId → Option Node) : Trees → Expr → Prop
  | lit {t z} : nd t = some (.integer z) → ERepG nd (.one t) (.lit z)
  | var {t x} : nd t = some (.ident x) → ERepG nd (.one t) (.var x)
  | bin {t o l r a b} : nd t = some (.bin o (some l) (some r)) → ERepG nd (.one l) a → ERepG nd (.one r) b →
      ERepG nd (.one t) (.bin (BOp.ofBin o) a b)
  | cmp {t o l r a b} : nd t = some (.cmp o (some l) (some r)) → ERepG nd (.one l) a → ERepG nd (.one r) b →
      ERepG nd (.one t) (.bin (BOp.ofCmp o) a b)
  | compl {t l a} : nd t = some (.onesComp (some l)) → ERepG nd (.one l) a → ERepG nd (.one t) (.compl a)
  | lnot {t l a} : nd t = some (.negate (some l)) → ERepG nd (.one l) a → ERepG nd (.one t) (.lnot a)
  | land {t l r a b} : nd t = some (.lAnd (some l) (some r)) → ERepG nd (.one l) a → ERepG nd (.one r) b →
      ERepG nd (.one t) (.land a b)
  | lor {t l r a b} : nd t = some (.lOr (some l) (some r)) → ERepG nd (.one l) a → ERepG nd (.one r) b →
      ERepG nd (.one t) (.lor a b)
  | cond {t c l r k a b} : nd t = some (.infix (some c) (some l) (some r)) → ERepG nd (.one c) k →
      ERepG nd (.one l) a → ERepG nd (.one r) b → ERepG nd (.one t) (.cond k a b)
  | comma {t l r a b} : nd t = some (.comma (some l) (some r)) → ERepG nd (.one l) a → ERepG nd (.one r) b →
      ERepG nd (.one t) (.comma a b)
  /-- parentheses, conditions and expression statements -/
  | list {t h ls a} : nd t = some (.exprList (some h)) → nd h = some (.chain ls) → ERepG nd (.many ls) a →
      ERepG nd (.one t) a
  | last {l a} : ERepG nd (.one l) a → ERepG nd (.many [l]) a
  /-- the commas of a list may be grouped in any way -/
  | more {ls ms a b} : ERepG nd (.many ls) a → ERepG nd (.many ms) b → ERepG nd (.many (ls ++ ms)) (.comma a b)

abbrev ERep (nd : TId → Option Node) (t : TId) (e : Expr) : Prop := ERepG nd (.one t) e

theorem ERepG.mono {nd nd' : TId → Option Node} (h : ∀ t n, nd t = some n → nd' t = some n) {t e}
    (r : ERepG nd t e) : ERepG nd' t e := by
  induction r with
  | lit hn => exact .lit (h _ _ hn)
  | var hn => exact .var (h _ _ hn)
  | bin hn _ _ ia ib => exact .bin (h _ _ hn) ia ib
  | cmp hn _ _ ia ib => exact .cmp (h _ _ hn) ia ib
  | compl hn _ ia => exact .compl (h _ _ hn) ia
  | lnot hn _ ia => exact .lnot (h _ _ hn) ia
  | land hn _ _ ia ib => exact .land (h _ _ hn) ia ib
  | lor hn _ _ ia ib => exact .lor (h _ _ hn) ia ib
  | cond hn _ _ _ ic ia ib => exact .cond (h _ _ hn) ic ia ib
  | comma hn _ _ ia ib => exact .comma (h _ _ hn) ia ib
  | list hn hc _ ia => exact .list (h _ _ hn) (h _ _ hc) ia
  | last _ ia => exact .last ia
  | more _ _ ia ib => exact .more ia ib

/-- the variable or enumeration constant `x`, as resolved in the state, has the value
`v`; unsigned long variables above 2^63 are excluded, bic reads them as negative -/
def VarIs (s : St) (x : String) (v : Int) : Prop :=
  ∃ t, resolveGlobal x .normal s = some t ∧ (s.nodes t = some (.integer v) ∨ ∃ c, Holds s t c v ∧ InRange .long v)

theorem VarIs.ext {s s' : St} {x v} (h : VarIs s x v) (e : Ext s s') : VarIs s' x v := by
  obtain ⟨t, h1, h2⟩ := h
  refine ⟨t, by rw [e.resolveGlobal]; exact h1, ?_⟩
  rcases h2 with h2 | ⟨c, h2, h3⟩
  · exact .inl (e.nodes _ _ h2)
  · exact .inr ⟨c, h2.ext e, h3⟩

/-- evaluation of `t` gives `v` and only allocates -/
def EvalsTo (E : Env) (s : St) (t : TId) (v : Int) : Prop :=
  ∃ r s', Conv E (fun R => R.ev (some t)) s (.ok (some r) s') ∧ Ext s s' ∧ Denotes s' r v

theorem applyBin_spec {o : BinOp} {a b v : Int} (h : okOp (BOp.ofBin o) a b v) :
    applyBin o a b = some v := by
  obtain ⟨h, hs⟩ := h
  cases o <;> simp only [BOp.ofBin, cOp, side, applyBin] at *
  case add | sub | mul => rw [h]
  case div =>
    obtain ⟨r, h⟩ := h
    have hb := h.ne_zero
    have ht := h.tdiv.1
    simp only [mpzDiv, if_neg hb]
    rw [← ht]
    congr 1
    rcases hs with ⟨k, rfl⟩ | ⟨h1, h2⟩ | ⟨h1, h2⟩
    · rw [Int.mul_fdiv_cancel _ hb, Int.mul_tdiv_cancel _ hb]
    · rw [Int.fdiv_eq_tdiv_of_nonneg h1 (by omega)]
    · have e1 := Int.neg_fdiv_neg a b
      have e2 := Int.neg_tdiv_neg (a := a) (b := b)
      rw [← e1, Int.fdiv_eq_tdiv_of_nonneg (by omega) (by omega), Int.neg_tdiv_neg]
  case mod =>
    obtain ⟨q, h⟩ := h
    simp only [mpzTdivR, if_neg h.ne_zero, h.tdiv.2]
  case lshift =>
    obtain ⟨n, rfl, rfl⟩ := h
    have : mpzGetUi (n : Int) = n := by unfold mpzGetUi; omega
    rw [this]; rfl
  case rshift =>
    obtain ⟨n, rfl, h1, h2⟩ := h
    obtain ⟨hs1, hs2⟩ := hs
    have : mpzGetUi (n : Int) = n := by unfold mpzGetUi; omega
    rw [this]
    simp only [mpzTdivQ2exp, Option.some.injEq]
    have hp : (0 : Int) < 2 ^ n := Int.pow_pos (by decide)
    have hq : a / 2 ^ n = v := by
      have h3 : v ≤ a / 2 ^ n := (Int.le_ediv_iff_mul_le hp).mpr h1
      have h4 : a / 2 ^ n < v + 1 := Int.ediv_lt_of_lt_mul hp h2
      omega
    rcases hs2 with h0 | ⟨k, hk⟩
    · rw [Int.tdiv_eq_ediv_of_nonneg h0, hq]
    · rw [← hq, hk]
      simp only [Int.toNat_natCast]
      rw [Int.mul_tdiv_cancel _ (by omega), Int.mul_ediv_cancel _ (by omega)]
  case ior => exact congrArg some (bit_ext fun i => (bit_mpzIor a b i).trans (h i).symm)
  case xor => exact congrArg some (bit_ext fun i => (bit_mpzXor a b i).trans (h i).symm)
  case iand => exact congrArg some (bit_ext fun i => (bit_mpzAnd a b i).trans (h i).symm)

theorem applyCmp_spec {o : CmpOp} {a b v : Int} (h : cOp (BOp.ofCmp o) a b v) :
    (if applyCmp o a b then (1 : Int) else 0) = v := by
  cases o <;> simp only [BOp.ofCmp, cOp, isTruth, applyCmp, mpzCmp] at * <;> grind

theorem ne_ofBin_cmp {o : BinOp} {o' : CmpOp} (h : BOp.ofBin o = BOp.ofCmp o') : False := by
  cases o <;> cases o' <;> cases h

theorem truth_ite {p : Prop} [Decidable p] {v : Int} (h : isTruth p v) : (if p then (1 : Int) else 0) = v := by
  unfold isTruth at h; split <;> simp_all

theorem truth_ite' {y : Int} {v : Int} (h : isTruth (y ≠ 0) v) : (if y = 0 then (0 : Int) else 1) = v := by
  unfold isTruth at h; split <;> omega

theorem mpzGetSi_truth {x : Int} {b : Bool} (h : okTruth x b) : mpzGetSi x = 0 ↔ b = false := by
  obtain ⟨h1, h2⟩ := h
  unfold cTruth at h1
  rw [mpzGetSi_eq_zero]
  cases b <;> simp at h1 ⊢ <;> omega

section
variable {E : Env}

/-- comparable value of a subexpression -/
theorem EvalsTo.comparable {s : St} {t : TId} {v : Int} (w : WF s) (h : EvalsTo E s t v) :
    ∃ s', Conv E (fun R => convComparable R (some t)) s (.ok v s') ∧ Ext s s' := by
  obtain ⟨r, s', hc, x, d⟩ := h
  obtain ⟨s'', h1, h2⟩ := convComparable_conv hc (x.wf w) d
  exact ⟨s'', h1, x.trans h2⟩

/-- finishing with a new integer -/
theorem EvalsTo.ofInt {s s' : St} {t : TId} {v : Int} (w : WF s) (x : Ext s s')
    (h : Conv E (fun R => R.ev (some t)) s (mkInt v s')) : EvalsTo E s t v :=
  ⟨_, _, h, x.trans (addNode_ext (x.wf w) _), .inl (addNode_self _ _)⟩

/-- the value of the expression is computed: it is not the object of a variable -/
def computed : Expr → Bool
  | .var _ => false
  | .cond _ a b => computed a && computed b
  | .comma _ b => computed b
  | _ => true

/-- the result is an integer object, or one of the variables; if `e` is computed, an integer object -/
def Result (ρ : String → Int → Prop) (s : St) (r : TId) (e : Expr) (v : Int) : Prop :=
  (computed e = true → s.nodes r = some (.integer v)) ∧
    (s.nodes r = some (.integer v) ∨ ∃ y, ρ y v ∧ resolveGlobal y .normal s = some r)

variable {ρ : String → Int → Prop}

/-- evaluating `t`, the tree of `e`, gives `v`; `ρ` gives the values of the variables -/
def EvalsF (E : Env) (ρ : String → Int → Prop) (s : St) (t : TId) (e : Expr) (v : Int) : Prop :=
  ∃ r s', Conv E (fun R => R.ev (some t)) s (.ok (some r) s') ∧ Ext s s' ∧ Denotes s' r v ∧ Result ρ s' r e v

theorem EvalsF.to {s : St} {t : TId} {e : Expr} {v : Int} (h : EvalsF E ρ s t e v) : EvalsTo E s t v := by
  obtain ⟨r, s', h1, h2, h3, _⟩ := h
  exact ⟨r, s', h1, h2, h3⟩

theorem EvalsF.ofInt {s s' : St} {t : TId} {e : Expr} {v : Int} (w : WF s) (x : Ext s s')
    (h : Conv E (fun R => R.ev (some t)) s (mkInt v s')) : EvalsF E ρ s t e v :=
  ⟨_, _, h, x.trans (addNode_ext (x.wf w) _), .inl (addNode_self _ _), fun _ => addNode_self _ _, .inl (addNode_self _ _)⟩

/-- what is to be shown of a tree or of an expression list -/
def EvalsG (E : Env) (ρ : String → Int → Prop) (s : St) : Trees → Expr → Int → Prop
  | .one t, e, v => EvalsF E ρ s t e v
  | .many ts, e, v => ∀ acc, ∃ r s', Conv E (fun R => forEachLast (fun t => R.ev (some t)) acc ts) s (.ok (some r) s') ∧
      Ext s s' ∧ Denotes s' r v ∧ Result ρ s' r e v

theorem forEachLast_append (f : TId → M Ref) : ∀ (a b : List TId) (acc : Ref) (s : St),
    forEachLast f acc (a ++ b) s = (forEachLast f acc a >>= fun r => forEachLast f r b) s
  | [], b, acc, s => rfl
  | t :: a, b, acc, s => by
    show (f t >>= fun r => forEachLast f r (a ++ b)) s = ((f t >>= fun r => forEachLast f r a) >>= fun r => forEachLast f r b) s
    rw [bind_apply, bind_apply, bind_apply]
    rcases f t s with ⟨r, s1⟩ | _ | _
    · simp only
      rw [forEachLast_append f a b, bind_apply]
    · rfl
    · rfl

theorem eval_exprG {s : St} (w : WF s) (hρ : ∀ x v, ρ x v → VarIs s x v) {e : Expr} {t : Trees} (ht : ERepG s.nodes t e) :
    ∀ v, Val okOp okTruth ρ e v → ∀ s', Ext s s' → EvalsG E ρ s' t e v := by
  induction ht with
  | @lit t z hn =>
    intro v hv s' x
    cases hv with
    | lit => exact ⟨t, s', Conv.evNode (x.nodes _ _ hn) (Conv.pure _), Ext.refl _, .inl (x.nodes _ _ hn), fun _ => x.nodes _ _ hn,
      .inl (x.nodes _ _ hn)⟩
  | @var t y hn =>
    intro v hv s' x
    cases hv with
    | var hx =>
      obtain ⟨r, h1, h2⟩ := (hρ _ _ hx).ext x
      have d : Denotes s' r v := by
        rcases h2 with h2 | ⟨c, h2, h3⟩
        · exact .inl h2
        · exact .inr ⟨c, _, h2, (toPtrdiff_of_inRange h3).symm⟩
      refine ⟨r, s', Conv.evNode (x.nodes _ _ hn) ?_, Ext.refl _, d, fun h => (by cases h),
        .inr ⟨y, hx, h1⟩⟩
      refine Conv.const ?_
      simp [resolveIdG, idStr, nodeR, node_apply (x.nodes _ _ hn), get, h1]
  | @bin t o l r a b hn _ _ iha ihb =>
    intro v hv s' x
    cases hv with
    | bin ha hb hop =>
      obtain ⟨l', s1, c1, x1, d1, i1⟩ := iha _ ha s' x
      obtain ⟨r', s2, c2, x2, d2, i2⟩ := ihb _ hb s1 (x.trans x1)
      have w2 : WF s2 := (x.trans (x1.trans x2)).wf w
      obtain ⟨l'', s3, e3, x3, n3⟩ := liveToInt_apply w2 (d1.ext x2)
      obtain ⟨r'', s4, e4, x4, n4⟩ := liveToInt_apply (x3.wf w2) (d2.ext x3)
      refine EvalsF.ofInt (x.wf w) (x1.trans (x2.trans (x3.trans x4))) (Conv.evNode (x.nodes _ _ hn) ?_)
      refine Conv.bind c1 (Conv.bind c2 (Conv.const ?_))
      simp only [bind_apply, e3, e4, asInteger_apply (x4.nodes _ _ n3), asInteger_apply n4,
        applyBin_spec hop]
  | @cmp t o l r a b hn _ _ iha ihb =>
    intro v hv s' x
    cases hv with
    | bin ha hb hop =>
      obtain ⟨s1, c1, x1⟩ := EvalsTo.comparable (x.wf w) (EvalsF.to (iha _ ha s' x))
      obtain ⟨s2, c2, x2⟩ := EvalsTo.comparable ((x.trans x1).wf w) (EvalsF.to (ihb _ hb s1 (x.trans x1)))
      refine EvalsF.ofInt (x.wf w) (x1.trans x2) (Conv.evNode (x.nodes _ _ hn) ?_)
      refine Conv.bind c1 (Conv.bind c2 (Conv.const ?_))
      rw [applyCmp_spec hop.1]
  | @compl t l a hn _ iha =>
    intro v hv s' x
    cases hv with
    | @compl _ p _ ha hb =>
      obtain ⟨l', s1, c1, x1, d1, i1⟩ := iha _ ha s' x
      obtain ⟨l'', s3, e3, x3, n3⟩ := liveToInt_apply ((x.trans x1).wf w) d1
      refine EvalsF.ofInt (x.wf w) (x1.trans x3) (Conv.evNode (x.nodes _ _ hn) ?_)
      refine Conv.bind c1 (Conv.const ?_)
      simp only [bind_apply, e3, asInteger_apply n3]
      congr 1
      exact bit_ext fun i => (bit_mpzCom p i).trans (hb i).symm
  | @lnot t l a hn _ iha =>
    intro v hv s' x
    cases hv with
    | lnot ha hb =>
      obtain ⟨l', s1, c1, x1, d1, i1⟩ := iha _ ha s' x
      obtain ⟨s2, c2, x2⟩ := convComparable_conv (d1.ev (E := E)) ((x.trans x1).wf w) d1
      refine EvalsF.ofInt (x.wf w) (x1.trans x2) (Conv.evNode (x.nodes _ _ hn) ?_)
      refine Conv.bind c1 (Conv.bind c2 (Conv.const ?_))
      rw [truth_ite hb]
  | @land t l r a b hn _ _ iha ihb =>
    intro v hv s' x
    cases hv with
    | land_false ha =>
      obtain ⟨s1, c1, x1⟩ := EvalsTo.comparable (x.wf w) (EvalsF.to (iha _ ha s' x))
      refine EvalsF.ofInt (x.wf w) x1 (Conv.evNode (x.nodes _ _ hn) ?_)
      refine Conv.bind c1 ?_
      exact Conv.const rfl
    | land_true ha hp hb hv =>
      obtain ⟨s1, c1, x1⟩ := EvalsTo.comparable (x.wf w) (EvalsF.to (iha _ ha s' x))
      obtain ⟨s2, c2, x2⟩ := EvalsTo.comparable ((x.trans x1).wf w) (EvalsF.to (ihb _ hb s1 (x.trans x1)))
      refine EvalsF.ofInt (x.wf w) (x1.trans x2) (Conv.evNode (x.nodes _ _ hn) ?_)
      refine Conv.bind c1 ?_
      simp only [if_neg hp]
      refine Conv.bind c2 (Conv.const ?_)
      rw [truth_ite' hv]
  | @lor t l r a b hn _ _ iha ihb =>
    intro v hv s' x
    cases hv with
    | lor_true ha hp =>
      obtain ⟨s1, c1, x1⟩ := EvalsTo.comparable (x.wf w) (EvalsF.to (iha _ ha s' x))
      refine EvalsF.ofInt (x.wf w) x1 (Conv.evNode (x.nodes _ _ hn) ?_)
      refine Conv.bind c1 ?_
      simp only [if_neg hp]
      exact Conv.const rfl
    | lor_false ha hb hv =>
      obtain ⟨s1, c1, x1⟩ := EvalsTo.comparable (x.wf w) (EvalsF.to (iha _ ha s' x))
      obtain ⟨s2, c2, x2⟩ := EvalsTo.comparable ((x.trans x1).wf w) (EvalsF.to (ihb _ hb s1 (x.trans x1)))
      refine EvalsF.ofInt (x.wf w) (x1.trans x2) (Conv.evNode (x.nodes _ _ hn) ?_)
      refine Conv.bind c1 ?_
      simp only [if_true]
      refine Conv.bind c2 (Conv.const ?_)
      rw [truth_ite' hv]
  | @cond t c l r k a b hn _ _ _ ihc iha ihb =>
    intro v hv s' x
    cases hv with
    | @cond_true _ _ _ p _ hc hp ha =>
      obtain ⟨s1, c1, x1⟩ := EvalsTo.comparable (x.wf w) (EvalsF.to (ihc _ hc s' x))
      obtain ⟨r', s2, c2, x2, d2, i2⟩ := iha _ ha s1 (x.trans x1)
      refine ⟨r', s2, Conv.evNode (x.nodes _ _ hn) ?_, x1.trans x2, d2,
        fun h => i2.1 (by simp [computed] at h; exact h.1), i2.2⟩
      refine Conv.bind c1 ?_
      have : mpzGetSi p ≠ 0 := by rw [Ne, mpzGetSi_truth hp]; decide
      simp only [if_neg this]
      exact c2
    | @cond_false _ _ _ p _ hc hp ha =>
      obtain ⟨s1, c1, x1⟩ := EvalsTo.comparable (x.wf w) (EvalsF.to (ihc _ hc s' x))
      obtain ⟨r', s2, c2, x2, d2, i2⟩ := ihb _ ha s1 (x.trans x1)
      refine ⟨r', s2, Conv.evNode (x.nodes _ _ hn) ?_, x1.trans x2, d2,
        fun h => i2.1 (by simp [computed] at h; exact h.2), i2.2⟩
      refine Conv.bind c1 ?_
      have : mpzGetSi p = 0 := (mpzGetSi_truth hp).mpr rfl
      simp only [if_pos this]
      exact c2
  | @comma t l r a b hn _ _ iha ihb =>
    intro v hv s' x
    cases hv with
    | comma ha hb =>
      obtain ⟨l', s1, c1, x1, d1, i1⟩ := iha _ ha s' x
      obtain ⟨r', s2, c2, x2, d2, i2⟩ := ihb _ hb s1 (x.trans x1)
      refine ⟨r', s2, Conv.evNode (x.nodes _ _ hn) ?_, x1.trans x2, d2, i2⟩
      exact Conv.bind c1 c2
  | @list t h ls a hn hc _ ih =>
    intro v hv s' x
    obtain ⟨r, s1, c1, x1, d1, i1⟩ := ih v hv s' x none
    refine ⟨r, s1, Conv.evNode (x.nodes _ _ hn) ?_, x1, d1, i1⟩
    refine Conv.bind (a := ls) (s' := s') (Conv.const ?_) c1
    simp [chainElems, peek_apply (x.nodes _ _ hc)]
  | @last l a _ ih =>
    intro v hv s' x acc
    obtain ⟨r, s1, c1, x1, d1, i1⟩ := ih v hv s' x
    exact ⟨r, s1, Conv.bind c1 (Conv.pure _), x1, d1, i1⟩
  | @more ls ms a b _ _ iha ihb =>
    intro v hv s' x acc
    cases hv with
    | comma ha hb =>
      obtain ⟨l', s1, c1, x1, d1, i1⟩ := iha _ ha s' x acc
      obtain ⟨r', s2, c2, x2, d2, i2⟩ := ihb _ hb s1 (x.trans x1) (some l')
      have c3 : Conv E (fun R => forEachLast (fun t => R.ev (some t)) acc ls >>=
          fun r => forEachLast (fun t => R.ev (some t)) r ms) s' (.ok (some r') s2) := Conv.bind c1 c2
      obtain ⟨N, hN⟩ := c3
      exact ⟨r', s2, ⟨N, fun n hn => by rw [← hN n hn]; exact forEachLast_append _ _ _ _ _⟩, x1.trans x2, d2, i2⟩

/-- Expressions evaluate to their value. -/
theorem eval_expr {s : St} (w : WF s) {e : Expr} {v : Int}
    (hv : Val okOp okTruth (VarIs s) e v) {t : TId} (ht : ERep s.nodes t e) : EvalsTo E s t v :=
  EvalsF.to (eval_exprG w (fun _ _ h => h) ht v hv s (Ext.refl s))

/-- … and computed ones to an integer object -/
theorem eval_full {s : St} (w : WF s) {e : Expr} {v : Int}
    (hρ : ∀ x v, ρ x v → VarIs s x v) (hv : Val okOp okTruth ρ e v) {t : TId} (ht : ERep s.nodes t e) : EvalsF E ρ s t e v :=
  eval_exprG w hρ ht v hv s (Ext.refl s)

end

end Bic
