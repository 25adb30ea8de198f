import Verif.Spec.Syntax
import Verif.Proofs.ParseComplete
/-!
# The expressions of the grammar are those of the table of precedences
-/

namespace Bic.Parser
open CSyn

/-- the prefix operators of unary_expression (296-354): all of them want a unary_expression -/
def bTable : Pre → Option Nat
  | .plus => none
  | .minus => none
  | _ => some 15

abbrev TyName (i : List T) (t : PT) (r : List T) : Prop := Der .typeName i t r

abbrev BW := Writes bTable TyName

theorem writes_anti {tbl TN w e i r} (h : Writes tbl TN w e i r) :
    ∀ p q, w = .prec p → q ≤ p → Writes tbl TN (.prec q) e i r := by
  intro p q hw hq
  cases h <;> cases hw
  case int => exact .int
  case flt => exact .flt
  case ident => exact .ident
  case str => exact .str
  case paren h => exact .paren h
  case bin h h' hp => exact .bin (by omega) h h'
  case asg h h' hp => exact .asg (by omega) h h'
  case cond h' h h'' hp => exact .cond (by omega) h h' h''
  case comma h h' hp => exact .comma (by omega) h h'
  case pre ho h hp => exact .pre (by omega) ho h
  case cast ho h hp => exact .cast (by omega) ho h
  case sizeofT ho hp => exact .sizeofT (by omega) ho
  case call0 h hp => exact .call0 (by omega) h
  case call h h' hp => exact .call (by omega) h h'
  case index h h' hp => exact .index (by omega) h h'
  case pInc h hp => exact .pInc (by omega) h
  case pDec h hp => exact .pDec (by omega) h
  case dot h hp => exact .dot (by omega) h
  case arrow h hp => exact .arrow (by omega) h

theorem writes_le {tbl TN p q e i r} (h : Writes tbl TN (.prec p) e i r) (hq : q ≤ p) : Writes tbl TN (.prec q) e i r :=
  writes_anti h p q rfl hq

/-- fewer operands are wanted: what bic's table writes, C's table writes too -/
theorem writes_c {TN w e i r} (h : Writes bTable TN w e i r) : Writes cTable TN w e i r := by
  induction h
  case pre p o q a i r hp ho _ ih =>
    cases o <;> simp only [bTable, Option.some.injEq, reduceCtorEq] at ho <;> subst ho
    case inc => exact .pre (q := 15) hp rfl ih
    case dec => exact .pre (q := 15) hp rfl ih
    case sizeof => exact .pre (q := 15) hp rfl ih
    all_goals exact .pre (q := 14) hp rfl (writes_le ih (by omega))
  case int => exact .int
  case flt => exact .flt
  case ident => exact .ident
  case str => exact .str
  case paren h => exact .paren h
  case bin hp _ _ h h' => exact .bin hp h h'
  case asg hp _ _ h h' => exact .asg hp h h'
  case cond hp _ _ _ h h' h'' => exact .cond hp h h' h''
  case comma hp _ _ h h' => exact .comma hp h h'
  case cast hp ho _ h => exact .cast hp ho h
  case sizeofT hp ho => exact .sizeofT hp ho
  case call0 hp _ h => exact .call0 hp h
  case call hp _ _ h h' => exact .call hp h h'
  case index hp _ _ h h' => exact .index hp h h'
  case pInc hp _ h => exact .pInc hp h
  case pDec hp _ h => exact .pDec hp h
  case dot hp _ h => exact .dot hp h
  case arrow hp _ h => exact .arrow hp h
  case arg1 _ h => exact .arg1 h
  case argMore _ _ h h' => exact .argMore h h'

/-! ## From the table to the grammar -/

/-- the nonterminal of a precedence -/
def nt : Nat → N
  | 0 => .expression | 1 => .expression | 2 => .assignment | 3 => .cond
  | 4 => .bin 10 | 5 => .bin 9 | 6 => .bin 8 | 7 => .bin 7 | 8 => .bin 6 | 9 => .bin 5 | 10 => .bin 4
  | 11 => .bin 3 | 12 => .bin 2 | 13 => .bin 1 | 14 => .bin 0 | 15 => .unary | 16 => .postfix
  | _ => .primary

theorem nt_step {p i t r} (h : Der (nt (p + 1)) i t r) (hp : 2 ≤ p) : Der (nt p) i t r := by
  match p, hp with
  | 2, _ => exact .asCond h
  | 3, _ => exact .cdBase h
  | 4, _ => exact .bBase (by omega) h
  | 5, _ => exact .bBase (by omega) h
  | 6, _ => exact .bBase (by omega) h
  | 7, _ => exact .bBase (by omega) h
  | 8, _ => exact .bBase (by omega) h
  | 9, _ => exact .bBase (by omega) h
  | 10, _ => exact .bBase (by omega) h
  | 11, _ => exact .bBase (by omega) h
  | 12, _ => exact .bBase (by omega) h
  | 13, _ => exact .bBase (by omega) h
  | 14, _ => exact .cUnary h
  | 15, _ => exact .uPostfix h
  | 16, _ => exact .poPrimary h
  | p + 17, _ => exact h

theorem nt_down {p q i t r} (h : Der (nt q) i t r) (hp : 2 ≤ p) (hpq : p ≤ q) : Der (nt p) i t r := by
  obtain ⟨d, rfl⟩ := Nat.exists_eq_add_of_le hpq
  induction d with
  | zero => exact h
  | succ d ih => exact ih (nt_step h (by omega)) (by omega)

theorem nt_low {p q i t r e} (h : Der (nt q) i t r) (hq : 2 ≤ q) (hpq : p ≤ q) (hm : Means t e) :
    ∃ t', Means t' e ∧ Der (nt p) i t' r := by
  match p with
  | 0 => exact ⟨_, .one hm, .exOne (nt_down (p := 2) h (by omega) hq)⟩
  | 1 => exact ⟨_, .one hm, .exOne (nt_down (p := 2) h (by omega) hq)⟩
  | p + 2 => exact ⟨t, hm, nt_down h (by omega) hpq⟩

theorem expr_list {i t r} (h : Der .expression i t r) : ∃ ts, ts ≠ [] ∧ t = .exprList (.chain ts) := by
  cases h
  · exact ⟨_, by simp, rfl⟩
  · exact ⟨_, by simp, rfl⟩

theorem arg_chain {i t r} (h : Der .argList i t r) : ∃ ts, t = .chain ts := by
  cases h
  · exact ⟨_, rfl⟩
  · exact ⟨_, rfl⟩

/-- the nonterminal of what is wanted -/
def ntW : Want → N
  | .prec p => nt p
  | .args => .argList

theorem der_of_writes {w e i r} (h : BW w e i r) : ∃ t, Means t e ∧ Der (ntW w) i t r := by
  induction h
  case int p v r => exact nt_low (q := p + 17) (t := .integer v) .pInt (by omega) (by omega) .int
  case flt p v r => exact nt_low (q := p + 17) (t := .flt v) .pFlt (by omega) (by omega) .flt
  case ident p v r => exact nt_low (q := p + 17) (t := .ident v) .pIdent (by omega) (by omega) .ident
  case str p v r => exact nt_low (q := p + 17) (t := .str v) .pStr (by omega) (by omega) .str
  case paren p e i r _ ih =>
    obtain ⟨t, hm, h⟩ := ih
    exact nt_low (q := p + 17) (t := t) (.pParen h) (by omega) (by omega) hm
  case bin p o a b i j r hp _ _ ih ih' =>
    obtain ⟨t, hm, h⟩ := ih
    obtain ⟨u, hu, h'⟩ := ih'
    refine nt_low (q := o.prec) (t := o.tree t u) ?_ (by cases o <;> decide) hp (.bin hm hu)
    cases o
    case lor => exact .bOp (l := 9) h rfl h'
    case land => exact .bOp (l := 8) h rfl h'
    case or => exact .bOp (l := 7) h rfl h'
    case xor => exact .bOp (l := 6) h rfl h'
    case and => exact .bOp (l := 5) h rfl h'
    case eq => exact .bOp (l := 4) h rfl h'
    case ne => exact .bOp (l := 4) h rfl h'
    case lt => exact .bOp (l := 3) h rfl h'
    case gt => exact .bOp (l := 3) h rfl h'
    case le => exact .bOp (l := 3) h rfl h'
    case ge => exact .bOp (l := 3) h rfl h'
    case shl => exact .bOp (l := 2) h rfl h'
    case shr => exact .bOp (l := 2) h rfl h'
    case add => exact .bOp (l := 1) h rfl h'
    case sub => exact .bOp (l := 1) h rfl h'
    case mul => exact .bOp (l := 0) h rfl h'
    case div => exact .bOp (l := 0) h rfl h'
    case mod => exact .bOp (l := 0) h rfl h'
  case asg p o a b i j r hp _ _ ih ih' =>
    obtain ⟨t, hm, h⟩ := ih
    obtain ⟨u, hu, h'⟩ := ih'
    refine nt_low (q := 2) (t := o.tree t u) ?_ (by decide) hp (.asg hm hu)
    cases o <;> exact .asOp h rfl h'
  case cond p c a b i j j' r hp _ _ _ ih ih' ih'' =>
    obtain ⟨t, hm, h⟩ := ih
    obtain ⟨u, hu, h'⟩ := ih'
    obtain ⟨v, hv, h''⟩ := ih''
    exact nt_low (q := 3) (.cdCond h h' h'') (by decide) hp (.cond hm hu hv)
  case comma p a b i j r hp _ _ ih ih' =>
    obtain ⟨t, hm, h⟩ := ih
    obtain ⟨u, hu, h'⟩ := ih'
    obtain ⟨ts, hts, rfl⟩ := expr_list h
    refine ⟨_, .comma hts hm hu, ?_⟩
    match p, hp with
    | 0, _ => exact .exMore h h'
    | 1, _ => exact .exMore h h'
  case pre p o q a i r hp ho _ ih =>
    obtain ⟨t, hm, h⟩ := ih
    cases o <;> simp only [bTable, Option.some.injEq, reduceCtorEq] at ho <;> subst ho
    all_goals exact nt_low (q := 15) (.uOp rfl h) (by decide) hp (.pre hm rfl)
  case cast p ty a i j r hp ho _ ih =>
    obtain ⟨t, hm, h⟩ := ih
    exact nt_low (q := 14) (.cCast ho h) (by decide) hp (.cast hm)
  case sizeofT p ty i r hp ho => exact nt_low (q := 15) (.uSizeofT ho) (by decide) hp .sizeofT
  case call0 p f i r hp _ ih =>
    obtain ⟨t, hm, h⟩ := ih
    exact nt_low (q := 16) (.poCall0 h) (by decide) hp (.call0 hm)
  case call p f a i j r hp _ _ ih ih' =>
    obtain ⟨t, hm, h⟩ := ih
    obtain ⟨u, hu, h'⟩ := ih'
    exact nt_low (q := 16) (.poCall h h') (by decide) hp (.call hm hu)
  case index p a b i j r hp _ _ ih ih' =>
    obtain ⟨t, hm, h⟩ := ih
    obtain ⟨u, hu, h'⟩ := ih'
    exact nt_low (q := 16) (.poIndex h h') (by decide) hp (.index hm hu)
  case pInc p a i r hp _ ih =>
    obtain ⟨t, hm, h⟩ := ih
    exact nt_low (q := 16) (.poInc h) (by decide) hp (.pInc hm)
  case pDec p a i r hp _ ih =>
    obtain ⟨t, hm, h⟩ := ih
    exact nt_low (q := 16) (.poDec h) (by decide) hp (.pDec hm)
  case dot p a s i r hp _ ih =>
    obtain ⟨t, hm, h⟩ := ih
    exact nt_low (q := 16) (.poDot h) (by decide) hp (.dot hm)
  case arrow p a s i r hp _ ih =>
    obtain ⟨t, hm, h⟩ := ih
    exact nt_low (q := 16) (.poArrow h) (by decide) hp (.arrow hm)
  case arg1 a i r _ ih =>
    obtain ⟨t, hm, h⟩ := ih
    exact ⟨_, .arg1 hm, .agOne h⟩
  case argMore l a i j r _ _ ih ih' =>
    obtain ⟨t, hm, h⟩ := ih
    obtain ⟨u, hu, h'⟩ := ih'
    obtain ⟨ts, rfl⟩ := arg_chain h
    exact ⟨_, .argMore hm hu, .agMore h h'⟩

/-! ## From the grammar to the table -/

/-- what is wanted of a nonterminal of the expressions -/
def want : N → Option Want
  | .primary => some (.prec 17)
  | .postfix => some (.prec 16)
  | .argList => some .args
  | .unary => some (.prec 15)
  | .bin l => some (.prec (14 - l))
  | .cond => some (.prec 3)
  | .assignment => some (.prec 2)
  | .expression => some (.prec 1)
  | _ => none

def Snd (n : N) (i : List T) (t : PT) (r : List T) : Prop :=
  match want n with
  | some w => ∃ e, Means t e ∧ BW w e i r
  | none => True

theorem bin_level {l k f} (h : binAction (l + 1) k = some f) :
    ∃ o : Bin, o.tok = k ∧ o.tree = f ∧ o.prec + (l + 1) = 14 := by
  unfold binAction at h
  split at h <;> first
    | (cases h; done)
    | (rename_i hl; cases hl; cases h)
  · exact ⟨.mul, rfl, rfl, rfl⟩
  · exact ⟨.div, rfl, rfl, rfl⟩
  · exact ⟨.mod, rfl, rfl, rfl⟩
  · exact ⟨.add, rfl, rfl, rfl⟩
  · exact ⟨.sub, rfl, rfl, rfl⟩
  · exact ⟨.shl, rfl, rfl, rfl⟩
  · exact ⟨.shr, rfl, rfl, rfl⟩
  · exact ⟨.lt, rfl, rfl, rfl⟩
  · exact ⟨.gt, rfl, rfl, rfl⟩
  · exact ⟨.le, rfl, rfl, rfl⟩
  · exact ⟨.ge, rfl, rfl, rfl⟩
  · exact ⟨.eq, rfl, rfl, rfl⟩
  · exact ⟨.ne, rfl, rfl, rfl⟩
  · exact ⟨.and, rfl, rfl, rfl⟩
  · exact ⟨.xor, rfl, rfl, rfl⟩
  · exact ⟨.or, rfl, rfl, rfl⟩
  · exact ⟨.land, rfl, rfl, rfl⟩
  · exact ⟨.lor, rfl, rfl, rfl⟩

theorem assign_op {k f} (h : assignAction k = some f) : ∃ o : Asg, o.tok = k ∧ o.tree = f := by
  unfold assignAction at h
  split at h <;> first
    | (cases h; done)
    | cases h
  · exact ⟨.plain, rfl, rfl⟩
  · exact ⟨.add, rfl, rfl⟩
  · exact ⟨.sub, rfl, rfl⟩
  · exact ⟨.div, rfl, rfl⟩
  · exact ⟨.shl, rfl, rfl⟩
  · exact ⟨.shr, rfl, rfl⟩
  · exact ⟨.xor, rfl, rfl⟩

theorem unary_op {k f} (h : unaryAction k = some f) : ∃ o : Pre, o.tok = k ∧ bTable o = some 15 ∧ ∀ t, o.tree t = some (f t) := by
  unfold unaryAction at h
  split at h <;> first
    | (cases h; done)
    | cases h
  · exact ⟨.inc, rfl, rfl, fun _ => rfl⟩
  · exact ⟨.dec, rfl, rfl, fun _ => rfl⟩
  · exact ⟨.not, rfl, rfl, fun _ => rfl⟩
  · exact ⟨.addr, rfl, rfl, fun _ => rfl⟩
  · exact ⟨.deref, rfl, rfl, fun _ => rfl⟩
  · exact ⟨.compl, rfl, rfl, fun _ => rfl⟩
  · exact ⟨.sizeof, rfl, rfl, fun _ => rfl⟩

theorem writes_of_der {n i t r} (h : Der n i t r) : Snd n i t r := by
  induction h
  case pInt => exact ⟨_, .int, .int⟩
  case pFlt => exact ⟨_, .flt, .flt⟩
  case pIdent => exact ⟨_, .ident, .ident⟩
  case pStr => exact ⟨_, .str, .str⟩
  case pParen ih => exact let ⟨e, hm, h⟩ := ih; ⟨e, hm, .paren h⟩
  case poPrimary ih => exact let ⟨e, hm, h⟩ := ih; ⟨e, hm, writes_le h (by omega)⟩
  case poCall0 ih => exact let ⟨e, hm, h⟩ := ih; ⟨_, .call0 hm, .call0 (by omega) h⟩
  case poCall ih ih' => exact let ⟨e, hm, h⟩ := ih; let ⟨e', hm', h'⟩ := ih'; ⟨_, .call hm hm', .call (by omega) h h'⟩
  case poIndex ih ih' => exact let ⟨e, hm, h⟩ := ih; let ⟨e', hm', h'⟩ := ih'; ⟨_, .index hm hm', .index (by omega) h h'⟩
  case poInc ih => exact let ⟨e, hm, h⟩ := ih; ⟨_, .pInc hm, .pInc (by omega) h⟩
  case poDec ih => exact let ⟨e, hm, h⟩ := ih; ⟨_, .pDec hm, .pDec (by omega) h⟩
  case poDot ih => exact let ⟨e, hm, h⟩ := ih; ⟨_, .dot hm, .dot (by omega) h⟩
  case poArrow ih => exact let ⟨e, hm, h⟩ := ih; ⟨_, .arrow hm, .arrow (by omega) h⟩
  case agOne ih => exact let ⟨e, hm, h⟩ := ih; ⟨_, .arg1 hm, .arg1 h⟩
  case agMore ih ih' => exact let ⟨e, hm, h⟩ := ih; let ⟨e', hm', h'⟩ := ih'; ⟨_, .argMore hm hm', .argMore h h'⟩
  case uPostfix ih => exact let ⟨e, hm, h⟩ := ih; ⟨e, hm, writes_le h (by omega)⟩
  case uOp k f i t r hk _ ih =>
    obtain ⟨e, hm, h⟩ := ih
    obtain ⟨o, rfl, ho, hf⟩ := unary_op hk
    exact ⟨_, .pre hm (hf t), .pre (by omega) ho h⟩
  case uSizeofT h _ => exact ⟨_, .sizeofT, .sizeofT (by omega) h⟩
  case cUnary ih => exact let ⟨e, hm, h⟩ := ih; ⟨e, hm, writes_le h (by omega)⟩
  case cCast hty _ _ ih => exact let ⟨e, hm, h⟩ := ih; ⟨_, .cast hm, .cast (by omega) hty h⟩
  case bBase l i t r hl _ ih => exact let ⟨e, hm, h⟩ := ih; ⟨e, hm, writes_le h (by omega)⟩
  case bOp l i a k f j b r _ hk _ ih ih' =>
    obtain ⟨e, hm, h⟩ := ih
    obtain ⟨e', hm', h'⟩ := ih'
    obtain ⟨o, rfl, rfl, ho⟩ := bin_level hk
    exact ⟨_, .bin hm hm', .bin (by omega) (writes_le h (by omega)) (writes_le h' (by omega))⟩
  case cdBase ih => exact let ⟨e, hm, h⟩ := ih; ⟨e, hm, writes_le h (by omega)⟩
  case cdCond ih ih' ih'' =>
    obtain ⟨e, hm, h⟩ := ih
    obtain ⟨e', hm', h'⟩ := ih'
    obtain ⟨e'', hm'', h''⟩ := ih''
    exact ⟨_, .cond hm hm' hm'', .cond (by omega) (writes_le h (by omega)) h' h''⟩
  case asCond ih => exact let ⟨e, hm, h⟩ := ih; ⟨e, hm, writes_le h (by omega)⟩
  case asOp i l k f j e r _ hk _ ih ih' =>
    obtain ⟨e, hm, h⟩ := ih
    obtain ⟨e', hm', h'⟩ := ih'
    obtain ⟨o, rfl, rfl⟩ := assign_op hk
    exact ⟨_, .asg hm hm', .asg (by omega) h h'⟩
  case exOne ih => exact let ⟨e, hm, h⟩ := ih; ⟨e, .one hm, writes_le h (by omega)⟩
  case exMore hd _ ih ih' =>
    obtain ⟨e, hm, h⟩ := ih
    obtain ⟨e', hm', h'⟩ := ih'
    obtain ⟨ts, hts, heq⟩ := expr_list hd
    cases heq
    exact ⟨_, .comma hts hm hm', .comma (by omega) h h'⟩
  all_goals exact trivial

end Bic.Parser
