import Verif.Spec.Declarator
import Verif.Proofs.ParseExpr
/-!
# Declarators of the grammar
-/

namespace Bic.Parser
open CSyn

/-- assignment expressions in brackets -/
abbrev BrkE (i : List T) (t : PT) (r : List T) : Prop := Der .assignment i t r

abbrev BrkQ (i r : List T) : Prop := ∃ q, Der .tqList i q r

/-- what may stand behind `(` of a function declarator -/
abbrev FnArgs (i : List T) (a : PT) (r : List T) : Prop :=
  (i = .p .rparen :: r ∧ a = .null) ∨ Der .paramTypeList i a (.p .rparen :: r) ∨ Der .identList i a (.p .rparen :: r)

/-- the brackets of direct_declarator (1001-1070): empty ones declare a pointer -/
inductive GBrk : List T → (CTy → CTy) → List T → Prop
  | none {r} : GBrk (.p .rbrack :: r) .ptr r
  | star {r} : GBrk (.p .star :: .p .rbrack :: r) .ptr r
  | sized {i g r} : SBrk BrkE BrkQ i g r → GBrk i g r

abbrev GDec := Dec BrkQ GBrk FnArgs

theorem asg_ne_null {i t r} (h : Der .assignment i t r) : t ≠ .null := by
  have h := writes_of_der h
  simp only [Snd, want] at h
  obtain ⟨e, hm, -⟩ := h
  rintro rfl
  generalize ht : PT.null = t at hm
  cases hm with
  | @bin o => cases o <;> cases ht
  | @asg o => cases o <;> cases ht
  | @pre o _ _ _ _ ho =>
    subst ht
    cases o <;> simp [Pre.tree] at ho
  | _ => cases ht

theorem readD_array {d q e t} (h : e ≠ .null) : readD (.array d q e) t = readD d (.arr (some e) t) := by
  cases e <;> first | rfl | exact absurd rfl h

theorem readD_array0 {d q t} : readD (.array d q .null) t = readD d (.arr none t) := rfl

theorem ptr_tree {i p r} (h : Der .pointer i p r) : ∃ q e, p = .pointer q e := by
  cases h <;> exact ⟨_, _, rfl⟩

theorem fillPtr_more {q q' e d} : fillPtr (.pointer q (.pointer q' e)) d = .pointer q (fillPtr (.pointer q' e) d) := by
  simp [fillPtr]

theorem decl_ptr {i t r} (h : Der .declarator i t r) : Der .declarator (.p .star :: i) (.pointer .null t) r := by
  cases h with
  | dDirect h => exact .dPtr .ptr h
  | @dPtr _ p _ t _ hp h =>
    obtain ⟨q, e, rfl⟩ := ptr_tree hp
    rw [← fillPtr_more]
    exact .dPtr (.ptrP hp) h

theorem decl_ptrQ {i j q t r} (hq : Der .tqList i q j) (h : Der .declarator j t r) :
    Der .declarator (.p .star :: i) (.pointer q t) r := by
  cases h with
  | dDirect h => exact .dPtr (.ptrQ hq) h
  | @dPtr _ p _ t _ hp h =>
    obtain ⟨q', e, rfl⟩ := ptr_tree hp
    rw [← fillPtr_more]
    exact .dPtr (.ptrQP hq hp) h

def ntD : Bool → N
  | true => .directDecl
  | false => .declarator

theorem der_of_dec {b x f i r} (h : GDec b x f i r) : ∃ t, Der (ntD b) i t r ∧ ∀ T, readD t T = some (x, f T) := by
  induction h with
  | name => exact ⟨_, .ddIdent, fun _ => rfl⟩
  | paren _ ih => exact let ⟨t, h, hr⟩ := ih; ⟨t, .ddParen h, hr⟩
  | array _ hb ih =>
    obtain ⟨t, h, hr⟩ := ih
    cases hb with
    | none => exact ⟨_, .ddArr0 h, fun _ => hr _⟩
    | star => exact ⟨_, .ddArrStar h, fun _ => hr _⟩
    | sized hb =>
      cases hb with
      | size he => exact ⟨_, .ddArr h he, fun T => by rw [readD_array (asg_ne_null he)]; exact hr _⟩
      | q hq => exact let ⟨q, hq⟩ := hq; ⟨_, .ddArrQ0 h hq, fun _ => hr _⟩
      | qSize hq he =>
        obtain ⟨q, hq⟩ := hq
        exact ⟨_, .ddArrQ h hq he, fun T => by rw [readD_array (asg_ne_null he)]; exact hr _⟩
      | staticQ hq he =>
        obtain ⟨q, hq⟩ := hq
        exact ⟨_, .ddArrSQ h hq he, fun T => by rw [readD_array (asg_ne_null he)]; exact hr _⟩
      | qStatic hq he =>
        obtain ⟨q, hq⟩ := hq
        exact ⟨_, .ddArrQS h hq he, fun T => by rw [readD_array (asg_ne_null he)]; exact hr _⟩
      | qStar hq => exact let ⟨q, hq⟩ := hq; ⟨_, .ddArrQStar h hq, fun _ => hr _⟩
  | func _ ha ih =>
    obtain ⟨t, h, hr⟩ := ih
    rcases ha with ⟨rfl, rfl⟩ | ha | ha
    · exact ⟨_, .ddFn0 h, fun _ => hr _⟩
    · exact ⟨_, .ddFn h ha, fun _ => hr _⟩
    · exact ⟨_, .ddFnIds h ha, fun _ => hr _⟩
  | direct _ ih => exact let ⟨t, h, hr⟩ := ih; ⟨t, .dDirect h, hr⟩
  | ptr _ ih => exact let ⟨t, h, hr⟩ := ih; ⟨_, decl_ptr h, fun _ => hr _⟩
  | ptrQ hq _ ih => exact let ⟨t, h, hr⟩ := ih; let ⟨q, hq⟩ := hq; ⟨_, decl_ptrQ hq h, fun _ => hr _⟩

/-- what `dec_of_der` says of the nonterminals of declarators -/
def DecOk (n : N) (i : List T) (t : PT) (r : List T) : Prop :=
  match n with
  | .directDecl => ∃ x f, GDec true x f i r ∧ ∀ T, readD t T = some (x, f T)
  | .declarator => ∃ x f, GDec false x f i r ∧ ∀ T, readD t T = some (x, f T)
  | .pointer => ∀ x f d r', GDec false x f r r' → (∀ T, readD d T = some (x, f T)) →
      ∃ f', GDec false x f' i r' ∧ ∀ T, readD (fillPtr t d) T = some (x, f' T)
  | _ => True

theorem dec_of_der {n i t r} (h : Der n i t r) : DecOk n i t r := by
  induction h
  case dDirect ih => exact let ⟨x, f, h, hr⟩ := ih; ⟨x, f, .direct h, hr⟩
  case dPtr ihp ih =>
    obtain ⟨x, f, h, hr⟩ := ih
    obtain ⟨f', h', hr'⟩ := ihp x f _ _ (.direct h) hr
    exact ⟨x, f', h', hr'⟩
  case ddIdent => exact ⟨_, _, .name, fun _ => rfl⟩
  case ddParen ih => exact let ⟨x, f, h, hr⟩ := ih; ⟨x, f, .paren h, hr⟩
  case ddArrQ _ hq he ih _ _ =>
    obtain ⟨x, f, h, hr⟩ := ih
    exact ⟨x, _, .array h (.sized (.qSize ⟨_, hq⟩ he)), fun T => by rw [readD_array (asg_ne_null he)]; exact hr _⟩
  case ddArrQ0 _ hq ih _ =>
    obtain ⟨x, f, h, hr⟩ := ih
    exact ⟨x, _, .array h (.sized (.q ⟨_, hq⟩)), fun T => hr _⟩
  case ddArr _ he ih _ =>
    obtain ⟨x, f, h, hr⟩ := ih
    exact ⟨x, _, .array h (.sized (.size he)), fun T => by rw [readD_array (asg_ne_null he)]; exact hr _⟩
  case ddArrSQ _ hq he ih _ _ =>
    obtain ⟨x, f, h, hr⟩ := ih
    exact ⟨x, _, .array h (.sized (.staticQ ⟨_, hq⟩ he)), fun T => by rw [readD_array (asg_ne_null he)]; exact hr _⟩
  case ddArrQS _ hq he ih _ _ =>
    obtain ⟨x, f, h, hr⟩ := ih
    exact ⟨x, _, .array h (.sized (.qStatic ⟨_, hq⟩ he)), fun T => by rw [readD_array (asg_ne_null he)]; exact hr _⟩
  case ddArrQStar _ hq ih _ =>
    obtain ⟨x, f, h, hr⟩ := ih
    exact ⟨x, _, .array h (.sized (.qStar ⟨_, hq⟩)), fun T => hr _⟩
  case ddArrStar ih => exact let ⟨x, f, h, hr⟩ := ih; ⟨x, _, .array h .star, fun _ => hr _⟩
  case ddArr0 ih => exact let ⟨x, f, h, hr⟩ := ih; ⟨x, _, .array h .none, fun _ => hr _⟩
  case ddFn ha ih _ => exact let ⟨x, f, h, hr⟩ := ih; ⟨x, _, .func h (.inr (.inl ha)), fun _ => hr _⟩
  case ddFnIds ha ih _ => exact let ⟨x, f, h, hr⟩ := ih; ⟨x, _, .func h (.inr (.inr ha)), fun _ => hr _⟩
  case ddFn0 ih => exact let ⟨x, f, h, hr⟩ := ih; ⟨x, _, .func h (.inl ⟨rfl, rfl⟩), fun _ => hr _⟩
  case ptr => exact fun x f d r' h hr => ⟨_, .ptr h, fun _ => hr _⟩
  case ptrQ hq _ => exact fun x f d r' h hr => ⟨_, .ptrQ ⟨_, hq⟩ h, fun _ => hr _⟩
  case ptrP hp ih =>
    intro x f d r' h hr
    obtain ⟨f', h', hr'⟩ := ih x f d r' h hr
    obtain ⟨q, e, rfl⟩ := ptr_tree hp
    exact ⟨_, .ptr h', fun _ => by rw [fillPtr_more]; exact hr' _⟩
  case ptrQP hq hp _ ih =>
    intro x f d r' h hr
    obtain ⟨f', h', hr'⟩ := ih x f d r' h hr
    obtain ⟨q, e, rfl⟩ := ptr_tree hp
    exact ⟨_, .ptrQ ⟨_, hq⟩ h', fun _ => by rw [fillPtr_more]; exact hr' _⟩
  all_goals exact trivial

theorem dec_mono {Q B B' F b x f i r} (hB : ∀ i g r, B i g r → B' i g r) (h : Dec Q B F b x f i r) : Dec Q B' F b x f i r := by
  induction h with
  | name => exact .name
  | paren _ ih => exact .paren ih
  | array _ hb ih => exact .array ih (hB _ _ _ hb)
  | func _ ha ih => exact .func ih ha
  | direct _ ih => exact .direct ih
  | ptr _ ih => exact .ptr ih
  | ptrQ hq _ ih => exact .ptrQ hq ih

theorem sBrk_c {E Q i g r} (h : SBrk E Q i g r) : CBrk E Q i g r := by
  cases h with
  | size he => exact .size he
  | q hq => exact .q hq
  | qSize hq he => exact .qSize hq he
  | staticQ hq he => exact .staticQ hq he
  | qStatic hq he => exact .qStatic hq he
  | qStar hq => exact .qStar hq

theorem declarator_unique {i t t' r} (hr : 1 ≤ lev r) (h : Der .declarator i t r) (h' : Der .declarator i t' r) : t = t' := by
  have := Ev.unique (complete h hr) (complete h' hr)
  cases this
  rfl

/-- how many steps a type is away from the base -/
def depth : CTy → Nat
  | .base => 0
  | .ptr t => depth t + 1
  | .arr _ t => depth t + 1
  | .fn _ t => depth t + 1

/-- how many steps a declarator tree adds -/
def steps : PT → Nat
  | .pointer _ e => steps e + 1
  | .array d _ _ => steps d + 1
  | .fn d _ _ => steps d + 1
  | _ => 0

theorem readD_depth : ∀ (t : PT) {x T U}, readD t T = some (x, U) → depth U = depth T + steps t
  | .ident s, x, T, U, h => by cases h; rfl
  | .pointer q e, x, T, U, h => by
    have h := readD_depth e h
    simp only [depth, steps] at *
    omega
  | .fn d a s, x, T, U, h => by
    have h := readD_depth d h
    simp only [depth, steps] at *
    omega
  | .array d q e, x, T, U, h => by
    have ih : ∀ {x T U}, readD d T = some (x, U) → depth U = depth T + steps d := readD_depth d
    by_cases he : e = .null
    · subst he
      have h := ih h
      simp only [depth, steps] at *
      omega
    · rw [readD_array he] at h
      have h := ih h
      simp only [depth, steps] at *
      omega
  | .null, _, _, _, h | .integer _, _, _, _, h | .flt _, _, _, _, h | .str _, _, _, _, h | .chain _, _, _, _, h
  | .fnCall _ _, _, _, _, h | .arrAccess _ _, _, _, _, h | .pInc _, _, _, _, h | .pDec _, _, _, _, h | .inc _, _, _, _, h
  | .dec _, _, _, _, h | .compAccess _ _, _, _, _, h | .negate _, _, _, _, h | .addr _, _, _, _, h | .deref _, _, _, _, h
  | .onesComp _, _, _, _, h | .sizeof _, _, _, _, h | .cast _ _, _, _, _, h | .bin _ _ _, _, _, _, h | .cmp _ _ _, _, _, _, h
  | .lOr _ _, _, _, _, h | .lAnd _ _, _, _, _, h | .infix _ _ _, _, _, _, h | .assign _ _, _, _, _, h | .exprList _, _, _, _, h
  | .decl _ _, _, _, _, h | .kw _, _, _, _, h | .compound _ _ _, _, _, _, h | .enumr _ _, _, _, _, h | .bitfield _ _, _, _, _, h
  | .variadic, _, _, _, h | .typeSpec _ _, _, _, _, h | .empty, _, _, _, h | .cppInclude _, _, _, _, h | .inspect _, _, _, _, h
  | .repl, _, _, _, h | .ifS _ _ _, _, _, _, h | .whileS _ _, _, _, _, h | .forS _ _ _ _, _, _, _, h | .brk, _, _, _, h
  | .ret _, _, _, _, h => by cases h

theorem fn_tree {d x a} (h : ∀ T, readD d T = some (x, .fn a T)) : ∃ s, d = .fn (.ident x) a s := by
  have h0 := h .base
  have hd := readD_depth _ h0
  cases d with
  | fn d' a' s =>
    simp only [depth, steps] at hd
    have hs : steps d' = 0 := by omega
    cases d' with
    | ident y => cases h0; exact ⟨s, rfl⟩
    | pointer => simp [steps] at hs
    | array => simp [steps] at hs
    | fn => simp [steps] at hs
    | _ => cases h0
  | pointer q e =>
    simp only [depth, steps] at hd
    have hs : steps e = 0 := by omega
    cases e with
    | ident y => cases h0
    | pointer => simp [steps] at hs
    | array => simp [steps] at hs
    | fn => simp [steps] at hs
    | _ => cases h0
  | array d' q e =>
    simp only [depth, steps] at hd
    have hs : steps d' = 0 := by omega
    cases d' with
    | ident y => cases e <;> cases h0
    | pointer => simp [steps] at hs
    | array => simp [steps] at hs
    | fn => simp [steps] at hs
    | _ => cases e <;> cases h0
  | _ => cases h0

end Bic.Parser
