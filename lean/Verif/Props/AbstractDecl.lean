import Verif.Spec.AbstractDecl
import Verif.Proofs.Layout
import Verif.Props.Grammar
import Verif.Props.Pointers
import Verif.Proofs.Heap
/-!
# C130, C131: type names
-/

namespace Bic.Parser
open CSyn

/-- what may stand behind `(` of a function in an abstract declarator -/
abbrev AFnArgs (i : List T) (a : PT) (r : List T) : Prop :=
  (i = .p .rparen :: r ∧ a = .null) ∨ Der .paramTypeList i a (.p .rparen :: r)

abbrev CAbs := Abs BrkQ (ABrk BrkE) AFnArgs

theorem readA_array {d q e t} (h : e ≠ .null) : readA (.array d q e) t = readA d (.arr (some e) t) := by
  cases e <;> first | rfl | exact absurd rfl h

theorem abs_ptr {i t r} (h : Der .abstractDecl i t r) : Der .abstractDecl (.p .star :: i) (.pointer .null t) r := by
  cases h with
  | abPtr h => exact .abPtr (.ptrP h)
  | abDirect h => exact .abBoth .ptr h
  | @abBoth _ p _ t _ hp h =>
    obtain ⟨q, e, rfl⟩ := ptr_tree hp
    rw [← fillPtr_more]
    exact .abBoth (.ptrP hp) h

theorem abs_ptrQ {i j q t r} (hq : Der .tqList i q j) (h : Der .abstractDecl j t r) :
    Der .abstractDecl (.p .star :: i) (.pointer q t) r := by
  cases h with
  | abPtr h => exact .abPtr (.ptrQP hq h)
  | abDirect h => exact .abBoth (.ptrQ hq) h
  | @abBoth _ p _ t _ hp h =>
    obtain ⟨q', e, rfl⟩ := ptr_tree hp
    rw [← fillPtr_more]
    exact .abBoth (.ptrQP hq hp) h

def ntA : Bool → N
  | true => .directAbs
  | false => .abstractDecl

theorem der_of_abs {b f i r} (h : CAbs b f i r) : ∃ t, Der (ntA b) i t r ∧ ∀ T, readA t T = some (f T) := by
  induction h with
  | paren _ ih => exact let ⟨t, h, hr⟩ := ih; ⟨t, .daParen h, hr⟩
  | array0 hb =>
    cases hb with
    | none => exact ⟨_, .daArr0, fun _ => rfl⟩
    | star => exact ⟨_, .daStar, fun _ => rfl⟩
    | size he => exact ⟨_, .daArr he, fun T => by rw [readA_array (asg_ne_null he)]; rfl⟩
  | array _ hb ih =>
    obtain ⟨t, h, hr⟩ := ih
    cases hb with
    | none => exact ⟨_, .daMoreArr0 h, fun _ => hr _⟩
    | star => exact ⟨_, .daMoreStar h, fun _ => hr _⟩
    | size he => exact ⟨_, .daMoreArr h he, fun T => by rw [readA_array (asg_ne_null he)]; exact hr _⟩
  | func0 ha =>
    rcases ha with ⟨rfl, rfl⟩ | ha
    · exact ⟨_, .daFn0, fun _ => rfl⟩
    · exact ⟨_, .daFn ha, fun _ => rfl⟩
  | func _ ha ih =>
    obtain ⟨t, h, hr⟩ := ih
    rcases ha with ⟨rfl, rfl⟩ | ha
    · exact ⟨_, .daMoreFn0 h, fun _ => hr _⟩
    · exact ⟨_, .daMoreFn h ha, fun _ => hr _⟩
  | direct _ ih => exact let ⟨t, h, hr⟩ := ih; ⟨t, .abDirect h, hr⟩
  | star => exact ⟨_, .abPtr .ptr, fun _ => rfl⟩
  | starQ hq => exact let ⟨q, hq⟩ := hq; ⟨_, .abPtr (.ptrQ hq), fun _ => rfl⟩
  | ptr _ ih => exact let ⟨t, h, hr⟩ := ih; ⟨_, abs_ptr h, fun _ => hr _⟩
  | ptrQ hq _ ih => exact let ⟨t, h, hr⟩ := ih; let ⟨q, hq⟩ := hq; ⟨_, abs_ptrQ hq h, fun _ => hr _⟩

/-- what `abs_of_der` says of the nonterminals of abstract declarators -/
def AbsOk (n : N) (i : List T) (t : PT) (r : List T) : Prop :=
  match n with
  | .directAbs => ∃ f, CAbs true f i r ∧ ∀ T, readA t T = some (f T)
  | .abstractDecl => ∃ f, CAbs false f i r ∧ ∀ T, readA t T = some (f T)
  | .pointer => (∃ f, CAbs false f i r ∧ ∀ T, readA t T = some (f T)) ∧
      ∀ f d r', CAbs false f r r' → (∀ T, readA d T = some (f T)) →
        ∃ f', CAbs false f' i r' ∧ ∀ T, readA (fillPtr t d) T = some (f' T)
  | _ => True

theorem abs_of_der {n i t r} (h : Der n i t r) : AbsOk n i t r := by
  induction h
  case abPtr ih => exact ih.1
  case abDirect ih => exact let ⟨f, h, hr⟩ := ih; ⟨f, .direct h, hr⟩
  case abBoth ihp ih =>
    obtain ⟨f, h, hr⟩ := ih
    exact ihp.2 f _ _ (.direct h) hr
  case daParen ih => exact let ⟨f, h, hr⟩ := ih; ⟨f, .paren h, hr⟩
  case daArr0 => exact ⟨_, .array0 .none, fun _ => rfl⟩
  case daArr he _ => exact ⟨_, .array0 (.size he), fun T => by rw [readA_array (asg_ne_null he)]; rfl⟩
  case daMoreArr0 ih => exact let ⟨f, h, hr⟩ := ih; ⟨_, .array h .none, fun _ => hr _⟩
  case daMoreArr _ he ih _ =>
    obtain ⟨f, h, hr⟩ := ih
    exact ⟨_, .array h (.size he), fun T => by rw [readA_array (asg_ne_null he)]; exact hr _⟩
  case daStar => exact ⟨_, .array0 .star, fun _ => rfl⟩
  case daMoreStar ih => exact let ⟨f, h, hr⟩ := ih; ⟨_, .array h .star, fun _ => hr _⟩
  case daFn0 => exact ⟨_, .func0 (.inl ⟨rfl, rfl⟩), fun _ => rfl⟩
  case daFn ha _ => exact ⟨_, .func0 (.inr ha), fun _ => rfl⟩
  case daMoreFn0 ih => exact let ⟨f, h, hr⟩ := ih; ⟨_, .func h (.inl ⟨rfl, rfl⟩), fun _ => hr _⟩
  case daMoreFn ha ih _ => exact let ⟨f, h, hr⟩ := ih; ⟨_, .func h (.inr ha), fun _ => hr _⟩
  case ptr => exact ⟨⟨_, .star, fun _ => rfl⟩, fun f d r' h hr => ⟨_, .ptr h, fun _ => hr _⟩⟩
  case ptrQ hq _ => exact ⟨⟨_, .starQ ⟨_, hq⟩, fun _ => rfl⟩, fun f d r' h hr => ⟨_, .ptrQ ⟨_, hq⟩ h, fun _ => hr _⟩⟩
  case ptrP hp ih =>
    obtain ⟨⟨f, h, hr⟩, ih⟩ := ih
    refine ⟨⟨_, .ptr h, fun _ => hr _⟩, fun f d r' h hr => ?_⟩
    obtain ⟨f', h', hr'⟩ := ih f d r' h hr
    obtain ⟨q, e, rfl⟩ := ptr_tree hp
    exact ⟨_, .ptr h', fun _ => by rw [fillPtr_more]; exact hr' _⟩
  case ptrQP hq hp _ ih =>
    obtain ⟨⟨f, h, hr⟩, ih⟩ := ih
    refine ⟨⟨_, .ptrQ ⟨_, hq⟩ h, fun _ => hr _⟩, fun f d r' h hr => ?_⟩
    obtain ⟨f', h', hr'⟩ := ih f d r' h hr
    obtain ⟨q, e, rfl⟩ := ptr_tree hp
    exact ⟨_, .ptrQ ⟨_, hq⟩ h', fun _ => by rw [fillPtr_more]; exact hr' _⟩
  all_goals exact trivial

/-! ## C130: a type name names the type C says -/

/-- the tokens of `i` before `r` are a type name: specifiers with the tree `s`, and a declarator that makes `f t` of their type `t`, or none -/
def TypeNameOf (s : PT) (f : CTy → CTy) (i r : List T) : Prop :=
  ∃ j, Der .sqList i s j ∧ (CAbs false f j r ∨ (j = r ∧ f = fun t => t))

/-- C130: every type name of C is accepted where `)` or `,` follows, its tree is unique, and it has the specifiers and says the type
C says. -/
theorem C130_reads {s f i r} (hr : r = [] ∨ hd .comma r = true ∨ hd .rparen r = true) (h : TypeNameOf s f i r) :
    (∃ t, Der .typeName i t r) ∧ ∀ t, Der .typeName i t r → ∃ d, t = .typeSpec s d ∧ ∀ T, readA d T = some (f T) := by
  obtain ⟨d, h1, h2⟩ : ∃ d, Der .typeName i (.typeSpec s d) r ∧ ∀ T, readA d T = some (f T) := by
    obtain ⟨j, hs, h | ⟨rfl, rfl⟩⟩ := h
    · obtain ⟨d, h1, h2⟩ := der_of_abs h
      exact ⟨d, .tnAbs hs h1, h2⟩
    · exact ⟨.null, .tnSpecs hs, fun _ => rfl⟩
  refine ⟨⟨_, h1⟩, fun t ht => ⟨d, ?_, h2⟩⟩
  have := Ev.unique (complete h1 hr) (complete ht hr)
  cases this
  rfl

/-- C130, the other direction: nothing else is accepted as a type name. -/
theorem C130_only {i t r} (h : Der .typeName i t r) :
    ∃ s d f, t = .typeSpec s d ∧ TypeNameOf s f i r ∧ ∀ T, readA d T = some (f T) := by
  cases h with
  | tnSpecs hs => exact ⟨_, _, _, rfl, ⟨_, hs, .inr ⟨rfl, rfl⟩⟩, fun _ => rfl⟩
  | tnAbs hs hd =>
    obtain ⟨f, h, hr⟩ := abs_of_der hd
    exact ⟨_, _, f, rfl, ⟨_, hs, .inl h⟩, hr⟩

/-- `int * ( * [ 3 ] ) ( )`: array of pointers to functions returning pointers to int -/
example : TypeNameOf (.chain [.kw .int]) (fun t => .arr (some (.integer 3)) (.ptr (.fn .null (.ptr t))))
    [.p .int, .p .star, .p .lparen, .p .star, .p .lbrack, .integer 3, .p .rbrack, .p .rparen, .p .lparen, .p .rparen, .p .rparen]
    [.p .rparen] :=
  ⟨_, .sqlOne (.sqType (.typeKw rfl)), .inl (.ptr (.direct (.func (.paren (.ptr (.direct (.array0
    (.size (nt_down (q := 17) (p := 2) .pInt (by omega) (by omega))))))) (.inl ⟨rfl, rfl⟩))))⟩

end Bic.Parser

namespace Bic
open Spec CSyn
open Parser (PT Rep)

/-! ## C131: sizeof with a type name -/

/-- the size of a type made from the basic type `c` -/
inductive TySize (c : CT) : CTy → Nat → Prop
  | base : TySize c .base (abiSize c)
  | ptr {t} : TySize c (.ptr t) 8
  | arr {k n : Nat} {t} : TySize c t n → TySize c (.arr (some (.integer (k : Nat))) t) (k * n)

/-- `t` is `sizeof (T D)` where `T` are keywords for the type `c`, and the abstract declarator `D` has the tree `d` -/
def SizeofType (s : St) (t : TId) (c : CT) (d : PT) : Prop :=
  ∃ u specs y, s.nodes t = some (.sizeof (some u)) ∧ s.nodes u = some (.typeSpec (some specs) y) ∧ TypeSpecs s.nodes specs c ∧
    Rep s.nodes (.t d y)

/-- C131: `sizeof` gives the size of the type the type name names. -/
def C131_statement : Prop :=
  ∀ (E : Env) (s : St) (t : TId) (c : CT) (d : PT) (ty : CTy) (n : Nat), WF s → Room s 1 → SizeofType s t c d →
    readA d .base = some ty → TySize c ty n → n < 2 ^ 64 →
    ∃ r s', Conv E (fun R => R.ev (some t)) s (.ok (some r) s') ∧ IsSize s s' r n

/-- what bic looks at: whether the tree of the declarator is a pointer -/
def sizeSeen (c : CT) : PT → Nat
  | .pointer _ _ => 8
  | _ => abiSize c

/-- the trees of abstract declarators, as far as `sizeof` looks at them -/
inductive AbsTree : PT → Prop
  | null : AbsTree .null
  | array {a q b} : AbsTree (.array a q b)
  | fn {a q b} : AbsTree (.fn a q b)
  | pointer {q a} : AbsTree a → AbsTree (.pointer q a)

theorem AbsTree.of_read : ∀ (d : PT) {T ty : CTy}, readA d T = some ty → AbsTree d
  | .null, _, _, _ => .null
  | .array _ _ _, _, _, _ => .array
  | .fn _ _ _, _, _, _ => .fn
  | .pointer _ a, T, _, h => .pointer (AbsTree.of_read a (T := .ptr T) h)

theorem sizeSeen_ptr : ∀ {a : PT}, AbsTree a → sizeSeen .ptr a = 8
  | _, .null => rfl
  | _, .array => rfl
  | _, .fn => rfl
  | _, .pointer _ => rfl

theorem absPtr_conv {E : Env} {d : PT} (hd : AbsTree d) : ∀ {s : St} {y : Ref} {τ : TId} {k : CT} {e : Ref}, WF s → Rep s.nodes (.t d y) →
    s.nodes τ = some (.ctype k e) →
    ∃ d' τ' k' e' s', Conv E (fun R => R.resolvePtr y (some τ)) s (.ok (d', some τ') s') ∧ Ext s s' ∧ s'.nodes τ' = some (.ctype k' e') ∧
      abiSize k' = sizeSeen k d := by
  induction hd with
  | null =>
    intro s y τ k e w hr hτ
    cases hr
    exact ⟨none, τ, k, e, s, Conv.resolvePtr (Conv.fixed fun R => by simp [resolvePtrStep, peek_none]), Ext.refl s, hτ, rfl⟩
  | array =>
    intro s y τ k e w hr hτ
    cases hr with
    | @array _ _ _ t _ _ h =>
      exact ⟨some t, τ, k, e, s, Conv.resolvePtr (Conv.fixed fun R => by simp [resolvePtrStep, peek_apply h]), Ext.refl s, hτ, rfl⟩
  | fn =>
    intro s y τ k e w hr hτ
    cases hr with
    | @fn _ _ _ t _ _ _ h =>
      exact ⟨some t, τ, k, e, s, Conv.resolvePtr (Conv.fixed fun R => by simp [resolvePtrStep, peek_apply h]), Ext.refl s, hτ, rfl⟩
  | pointer ha ih =>
    intro s y τ k e w hr hτ
    cases hr with
    | @pointer _ _ t x h h' =>
      have x1 := addNode_ext w (.ctype .ptr (some τ))
      obtain ⟨d', τ', k', e', s', h1, h2, h3, h4⟩ := ih (x1.wf w) (h'.mono x1.nodes) (addNode_self s (.ctype .ptr (some τ)))
      refine ⟨d', τ', k', e', s', Conv.resolvePtr (h1.of_eq fun R => ?_), x1.trans h2, h3, ?_⟩
      · simp [resolvePtrStep, peek_apply h, mk_apply]
      · rw [h4, sizeSeen_ptr ha]; rfl

/-- C131: what `sizeof` gives for any type name of keywords: the size of a pointer if the declarator begins with `*`, and otherwise the size of the
keywords' type.  Nothing in the declarator is evaluated. -/
theorem C131_seen (E : Env) (s : St) (t : TId) (c : CT) (d : PT) (ty : CTy) (w : WF s) (hroom : Room s 1) (h : SizeofType s t c d)
    (hd : readA d .base = some ty) :
    ∃ r s', Conv E (fun R => R.ev (some t)) s (.ok (some r) s') ∧ IsSize s s' r (sizeSeen c d) := by
  obtain ⟨u, specs, y, ht, hu, hs, hr⟩ := h
  have x1 := addNode_ext w (.ctype c none)
  obtain ⟨d', τ', k', e', s', h1, h2, h3, h4⟩ := absPtr_conv (E := E) (.of_read d hd) (x1.wf w) (hr.mono x1.nodes) (addNode_self s (.ctype c none))
  have x2 := x1.trans h2
  have hev : Conv E (fun R => R.ev (some u)) s (.ok (some τ') s') := by
    refine Conv.evNode hu ?_
    show Conv E (fun R => evalTypeSpec R (some specs) y) s _
    have h2 : Conv E (fun R => (do let p ← R.resolvePtr y (some s.next); pure p.2 : M Ref)) _ _ :=
      Conv.bind h1 (Conv.pure (some τ'))
    refine h2.of_eq (g := fun R => evalTypeSpec R (some specs) y) fun R => ?_
    simp [evalTypeSpec, resolveSpecs_apply hs, isIdentOrCompound, peek_apply (addNode_self s _)]
  have hsz := sizeof_conv ht hev (x2.wf w) (hroom.ext x2) (.ctype h3)
  rw [← abiSize_eq, h4] at hsz
  obtain ⟨g1, g2⟩ := szSt_isSize (x2.wf w) (hroom.ext x2) (n := sizeSeen c d) (by
    rw [← h4, abiSize_eq]; have := CT.size_le k'; omega)
  exact ⟨_, _, hsz, x2.grow.trans g1, g2⟩

/-- nothing but stars -/
inductive Stars : CTy → Prop
  | base : Stars .base
  | ptr {t} : Stars t → Stars (.ptr t)

theorem Stars.of_read : ∀ (d : PT) {T ty : CTy}, readA d T = some ty → Stars ty → Stars T
  | .null, T, ty, h, hs => by cases h; exact hs
  | .pointer q a, T, ty, h, hs => by
    have := Stars.of_read a (T := .ptr T) h hs
    cases this; assumption
  | .array a q b, T, ty, h, hs => by
    by_cases hb : b = .null
    · subst hb
      have := Stars.of_read a (T := .arr none T) h hs
      cases this
    · rw [Parser.readA_array hb] at h
      have := Stars.of_read a (T := .arr (some b) T) h hs
      cases this
  | .fn a q b, T, ty, h, hs => by
    have := Stars.of_read a (T := .fn q T) h hs
    cases this

theorem Stars.not_array {a q b : PT} {T ty : CTy} (hs : Stars ty) : readA (.array a q b) T ≠ some ty := by
  intro h
  by_cases hb : b = .null
  · subst hb
    exact absurd (Stars.of_read a (T := .arr none T) h hs) nofun
  · rw [Parser.readA_array hb] at h
    exact absurd (Stars.of_read a (T := .arr (some b) T) h hs) nofun

theorem Stars.ptr_of_read : ∀ (d : PT) {T ty : CTy}, readA d (.ptr T) = some ty → Stars ty → ∃ T', ty = .ptr T'
  | .null, T, ty, h, hs => by cases h; exact ⟨_, rfl⟩
  | .pointer q a, T, ty, h, hs => Stars.ptr_of_read a (T := .ptr T) h hs
  | .array a q b, T, ty, h, hs => absurd h hs.not_array
  | .fn a q b, T, ty, h, hs => absurd (Stars.of_read a (T := .fn q (.ptr T)) h hs) nofun

/-- C131, the part of the statement that holds: for keywords followed by any number of stars. -/
theorem C131_partial (E : Env) (s : St) (t : TId) (c : CT) (d : PT) (ty : CTy) (n : Nat) (w : WF s) (hroom : Room s 1) (h : SizeofType s t c d)
    (hd : readA d .base = some ty) (hs : Stars ty) (hn : TySize c ty n) :
    ∃ r s', Conv E (fun R => R.ev (some t)) s (.ok (some r) s') ∧ IsSize s s' r n := by
  have : sizeSeen c d = n := by
    cases d with
    | null => cases hd; cases hn; rfl
    | pointer q a =>
      obtain ⟨T', rfl⟩ := Stars.ptr_of_read a hd hs
      cases hn; rfl
    | array a q b => exact absurd hd (Stars.not_array hs)
    | fn a q b => exact absurd (Stars.of_read a (T := .fn q .base) hd hs) nofun
    | _ => cases hd
  exact this ▸ C131_seen E s t c d ty w hroom h hd

/-- the trees `sizeof (int [3])` and `sizeof (unsigned short **)` -/
def stTypeName : St :=
  stOf [.kw .int, .chain [0], .integer 3, .array none (some 2), .typeSpec (some 1) (some 3), .sizeof (some 4), .kw .unsigned, .kw .short,
        .chain [6, 7], .pointer none, .pointer (some 9), .typeSpec (some 8) (some 10), .sizeof (some 11)] [] []

theorem stTypeName_room : Room stTypeName 1 := ⟨by decide +kernel, by simp [stTypeName, stOf], memOf_livelt _⟩

theorem stTypeName_arr : SizeofType stTypeName 5 .int (.array .null .null (.integer 3)) :=
  ⟨4, 1, some 3, rfl, rfl, ⟨[0], [.int], rfl, .cons rfl .nil, by decide, by decide⟩, .array rfl .null (.integer rfl)⟩

/-- C131 in full is false: `sizeof (int [3])` is 4. -/
theorem C131_refuted : ¬ C131_statement := by
  intro h
  have hd : readA (.array .null .null (.integer 3)) .base = some (.arr (some (.integer 3)) .base) := rfl
  obtain ⟨r, s', h1, _, h2⟩ := h E0 stTypeName 5 .int _ _ 12 (stOf_WF _ _ _) stTypeName_room stTypeName_arr hd
    (.arr (k := 3) (n := 4) .base) (by decide)
  obtain ⟨r', s'', h3, _, h4⟩ := C131_seen E0 stTypeName 5 .int _ _ (stOf_WF _ _ _) stTypeName_room stTypeName_arr hd
  have e := h1.unique h3
  simp only [Out.ok.injEq, Option.some.injEq] at e
  obtain ⟨e1, e2⟩ := e
  rw [← e1, ← e2] at h4
  exact absurd (h2.unique h4).2 (by decide)

example : ∃ r s', Conv E0 (fun R => R.ev (some 12)) stTypeName (.ok (some r) s') ∧ IsSize stTypeName s' r 8 :=
  C131_partial E0 stTypeName 12 .ushort (.pointer .null (.pointer .null .null)) (.ptr (.ptr .base)) 8 (stOf_WF _ _ _) stTypeName_room
    ⟨11, 8, some 10, rfl, rfl, ⟨[6, 7], [.unsigned, .short], rfl, .cons rfl (.cons rfl .nil), by decide, by decide⟩,
      .pointer rfl (.pointer rfl .null)⟩ rfl (.ptr (.ptr .base)) .ptr

end Bic
