import Verif.Spec.Source
import Verif.Proofs.Prog
import Verif.Proofs.ParseExpr
import Verif.Props.Specifiers
/-!
# From the tokens of a program to its tree and its objects
-/

namespace Bic.Parser
open CSyn Spec
open Lexer (Str)

/-! ## Expressions -/

theorem rep_append {nd : TId → Option Node} : ∀ {ps qs : List PT} {ls : List TId}, Rep nd (.l (ps ++ qs) ls) →
    ∃ as bs, ls = as ++ bs ∧ Rep nd (.l ps as) ∧ Rep nd (.l qs bs)
  | [], _, ls, h => ⟨[], ls, rfl, .nil, h⟩
  | p :: ps, qs, _, h => by
    cases h with
    | cons h1 h2 =>
      obtain ⟨as, bs, rfl, h3, h4⟩ := rep_append h2
      exact ⟨_ :: as, bs, rfl, .cons h1 h3, h4⟩

theorem rep_one {nd : TId → Option Node} {p : PT} {ls : List TId} (h : Rep nd (.l [p] ls)) :
    ∃ t, ls = [t] ∧ Rep nd (.t p (some t)) := by
  cases h with
  | cons h1 h2 => cases h2; exact ⟨_, rfl, h1⟩

/-- the objects of a tree that stands for an expression are those of the expression -/
theorem rep_expr {nd : TId → Option Node} {p ce} (hm : Means p ce) : ∀ {e}, ExprOf ce e →
    (∀ r, Rep nd (.t p r) → ∃ t, r = some t ∧ ERep nd t e) ∧
    (∀ ts, p = .exprList (.chain ts) → ∀ ls, Rep nd (.l ts ls) → ERepG nd (.many ls) e) := by
  induction hm with
  | int => intro e h; cases h; exact ⟨fun r h => by cases h with | integer h => exact ⟨_, rfl, .lit h⟩, fun _ h => by cases h⟩
  | ident => intro e h; cases h; exact ⟨fun r h => by cases h with | ident h => exact ⟨_, rfl, .var h⟩, fun _ h => by cases h⟩
  | @one t0 _ _ ih =>
    intro e h
    have h2 : ∀ ts, PT.exprList (.chain [t0]) = PT.exprList (.chain ts) → ∀ ls, Rep nd (.l ts ls) → ERepG nd (.many ls) e := by
      intro ts hts ls hls
      cases hts
      obtain ⟨t, rfl, ht⟩ := rep_one hls
      obtain ⟨t', ht', hr⟩ := (ih h).1 _ ht
      cases ht'
      exact .last hr
    refine ⟨fun r hr => ?_, h2⟩
    cases hr with
    | exprList h1 h3 =>
      cases h3 with
      | chain h4 h5 => exact ⟨_, rfl, .list h1 h4 (h2 _ rfl _ h5)⟩
  | @comma ts0 t0 _ _ _ _ _ iha ihb =>
    intro e h
    cases h with
    | comma ha hb =>
      rename_i x y
      have h2 : ∀ ts, PT.exprList (.chain (ts0 ++ [t0])) = PT.exprList (.chain ts) → ∀ ls, Rep nd (.l ts ls) → ERepG nd (.many ls) (.comma x y) := by
        intro ts hts ls hls
        cases hts
        obtain ⟨as, bs, rfl, h3, h4⟩ := rep_append hls
        obtain ⟨t, rfl, ht⟩ := rep_one h4
        obtain ⟨t', ht', hr⟩ := (ihb hb).1 _ ht
        cases ht'
        exact .more ((iha ha).2 _ rfl _ h3) (.last hr)
      refine ⟨fun r hr => ?_, h2⟩
      cases hr with
      | exprList h1 h3 =>
        cases h3 with
        | chain h4 h5 => exact ⟨_, rfl, .list h1 h4 (h2 _ rfl _ h5)⟩
  | @bin o l r a b _ _ iha ihb =>
    intro e h
    refine ⟨fun rr hr => ?_, fun ts h => by cases o <;> cases h⟩
    cases h with
    | bin ho ha hb =>
      cases o <;> simp only [Bin.op, Option.some.injEq, reduceCtorEq] at ho <;> subst ho
      all_goals
        first
        | cases hr with
          | bin h1 h2 h3 =>
            obtain ⟨u, rfl, h4⟩ := (iha ha).1 _ h2
            obtain ⟨v, rfl, h5⟩ := (ihb hb).1 _ h3
            exact ⟨_, rfl, .bin h1 h4 h5⟩
        | cases hr with
          | cmp h1 h2 h3 =>
            obtain ⟨u, rfl, h4⟩ := (iha ha).1 _ h2
            obtain ⟨v, rfl, h5⟩ := (ihb hb).1 _ h3
            exact ⟨_, rfl, .cmp h1 h4 h5⟩
    | land ha hb =>
      cases hr with
      | lAnd h1 h2 h3 =>
        obtain ⟨u, rfl, h4⟩ := (iha ha).1 _ h2
        obtain ⟨v, rfl, h5⟩ := (ihb hb).1 _ h3
        exact ⟨_, rfl, .land h1 h4 h5⟩
    | lor ha hb =>
      cases hr with
      | lOr h1 h2 h3 =>
        obtain ⟨u, rfl, h4⟩ := (iha ha).1 _ h2
        obtain ⟨v, rfl, h5⟩ := (ihb hb).1 _ h3
        exact ⟨_, rfl, .lor h1 h4 h5⟩
  | cond _ _ _ ihc iha ihb =>
    intro e h
    refine ⟨fun rr hr => ?_, fun ts h => by cases h⟩
    cases h with
    | cond hc ha hb =>
      cases hr with
      | «infix» h1 h2 h3 h4 =>
        obtain ⟨u, rfl, h5⟩ := (ihc hc).1 _ h2
        obtain ⟨v, rfl, h6⟩ := (iha ha).1 _ h3
        obtain ⟨w, rfl, h7⟩ := (ihb hb).1 _ h4
        exact ⟨_, rfl, .cond h1 h5 h6 h7⟩
  | pre _ ht ih =>
    intro e h
    cases h with
    | compl ha =>
      cases ht
      refine ⟨fun rr hr => ?_, fun ts h => by cases h⟩
      cases hr with
      | onesComp h1 h2 => obtain ⟨u, rfl, h3⟩ := (ih ha).1 _ h2; exact ⟨_, rfl, .compl h1 h3⟩
    | lnot ha =>
      cases ht
      refine ⟨fun rr hr => ?_, fun ts h => by cases h⟩
      cases hr with
      | negate h1 h2 => obtain ⟨u, rfl, h3⟩ := (ih ha).1 _ h2; exact ⟨_, rfl, .lnot h1 h3⟩
  | _ => intro e h; cases h

/-- expressions without signs, `sizeof` and casts: C and bic want the same operands -/
theorem writes_b {TN TN' w c i r} (h : Writes cTable TN w c i r) : ∀ {e}, ExprOf c e →
    Writes bTable TN' w c i r ∧ (w = .prec 14 → Writes bTable TN' (.prec 15) c i r) := by
  induction h with
  | int => intro e _; exact ⟨.int, fun _ => .int⟩
  | ident => intro e _; exact ⟨.ident, fun _ => .ident⟩
  | paren _ ih => intro e h; exact ⟨.paren (ih h).1, fun _ => .paren (ih h).1⟩
  | @bin p o a b i j r hp _ _ iha ihb =>
    intro e h
    have : Writes bTable TN' (.prec p) (.bin o a b) i r := by
      cases h with
      | bin _ ha hb => exact .bin hp (iha ha).1 (ihb hb).1
      | land ha hb => exact .bin hp (iha ha).1 (ihb hb).1
      | lor ha hb => exact .bin hp (iha ha).1 (ihb hb).1
    refine ⟨this, fun hw => ?_⟩
    cases hw
    cases o <;> simp [Bin.prec] at hp
  | cond hp _ _ _ ihc iha ihb =>
    intro e h
    cases h with
    | cond hc ha hb => exact ⟨.cond hp (ihc hc).1 (iha ha).1 (ihb hb).1, fun hw => by cases hw; omega⟩
  | comma hp _ _ iha ihb =>
    intro e h
    cases h with
    | comma ha hb => exact ⟨.comma hp (iha ha).1 (ihb hb).1, fun hw => by cases hw; omega⟩
  | pre hp hq _ ih =>
    intro e h
    cases h with
    | compl ha =>
      cases hq
      have := (ih ha).2 rfl
      exact ⟨.pre (q := 15) hp rfl this, fun _ => .pre (q := 15) (by omega) rfl this⟩
    | lnot ha =>
      cases hq
      have := (ih ha).2 rfl
      exact ⟨.pre (q := 15) hp rfl this, fun _ => .pre (q := 15) (by omega) rfl this⟩
  | _ => intro e h; cases h

/-- what is written is parsed as a tree whose objects are those of the expression -/
theorem we_der {TN p e i r} (h : WE cTable TN p e i r) :
    ∃ t, Der (nt p) i t r ∧ ∀ {nd : TId → Option Node} {x}, Rep nd (.t t x) → ∃ u, x = some u ∧ ERep nd u e := by
  obtain ⟨c, hw, he⟩ := h
  obtain ⟨t, hm, ht⟩ := der_of_writes (writes_b (TN' := TyName) hw he).1
  exact ⟨t, ht, fun hr => (rep_expr hm he).1 _ hr⟩

/-! ## Assignments, steps, declarations -/

/-- as an expression statement -/
theorem act_der {TN a i r} (h : WAct cTable TN a i r) :
    ∃ t, Der .expression i t r ∧ ∀ {nd : TId → Option Node} {x}, Rep nd (.t t x) →
      ∃ u h, x = some u ∧ ActRep nd u a ∧ nd u = some (.exprList h) := by
  have key : ∀ t, Der .assignment i t r → (∀ {nd : TId → Option Node} {u : TId}, Rep nd (.t t (some u)) → ∀ {x}, Wrap nd x u → ActRep nd x a) →
      ∃ t, Der .expression i t r ∧ ∀ {nd : TId → Option Node} {x}, Rep nd (.t t x) →
      ∃ u h, x = some u ∧ ActRep nd u a ∧ nd u = some (.exprList h) := by
    intro t h1 h2
    refine ⟨_, .exOne h1, ?_⟩
    intro nd x hx
    cases hx with
    | exprList h3 h4 =>
      cases h4 with
      | chain h5 h6 =>
        obtain ⟨v, rfl, h7⟩ := rep_one h6
        exact ⟨_, _, rfl, h2 h7 (.list h3 h5 .self), h3⟩
  cases h with
  | @set s e i r h =>
    obtain ⟨t, h1, h2⟩ := we_der h
    refine key _ (.asOp (k := .assign) (f := fun l r => .assign l r) (.uPostfix (.poPrimary .pIdent)) rfl h1) ?_
    intro nd u hr x hx
    cases hr with
    | assign h3 h4 h5 =>
      cases h4 with
      | ident h4 =>
        obtain ⟨v, rfl, h6⟩ := h2 h5
        exact .set hx h3 h4 h6
  | @setOp s o bo e i r ho h =>
    obtain ⟨t, h1, h2⟩ := we_der h
    have fin : ∀ op : BinOp, bo = BOp.ofBin op → ∀ {nd : TId → Option Node} {u : TId},
        Rep nd (.t (.assign (.ident s) (.bin op (.ident s) t)) (some u)) → ∀ {x}, Wrap nd x u →
        ActRep nd x (.set (nameStr s) (.bin bo (.var (nameStr s)) e)) := by
      rintro op rfl nd u hr x hx
      cases hr with
      | assign h3 h4 h5 =>
        cases h4 with
        | ident h4 =>
          cases h5 with
          | bin h6 h7 h8 =>
            cases h7 with
            | ident h7 =>
              obtain ⟨v, rfl, h9⟩ := h2 h8
              exact .set hx h3 h4 (.bin h6 (.var h7) h9)
    cases o <;> simp only [Asg.op, Option.some.injEq, reduceCtorEq] at ho <;> subst ho
    case add => exact key _ (.asOp (k := .addA) (.uPostfix (.poPrimary .pIdent)) rfl h1) (fin .add rfl)
    case sub => exact key _ (.asOp (k := .subA) (.uPostfix (.poPrimary .pIdent)) rfl h1) (fin .sub rfl)
    case div => exact key _ (.asOp (k := .divA) (.uPostfix (.poPrimary .pIdent)) rfl h1) (fin .div rfl)
    case shl => exact key _ (.asOp (k := .shlA) (.uPostfix (.poPrimary .pIdent)) rfl h1) (fin .lshift rfl)
    case shr => exact key _ (.asOp (k := .shrA) (.uPostfix (.poPrimary .pIdent)) rfl h1) (fin .rshift rfl)
    case xor => exact key _ (.asOp (k := .xorA) (.uPostfix (.poPrimary .pIdent)) rfl h1) (fin .xor rfl)
  | pInc =>
    refine key _ (nt_down (p := 2) (q := 16) (.poInc (.poPrimary .pIdent)) (by omega) (by omega)) ?_
    intro nd u hr x hx
    cases hr with
    | pInc h3 h4 => cases h4 with | ident h4 => exact .step hx h3 (.inl ⟨rfl, rfl⟩) h4
  | pDec =>
    refine key _ (nt_down (p := 2) (q := 16) (.poDec (.poPrimary .pIdent)) (by omega) (by omega)) ?_
    intro nd u hr x hx
    cases hr with
    | pDec h3 h4 => cases h4 with | ident h4 => exact .step hx h3 (.inr (.inr (.inl ⟨rfl, rfl⟩))) h4
  | inc =>
    refine key _ (nt_down (p := 2) (q := 15) (.uOp (k := .incr) rfl (.uPostfix (.poPrimary .pIdent))) (by omega) (by omega)) ?_
    intro nd u hr x hx
    cases hr with
    | inc h3 h4 => cases h4 with | ident h4 => exact .step hx h3 (.inr (.inl ⟨rfl, rfl⟩)) h4
  | dec =>
    refine key _ (nt_down (p := 2) (q := 15) (.uOp (k := .decr) rfl (.uPostfix (.poPrimary .pIdent))) (by omega) (by omega)) ?_
    intro nd u hr x hx
    cases hr with
    | dec h3 h4 => cases h4 with | ident h4 => exact .step hx h3 (.inr (.inr (.inr ⟨rfl, rfl⟩))) h4

theorem decl_der {TN d i r} (h : WDecl cTable TN d i r) :
    ∃ t, Der .initDecl i t r ∧ ∀ {nd : TId → Option Node} {u ts ds}, Rep nd (.t t (some u)) → DsRep nd ts ds → DsRep nd (u :: ts) (d :: ds) := by
  cases h with
  | plain =>
    refine ⟨_, .idDecl (.dDirect .ddIdent), ?_⟩
    intro nd u ts ds hr hd
    cases hr with | ident h => exact .plain h hd
  | init h =>
    obtain ⟨t, h1, h2⟩ := we_der h
    refine ⟨_, .idInit (.dDirect .ddIdent) (.inExpr h1), ?_⟩
    intro nd u ts ds hr hd
    cases hr with
    | assign h3 h4 h5 =>
      cases h4 with
      | ident h4 =>
        obtain ⟨v, rfl, h6⟩ := h2 h5
        exact .init h3 h4 h6 hd

/-- the rest of a list of declarators -/
theorem decls_der {TN ds i r} (h : WDecls cTable TN ds i r) :
    ∃ ts, ts ≠ [] ∧ Der .initDeclList i (.chain ts) r ∧
      (∀ {i0 ts0}, Der .initDeclList i0 (.chain ts0) (.p .comma :: i) → Der .initDeclList i0 (.chain (ts0 ++ ts)) r) ∧
      ∀ {nd : TId → Option Node} {ls}, Rep nd (.l ts ls) → DsRep nd ls ds := by
  induction h with
  | one h =>
    obtain ⟨t, h1, h2⟩ := decl_der h
    refine ⟨[t], by simp, .idlOne h1, fun h => .idlMore h h1, ?_⟩
    intro nd ls hr
    obtain ⟨u, rfl, hu⟩ := rep_one hr
    exact h2 hu .nil
  | more h _ ih =>
    obtain ⟨t, h1, h2⟩ := decl_der h
    obtain ⟨ts, -, h3, h4, h5⟩ := ih
    refine ⟨t :: ts, by simp, h4 (.idlOne h1), fun {i0 ts0} h => ?_, ?_⟩
    · have := h4 (.idlMore h h1)
      rwa [List.append_assoc] at this
    · intro nd ls hr
      cases hr with
      | cons h6 h7 => exact h2 h6 (h5 h7)

theorem specs_der' {ws i r} (h : WSpecs ws i r) :
    Der .declSpecs i (.chain (ws.map .kw)) r ∧
      ∀ {i0 ts0}, Der .declSpecs i0 (.chain ts0) i → Der .declSpecs i0 (.chain (ts0 ++ ws.map .kw)) r := by
  have one : ∀ {w k r}, kwTok w = some k → Der .declSpec (.p k :: r) (.kw w) r := by
    intro w k r hk
    refine .dsType (.typeKw ?_)
    revert hk
    cases w <;> simp only [kwTok, Option.some.injEq, reduceCtorEq] <;> intro hk <;> first | exact hk.elim | (subst hk; rfl)
  induction h with
  | one hk => exact ⟨.dsOne (one hk), fun h => .dsMore h (one hk)⟩
  | more hk _ ih =>
    refine ⟨ih.2 (.dsOne (one hk)), fun {i0 ts0} h => ?_⟩
    have := ih.2 (.dsMore h (one hk))
    rwa [List.append_assoc] at this

theorem rep_kws {nd : TId → Option Node} : ∀ {ws : List Kw} {ls}, Rep nd (.l (ws.map .kw) ls) → KwChain nd ls ws
  | [], _, h => by cases h; exact .nil
  | _ :: _, _, h => by
    cases h with
    | cons h6 h7 => cases h6 with | kw h6 => exact .cons h6 (rep_kws h7)

theorem specs_der {ws i r} (h : WSpecs ws i r) :
    ∃ ts, Der .declSpecs i (.chain ts) r ∧
      (∀ {i0 ts0}, Der .declSpecs i0 (.chain ts0) i → Der .declSpecs i0 (.chain (ts0 ++ ts)) r) ∧
      ∀ {nd : TId → Option Node} {ls}, Rep nd (.l ts ls) → KwChain nd ls ws :=
  ⟨_, (specs_der' h).1, (specs_der' h).2, rep_kws⟩

theorem specs_kw {ws i r} (h : WSpecs ws i r) : ∀ w ∈ ws, (kwTok w).isSome := by
  induction h with
  | one hk => intro w hw; cases List.mem_singleton.mp hw; rw [hk]; rfl
  | more hk _ ih =>
    intro w hw
    rcases List.mem_cons.mp hw with rfl | hw
    · rw [hk]; rfl
    · exact ih w hw

/-- the resolver finds the type C gives -/
theorem resolveKws_name {ws : List Kw} {ty : CSpec.Name} (hk : ∀ w ∈ ws, (kwTok w).isSome) (hg : CSpec.Gives ws ty) (hb : ty ≠ .bool) :
    (∀ k ∈ ws, ignoredSpec k = false) ∧ ∃ r, resolveKws 0 ws = some r ∧ Bic.nameOf r = ty := by
  have hst : ∀ w ∈ ws, CSpec.storageClass w = false ∧ ignoredSpec w = false := by
    intro w hw
    have := hk w hw
    revert this
    cases w <;> decide
  have hf : ws.filter (fun k => !CSpec.storageClass k) = ws := List.filter_eq_self.mpr fun w hw => by simp [(hst w hw).1]
  have hf' : ws.filter (fun k => !ignoredSpec k) = ws := List.filter_eq_self.mpr fun w hw => by simp [(hst w hw).2]
  obtain ⟨m, hm, hp⟩ := hg
  rw [hf] at hp
  have hkeys : ∀ k ∈ ws, k ∈ clangKeys := by
    intro k hkw
    have h1 : k ∈ m := hp.mem_iff.mpr hkw
    have h2 : ∀ m ∈ CSpec.multisets, m.2 ≠ .bool → ∀ k ∈ m.1, k ∈ clangKeys := by decide
    exact h2 _ hm hb k h1
  refine ⟨fun w hw => (hst w hw).2, ?_⟩
  have hr : resolveKws 0 ws = (clangTable.rows.find? fun r => decide (r.1.Perm ws)).map (·.2) := by
    rw [resolveKws_filter, hf']
    exact SpecBits.resolveBits_zero (by decide) (by decide) _ hkeys
  obtain ⟨r, hr1, hr2, hr3⟩ := rows_complete _ hm hb
  have hsome : (clangTable.rows.find? fun r => decide (r.1.Perm ws)) ≠ none := by
    rw [Ne, List.find?_eq_none]
    intro hall
    refine hall r hr1 (decide_eq_true ?_)
    rw [hr2]; exact hp
  obtain ⟨q, hq⟩ := Option.ne_none_iff_exists'.mp hsome
  have hq1 := List.mem_of_find?_eq_some hq
  have hq2 : q.1.Perm ws := by simpa using List.find?_some hq
  exact ⟨q.2, by rw [hr, hq]; rfl, multisets_inj _ (rows_sound q hq1) _ hm (hq2.trans hp.symm)⟩

theorem resolveKws_gives {ws : List Kw} {c : CT} (hk : ∀ w ∈ ws, (kwTok w).isSome) (hg : CSpec.Gives ws (.arith c)) :
    (∀ k ∈ ws, ignoredSpec k = false) ∧ resolveKws 0 ws = some (.c c) := by
  obtain ⟨h1, r, h2, h3⟩ := resolveKws_name hk hg (by simp)
  refine ⟨h1, ?_⟩
  rw [h2]
  cases r with
  | c d => cases h3; rfl
  | void => cases h3

/-! ## Statements -/

/-- the items of a block -/
inductive Chunk : List T → List PT → List T → Prop
  | one {i t r} : Der .blockItem i t r → Chunk i [t] r
  | more {i t j ts r} : Der .blockItem i t j → Chunk j ts r → Chunk i (t :: ts) r

theorem chunk_more {i ts r} (h : Chunk i ts r) : ∀ {i0 ts0}, Der .blockItems i0 (.chain ts0) i →
    Der .blockItems i0 (.chain (ts0 ++ ts)) r := by
  induction h with
  | one h => intro i0 ts0 h0; exact .biMore h0 h
  | more h _ ih =>
    intro i0 ts0 h0
    have := ih (.biMore h0 h)
    rwa [List.append_assoc] at this

theorem chunk_block {i ts r} (h : Chunk i ts r) : Der .blockItems i (.chain ts) r := by
  cases h with
  | one h => exact .biOne h
  | more h h' => exact chunk_more h' (.biOne h)

theorem item_script {i t r} (h : Der .blockItem i t r) : Der .cscriptDecl i t r := by
  cases h with
  | biDecl h => exact .cxExt (.xDecl h)
  | biStmt h => exact .cxStmt h

theorem chunk_script_more {i ts r} (h : Chunk i ts r) : ∀ {i0 ts0}, Der .cscriptUnit i0 (.chain ts0) i →
    Der .cscriptUnit i0 (.chain (ts0 ++ ts)) r := by
  induction h with
  | one h => intro i0 ts0 h0; exact .cuMore h0 (item_script h)
  | more h _ ih =>
    intro i0 ts0 h0
    have := ih (.cuMore h0 (item_script h))
    rwa [List.append_assoc] at this

theorem chunk_script {i ts r} (h : Chunk i ts r) : Der .cscriptUnit i (.chain ts) r := by
  cases h with
  | one h => exact .cuOne (item_script h)
  | more h h' => exact chunk_script_more h' (.cuOne (item_script h))

/-- the arguments of a call -/
theorem args_der {TN es i r} (h : WArgs cTable TN es i r) :
    ∃ ts, Der .argList i (.chain ts) r ∧
      (∀ {i0 ts0}, Der .argList i0 (.chain ts0) (.p .comma :: i) → Der .argList i0 (.chain (ts0 ++ ts)) r) ∧
      ∀ {nd : TId → Option Node} {ls}, Rep nd (.l ts ls) → ArgsRep nd ls es := by
  induction h with
  | one h =>
    obtain ⟨t, h1, h2⟩ := we_der h
    refine ⟨[t], .agOne h1, fun h => .agMore h h1, ?_⟩
    intro nd ls hr
    obtain ⟨u, rfl, hu⟩ := rep_one hr
    obtain ⟨_, e, hu⟩ := h2 hu
    cases e
    exact .cons hu .nil
  | more h _ ih =>
    obtain ⟨t, h1, h2⟩ := we_der h
    obtain ⟨ts, h3, h4, h5⟩ := ih
    refine ⟨t :: ts, h4 (.agOne h1), fun {i0 ts0} h => ?_, ?_⟩
    · have := h4 (.agMore h h1)
      rwa [List.append_assoc] at this
    · intro nd ls hr
      cases hr with
      | cons h6 h7 =>
        obtain ⟨_, e, hu⟩ := h2 h6
        cases e
        exact .cons hu (h5 h7)

/-- an expression statement with one expression -/
theorem rep_single {nd : TId → Option Node} {t : PT} {x : Ref} (h : Rep nd (.t (.exprList (.chain [t])) x)) :
    ∃ u h v, x = some u ∧ nd u = some (.exprList h) ∧ Rep nd (.t t (some v)) ∧ Wrap nd u v := by
  cases h with
  | exprList h3 h4 =>
    cases h4 with
    | chain h5 h6 =>
      obtain ⟨v, rfl, h7⟩ := rep_one h6
      exact ⟨_, _, v, rfl, h3, h7, .list h3 h5 .self⟩

/-- what `src_der` shows -/
def SrcDer : SK → Spec.Stmt → List T → List T → Prop
  | .stmt, p, i, r => ∃ t, Der .statement i t r ∧ ∀ {nd : TId → Option Node} {x}, Rep nd (.t t x) →
      ∃ u n, x = some u ∧ SRep nd (.stmt u) p ∧ nd u = some n ∧ (bare p = true → isChain n = false ∧ isJump n = false)
  | .item, p, i, r => ∃ t, Der .blockItem i t r ∧ ∀ {nd : TId → Option Node} {u}, Rep nd (.t t (some u)) → SRep nd (.stmt u) p
  | .items, p, i, r => ∃ ts, Chunk i ts r ∧ ∀ {nd : TId → Option Node} {ls}, Rep nd (.l ts ls) → SRep nd (.block ls) p
  | .body, p, i, r => ∃ t, Der .statement i t r ∧ ∀ {nd : TId → Option Node} {x}, Rep nd (.t t x) → SRep nd (.body x) p

theorem src_der {TN k p i r} (h : Src cTable TN k p i r) : SrcDer k p i r := by
  induction h with
  | act h =>
    obtain ⟨t, h1, h2⟩ := act_der h
    refine ⟨t, .sExpr (.esExpr h1), ?_⟩
    intro nd x hx
    obtain ⟨u, hh, rfl, h3, h4⟩ := h2 hx
    exact ⟨u, _, rfl, .act h3 h4 rfl, h4, fun _ => ⟨rfl, rfl⟩⟩
  | skip =>
    refine ⟨_, .sExpr .esEmpty, ?_⟩
    intro nd x hx
    cases hx with | empty h => exact ⟨_, _, rfl, .empty h, h, fun _ => ⟨rfl, rfl⟩⟩
  | empty =>
    refine ⟨_, .sComp .csEmpty, ?_⟩
    intro nd x hx
    cases hx with | empty h => exact ⟨_, _, rfl, .empty h, h, fun _ => ⟨rfl, rfl⟩⟩
  | @cond e a i j r he _ hr ih =>
    obtain ⟨c, h1, h2⟩ := we_der he
    obtain ⟨t, h3, h4⟩ := ih
    refine ⟨_, .sSel (.slIf h1 h3 ?_), ?_⟩
    · match r, hr with
      | [], _ => rfl
      | .p k :: r', hr => cases k <;> first | rfl | exact absurd rfl (hr _)
      | .ident _ :: r', _ | .typeName _ :: _, _ | .integer _ :: _, _ | .floatCst _ :: _, _ | .string _ :: _, _
      | .cPreInc _ :: _, _ => rfl
    · intro nd x hx
      cases hx with
      | ifS h5 h6 h7 h8 =>
        cases h8
        obtain ⟨u, rfl, h9⟩ := h2 h6
        exact ⟨_, _, rfl, .cond h5 h9 (h4 h7) .none, h5, fun _ => ⟨rfl, rfl⟩⟩
  | condElse he _ _ iha ihb =>
    obtain ⟨c, h1, h2⟩ := we_der he
    obtain ⟨t, h3, h4⟩ := iha
    obtain ⟨t', h3', h4'⟩ := ihb
    refine ⟨_, .sSel (.slElse h1 h3 h3'), ?_⟩
    intro nd x hx
    cases hx with
    | ifS h5 h6 h7 h8 =>
      obtain ⟨u, rfl, h9⟩ := h2 h6
      exact ⟨_, _, rfl, .cond h5 h9 (h4 h7) (h4' h8), h5, fun _ => ⟨rfl, rfl⟩⟩
  | whileS he _ ih =>
    obtain ⟨c, h1, h2⟩ := we_der he
    obtain ⟨t, h3, h4⟩ := ih
    refine ⟨_, .sIter (.itWhile h1 h3), ?_⟩
    intro nd x hx
    cases hx with
    | whileS h5 h6 h7 =>
      obtain ⟨u, rfl, h9⟩ := h2 h6
      exact ⟨_, _, rfl, .whileS h5 (.loop h9 (h4 h7)), h5, fun _ => ⟨rfl, rfl⟩⟩
  | forS ha he hb _ ih =>
    obtain ⟨a, a1, a2⟩ := act_der ha
    obtain ⟨c, h1, h2⟩ := we_der he
    obtain ⟨b, b1, b2⟩ := act_der hb
    obtain ⟨t, h3, h4⟩ := ih
    refine ⟨_, .sIter (.itFor3 (.esExpr a1) (.esExpr h1) b1 h3), ?_⟩
    intro nd x hx
    cases hx with
    | forS h5 h6 h7 h8 h9 =>
      obtain ⟨u, hh, rfl, a3, a4⟩ := a2 h6
      obtain ⟨v, rfl, h10⟩ := h2 h7
      obtain ⟨w, hh', rfl, b3, b4⟩ := b2 h8
      exact ⟨_, _, rfl, .forS h5 a3 a4 rfl (.loopFor h10 (h4 h9) b3), h5, fun _ => ⟨rfl, rfl⟩⟩
  | ret he =>
    obtain ⟨c, h1, h2⟩ := we_der he
    refine ⟨_, .sJump (.jReturn h1), ?_⟩
    intro nd x hx
    cases hx with
    | ret h5 h6 =>
      obtain ⟨u, rfl, h9⟩ := h2 h6
      exact ⟨_, _, rfl, .ret h5 h9, h5, fun h => by cases h⟩
  | leave =>
    refine ⟨_, .sJump .jReturn0, ?_⟩
    intro nd x hx
    cases hx with
    | ret h5 h6 => cases h6; exact ⟨_, _, rfl, .leave h5, h5, fun h => by cases h⟩
  | call0 =>
    refine ⟨_, .sExpr (.esExpr (.exOne (nt_down (p := 2) (q := 16) (.poCall0 (.poPrimary .pIdent)) (by omega) (by omega)))), ?_⟩
    intro nd x hx
    obtain ⟨u, hh, v, rfl, h3, h4, h5⟩ := rep_single hx
    cases h4 with
    | fnCall h6 h7 h8 =>
      cases h7 with
      | ident h7 => cases h8; exact ⟨_, _, rfl, .call h5 h6 h7 (.inl ⟨rfl, rfl⟩) h3 rfl, h3, fun _ => ⟨rfl, rfl⟩⟩
  | @call s es i r hes =>
    obtain ⟨ts, h1, -, h2⟩ := args_der hes
    refine ⟨_, .sExpr (.esExpr (.exOne (nt_down (p := 2) (q := 16) (.poCall (.poPrimary .pIdent) h1) (by omega) (by omega)))), ?_⟩
    intro nd x hx
    obtain ⟨u, hh, v, rfl, h3, h4, h5⟩ := rep_single hx
    cases h4 with
    | fnCall h6 h7 h8 =>
      cases h7 with
      | ident h7 =>
        cases h8 with
        | chain h9 h10 =>
          have : es ≠ [] := by cases hes <;> simp
          exact ⟨_, _, rfl, .call h5 h6 h7 (.inr ⟨_, _, rfl, h9, this, h2 h10⟩) h3 rfl, h3, fun _ => ⟨rfl, rfl⟩⟩
  | block _ ih =>
    obtain ⟨ts, h1, h2⟩ := ih
    refine ⟨_, .sComp (.csItems (chunk_block h1)), ?_⟩
    intro nd x hx
    cases hx with
    | chain h3 h4 => exact ⟨_, _, rfl, .nested h3 (h2 h4), h3, fun h => by cases h⟩
  | stmt _ ih =>
    obtain ⟨t, h1, h2⟩ := ih
    refine ⟨t, .biStmt h1, ?_⟩
    intro nd u hx
    obtain ⟨v, n, hv, h3, _⟩ := h2 hx
    cases hv
    exact h3
  | decl hs hg hd =>
    obtain ⟨ts, h1, -, h2⟩ := specs_der hs
    obtain ⟨us, -, h3, -, h4⟩ := decls_der hd
    refine ⟨_, .biDecl (.dcDecl h1 h3), ?_⟩
    intro nd u hx
    obtain ⟨g1, g2⟩ := resolveKws_gives (specs_kw hs) hg
    cases hx with
    | decl h5 h6 h7 =>
      cases h6 with
      | chain h8 h9 =>
        cases h7 with
        | chain h10 h11 => exact .decl h5 ⟨_, _, h8, h2 h9, g1, g2⟩ (.inl ⟨_, h10, h4 h11⟩)
  | last _ ih =>
    obtain ⟨t, h1, h2⟩ := ih
    refine ⟨[t], .one h1, ?_⟩
    intro nd ls hr
    obtain ⟨u, rfl, hu⟩ := rep_one hr
    exact .cons (h2 hu) .nil
  | more _ _ ih1 ih2 =>
    obtain ⟨t, h1, h2⟩ := ih1
    obtain ⟨ts, h3, h4⟩ := ih2
    refine ⟨t :: ts, .more h1 h3, ?_⟩
    intro nd ls hr
    cases hr with
    | cons h5 h6 => exact .cons (h2 h5) (h4 h6)
  | bare hb _ ih =>
    obtain ⟨t, h1, h2⟩ := ih
    refine ⟨t, h1, ?_⟩
    intro nd x hx
    obtain ⟨u, n, rfl, h3, h4, h5⟩ := h2 hx
    exact .single h4 (h5 hb).1 (h5 hb).2 h3
  | braces _ ih =>
    obtain ⟨ts, h1, h2⟩ := ih
    refine ⟨_, .sComp (.csItems (chunk_block h1)), ?_⟩
    intro nd x hx
    cases hx with
    | chain h3 h4 => exact .braces h3 (h2 h4)

end Bic.Parser
