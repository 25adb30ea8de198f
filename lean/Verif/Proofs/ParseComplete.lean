import Verif.Proofs.ParseStart
/-!
# The deterministic parser finds whatever the grammar derives
-/

namespace Bic.Parser

/-- what may follow a phrase -/
def Fol : N → List T → Prop
  | .unary, r => 1 ≤ lev r
  | .bin l, r => max l 1 ≤ lev r
  | .cond, r | .constant, r => 12 ≤ lev r
  | .assignment, r | .argList, r | .expression, r | .initializer, r | .initList, r | .initDecl, r => 13 ≤ lev r
  | .initDeclList, r | .structDeclrList, r | .structDeclr, r => r = [] ∨ hd .comma r = true ∨ hd .semi r = true
  | .declarator, r => 1 ≤ lev r
  | .abstractDecl, r | .typeName, r | .paramDecl, r | .paramList, r => r = [] ∨ hd .comma r = true ∨ hd .rparen r = true
  | .paramTypeList, r => r = [] ∨ hd .rparen r = true
  | .declSpecs, r | .declSpec, r | .storage, r | .typeSpecifier, r | .structSpec, r | .enumSpec, r
  | .fnSpec, r | .sq, r | .sqList, r => hd .lbrace r = false
  | .enumerator, r | .enumList, r => r = [] ∨ hd .comma r = true ∨ hd .rbrace r = true
  | .pointer, r => hd .star r = false ∧ qHd r = false
  | _, _ => True

/-- what the parser does with a phrase -/
def Cl : N → List T → PT → List T → Prop
  | .primary, i, t, r => Ev .primary i (.ok t false r)
  | .postfix, i, t, r => ∀ o, Ev (.postLoop t) r o → Ev .postfix i o
  | .argList, i, t, r => ∃ ts, t = .chain ts ∧ ∀ o, Ev (.argLoop ts) r o → Ev .args i o
  | .unary, i, t, r => Ev .unary i (.ok t true r)
  | .bin 0, i, t, r => ∃ u, Ev (.bin 0) i (.ok t u r)
  | .bin (l + 1), i, t, r => ∃ u, ∀ o, Ev (.binLoop (l + 1) t u) r o → Ev (.bin (l + 1)) i o
  | .cond, i, t, r | .constant, i, t, r => ∃ u, Ev .cond i (.ok t u r)
  | .assignment, i, t, r => Ev .assign i (.ok t false r)
  | .expression, i, t, r => ∃ ts, t = .exprList (.chain ts) ∧ ∀ o, Ev (.exprLoop ts) r o → Ev .expr i o
  | .declaration, i, t, r | .fnDef, i, t, r | .externalDecl, i, t, r => Ev .declaration i (.ok t false r)
  | .declSpecs, i, t, r | .sqList, i, t, r => ∃ ts, t = .chain ts ∧ ∀ o, Ev (.specs ts) r o → Ev (.specs []) i o
  | .declSpec, i, t, r | .storage, i, t, r | .typeSpecifier, i, t, r | .structSpec, i, t, r | .enumSpec, i, t, r
  | .fnSpec, i, t, r | .sq, i, t, r => Ev .spec i (.ok t false r)
  | .typeQual, i, t, r => Ev .spec i (.ok t false r) ∧ qualOf i = some t ∧ r = i.tail
  | .initDeclList, i, t, r => ∃ ts t0 r0, t = .chain ts ∧ Ev .initDecl i (.ok t0 false r0) ∧ hd .lbrace r0 = false ∧
      sHd r0 = false ∧ ∀ o, Ev (.idlLoop ts) r o → Ev (.idlLoop [t0]) r0 o
  | .initDecl, i, t, r => Ev .initDecl i (.ok t false r)
  | .structDeclList, i, t, r => ∃ ts, t = .chain ts ∧ ∀ o, Ev (.members ts) r o → Ev (.members []) i o
  | .structDecl, i, t, r => Ev .member i (.ok t false r)
  | .structDeclrList, i, t, r => ∃ ts t0 r0, t = .chain ts ∧ Ev .mr i (.ok t0 false r0) ∧
      ∀ o, Ev (.mrLoop ts) r o → Ev (.mrLoop [t0]) r0 o
  | .structDeclr, i, t, r => Ev .mr i (.ok t false r)
  | .enumList, i, t, r => ∃ ts, t = .chain ts ∧ ∀ o, Ev (.enLoop ts) r o → Ev .enums i o
  | .enumerator, i, t, r => Ev .enumr i (.ok t false r)
  | .declarator, i, t, r => Ev .mdecl i (.ok t true r)
  | .directDecl, i, t, r => ∀ o, Ev (.dLoop t true) r o → Ev .mdirect i o
  | .pointer, i, t, r => Ev .pointer i (.ok t false r)
  | .tqList, i, t, r => ∃ ts, t = .chain ts ∧ mkChain ts = .chain ts ∧ ∀ o, Ev (.quals ts) r o → Ev (.quals []) i o
  | .paramTypeList, i, t, r => Ev .params i (.ok t false r)
  | .paramList, i, t, r => ∃ ts, t = .chain ts ∧ ∀ o, Ev (.plLoop ts) r o → Ev .params i o
  | .paramDecl, i, t, r => Ev .param i (.ok t false r)
  | .identList, i, t, r => ∃ ts, t = .chain ts ∧ ∀ o, Ev (.idLoop ts) r o → Ev .idents i o
  | .typeName, i, t, r => Ev .typeName i (.ok t false r)
  | .abstractDecl, i, t, r => Ev .mdecl i (.ok t false r)
  | .directAbs, i, t, r => ∀ o, Ev (.dLoop t false) r o → Ev .mdirect i o
  | .initializer, i, t, r => Ev .init i (.ok t false r)
  | .initList, i, t, r => ∃ ts, t = .chain ts ∧ ∀ o, Ev (.inLoop ts) r o → Ev .inits i o
  | .designation, i, t, r => Ev (.desig []) i (.ok t false r)
  | .desigList, i, t, r => ∃ ts, t = .chain ts ∧ ∀ o, Ev (.desig ts) r o → Ev (.desig []) i o
  | .designator, i, t, r => ∀ ts o, Ev (.desig (ts ++ [t])) r o → Ev (.desig ts) i o
  | .exprStmt, i, t, r => Ev .exprStmt i (.ok t false r)
  | .replStmt, i, t, r => Ev .replStmt i (.ok t false r)
  | .replUnit, i, t, r => ∃ ts, t = .chain ts ∧ ∀ o, Ev (.replUnit ts) r o → Ev (.replUnit []) i o
  | .statement, i, t, r | .selection, i, t, r | .iteration, i, t, r | .jump, i, t, r => Ev .stmt i (.ok t false r)
  | .compoundStmt, i, t, r => Ev .compound i (.ok t false r)
  | .blockItems, i, t, r => ∃ ts, t = .chain ts ∧ ∀ o, Ev (.block ts) r o → Ev (.block []) i o
  | .blockItem, i, t, r => Ev .item i (.ok t false r)
  | .declList, i, t, r => ∃ ts, t = .chain ts ∧ ∀ o, Ev (.declList ts) r o → Ev (.declList []) i o
  | .cscriptDecl, i, t, r => Ev .scriptItem i (.ok t false r)
  | .cscriptUnit, i, t, r => ∃ ts, t = .chain ts ∧ ∀ o, Ev (.scriptUnit ts) r o → Ev (.scriptUnit []) i o

/-! ## What is known from the class of the next token -/

theorem lev_cons (k j) : lev (.p k :: j) = lev [.p k] := by cases k <;> rfl

theorem hd_lev {k r n} (h : n ≤ lev r) (hk : lev [.p k] < n) : hd k r = false := by
  rcases e : hd k r with _ | _
  · rfl
  · rw [eq_of_hd e, lev_cons] at h
    omega

theorem lev_le (r) : lev r ≤ 100 := by
  unfold lev
  split <;> decide

theorem binAction_lev {l k f r} (h : binAction l k = some f) : lev (.p k :: r) = l := by
  unfold binAction at h
  split at h <;> first | rfl | cases h

theorem assignAction_lev {k f r} (h : assignAction k = some f) : lev (.p k :: r) = 12 := by
  cases k <;> first | rfl | cases h

theorem binOf_none {l r} (h : lev r ≠ l) : binOf l r = none := by
  rcases r with _ | ⟨t, r⟩
  · rfl
  · cases t with
    | p k =>
      rcases e : binAction l k with _ | f
      · exact e
      · exact absurd (binAction_lev e) h
    | _ => rfl

theorem asgOf_none {r} (h : lev r ≠ 12) : asgOf r = none := by
  rcases r with _ | ⟨t, r⟩
  · rfl
  · cases t with
    | p k =>
      rcases e : assignAction k with _ | f
      · exact e
      · exact absurd (assignAction_lev e) h
    | _ => rfl

theorem hd_of_sep {k k1 k2 : K} {r} (h : r = [] ∨ hd k1 r = true ∨ hd k2 r = true) (h1 : (k1 == k) = false)
    (h2 : (k2 == k) = false) : hd k r = false := by
  rcases h with h | h | h
  · rw [h]; rfl
  · rw [eq_of_hd h]; exact h1
  · rw [eq_of_hd h]; exact h2

theorem lev_of_sep {k1 k2 : K} {r n} (h : r = [] ∨ hd k1 r = true ∨ hd k2 r = true) (h0 : n ≤ 100)
    (h1 : n ≤ lev [.p k1]) (h2 : n ≤ lev [.p k2]) : n ≤ lev r := by
  rcases h with h | h | h
  · rw [h]; exact h0
  · rw [eq_of_hd h, lev_cons]; exact h1
  · rw [eq_of_hd h, lev_cons]; exact h2

theorem sHd_of_sep {k1 k2 : K} {r} (h : r = [] ∨ hd k1 r = true ∨ hd k2 r = true)
    (h1 : ∀ j, sHd (.p k1 :: j) = false) (h2 : ∀ j, sHd (.p k2 :: j) = false) : sHd r = false := by
  rcases h with h | h | h
  · rw [h]; rfl
  · rw [eq_of_hd h]; exact h1 _
  · rw [eq_of_hd h]; exact h2 _

theorem idHd_of_sep {k1 k2 : K} {r} (h : r = [] ∨ hd k1 r = true ∨ hd k2 r = true) : idHd r = false := by
  rcases h with h | h | h
  · rw [h]; rfl
  · rw [eq_of_hd h]; rfl
  · rw [eq_of_hd h]; rfl

theorem qHd_of_sep {k1 k2 : K} {r} (h : r = [] ∨ hd k1 r = true ∨ hd k2 r = true)
    (h1 : ∀ j, qHd (.p k1 :: j) = false) (h2 : ∀ j, qHd (.p k2 :: j) = false) : qHd r = false := by
  rcases h with h | h | h
  · rw [h]; rfl
  · rw [eq_of_hd h]; exact h1 _
  · rw [eq_of_hd h]; exact h2 _

theorem qualOf_none {r} (h : qHd r = false) : qualOf r = none := by
  rcases r with _ | ⟨t, r⟩
  · rfl
  · cases t with
    | p k => simp only [qHd, Option.isSome_eq_false_iff, Option.isNone_iff_eq_none] at h; simp [qualOf, h]
    | _ => rfl

/-! ## Ends of loops -/

theorem postLoop_stop {t r} (h : 1 ≤ lev r) : Ev (.postLoop t) r (.ok t true r) := ev0 fun f => by
  simp [step, hd_lev h (k := .lparen) (by decide), hd_lev h (k := .lbrack) (by decide),
    hd_lev h (k := .incr) (by decide), hd_lev h (k := .decr) (by decide),
    hd_lev h (k := .dot) (by decide), hd_lev h (k := .arrow) (by decide)]

theorem argLoop_stop {ts r} (h : 14 ≤ lev r) : Ev (.argLoop ts) r (.ok (.chain ts) false r) := ev0 fun f => by
  simp [step, hd_lev h (k := .comma) (by decide)]

theorem exprLoop_stop {ts r} (h : 14 ≤ lev r) : Ev (.exprLoop ts) r (.ok (.exprList (.chain ts)) false r) := ev0 fun f => by
  simp [step, hd_lev h (k := .comma) (by decide)]

theorem binLoop_stop {l t u r} (h : l < lev r) : Ev (.binLoop l t u) r (.ok t u r) := ev0 fun f => by
  simp [step, binOf_none (Nat.ne_of_gt h)]

theorem dLoop_stop {t u r} (h : 1 ≤ lev r) : Ev (.dLoop t u) r (.ok t u r) := ev0 fun f => by
  simp [step, hd_lev h (k := .lparen) (by decide), hd_lev h (k := .lbrack) (by decide)]

theorem specs_stop {ts r} (h : sHd r = false) : Ev (.specs ts) r (.ok (.chain ts) false r) := ev0 fun f => by
  simp [step, h]

theorem quals_stop {ts r} (h : qHd r = false) : Ev (.quals ts) r (.ok (mkChain ts) false r) := ev0 fun f => by
  simp [step, qualOf_none h]

/-! ## Derived forms of the claims -/

theorem Cl.bin {l i t r} (h : Cl (.bin l) i t r) (hl : l < lev r) : ∃ u, Ev (.bin l) i (.ok t u r) := by
  cases l with
  | zero => exact h
  | succ l => obtain ⟨u, h⟩ := h; exact ⟨u, h _ (binLoop_stop hl)⟩

theorem Cl.expr {i t r} (h : Cl .expression i t r) (hl : 14 ≤ lev r) : Ev .expr i (.ok t false r) := by
  obtain ⟨ts, rfl, h⟩ := h
  exact h _ (exprLoop_stop hl)

theorem Cl.args {i t r} (h : Cl .argList i t r) (hl : 14 ≤ lev r) : Ev .args i (.ok t false r) := by
  obtain ⟨ts, rfl, h⟩ := h
  exact h _ (argLoop_stop hl)

theorem Cl.specs {i t r} (h : Cl .declSpecs i t r) (hl : sHd r = false) : Ev (.specs []) i (.ok t false r) := by
  obtain ⟨ts, rfl, h⟩ := h
  exact h _ (specs_stop hl)

theorem Cl.quals {i t r} (h : Cl .tqList i t r) (hl : qHd r = false) : Ev (.quals []) i (.ok t false r) := by
  obtain ⟨ts, rfl, e, h⟩ := h
  rw [← e]
  exact h _ (quals_stop hl)

/-- a unary expression before something that continues no expression of a higher level -/
theorem unary_bin {i t r} (l : Nat) (h : Ev .unary i (.ok t true r)) (hc : castHd i = false) (hl : l < lev r) :
    Ev (.bin l) i (.ok t true r) := by
  induction l with
  | zero => exact ev1 h fun f a => by simp [step, hc, a]
  | succ l ih => exact ev2 (ih (by omega)) (binLoop_stop (t := t) (u := true) hl) fun f a b => by simp [step, a, b, R.bind]

theorem unary_cond {i t r} (h : Ev .unary i (.ok t true r)) (hc : castHd i = false) (hl : 12 ≤ lev r) :
    Ev .cond i (.ok t true r) :=
  ev1 (unary_bin 10 h hc (by omega)) fun f a => by
    simp [step, a, R.bind, hd_lev hl (k := .question) (by decide)]

/-- the next token is not `k`, because of how the phrase begins -/
theorem nhd {n i t r} (h : Der n i t r) (k : K) (hk : ∀ r, st n (.p k :: r) = false) : hd k i = false :=
  hd_false (st n) (start h) hk

theorem e_and {i : List T} {b : Bool} (h : (eHd i && b) = true) : eHd i = true := by
  simp only [Bool.and_eq_true] at h; exact h.1

theorem e_and' {i : List T} {b c : Bool} (h : (eHd i && b && c) = true) : eHd i = true := by
  simp only [Bool.and_eq_true] at h; exact h.1.1

theorem unary_notCast {i t r} (h : Der .unary i t r) : castHd i = false := by
  have := start h
  simp only [st, Bool.and_eq_true, Bool.not_eq_true'] at this
  exact this.1.2

theorem mkChain_snoc (ts : List PT) (t : PT) : mkChain (ts ++ [t]) = .chain (ts ++ [t]) := by
  cases ts <;> rfl

/-- `* ]` does not begin an expression -/
theorem notStar {i t r} (h : Der .assignment i t r) : vlaHd i = false := by
  have := start h
  simp only [st, starOk, Bool.and_eq_true, Bool.or_eq_true, Bool.not_eq_true'] at this
  rcases e : hd .star i with _ | _
  · simp [vlaHd, e]
  · rcases this.2 with h | h
    · rw [e] at h; cases h
    · simp [vlaHd, hd_false eHd h (k := .rbrack) fun _ => rfl]

theorem dirHd_direct {i t r} (d : Der .directDecl i t r) : dirHd i = true := by
  have : (idHd _ || hd .lparen _) = true := start d
  simp [dirHd, this]

theorem dirHd_abs {i t r} (d : Der .directAbs i t r) : dirHd i = true := by
  have : (hd .lparen _ || hd .lbrack _) = true := start d
  simp only [dirHd, Bool.or_assoc, this, Bool.or_true]

theorem dirHd_sep {r} (h : r = [] ∨ hd .comma r = true ∨ hd .rparen r = true) : dirHd r = false := by
  simp [dirHd, idHd_of_sep h, hd_of_sep (k := .lparen) h rfl rfl, hd_of_sep (k := .lbrack) h rfl rfl]

theorem mdecl_none {r} (h : r = [] ∨ hd .comma r = true ∨ hd .rparen r = true) : Ev .mdecl r (.ok .null false r) :=
  ev0 fun f => by simp [step, hd_of_sep (k := .star) h rfl rfl, dirHd_sep h]

theorem abs_sHd {i t r} (d : Der .abstractDecl i t r) : sHd i = false := by
  have h : (hd .star _ || hd .lparen _ || hd .lbrack _) = true := start d
  simp only [Bool.or_eq_true] at h
  rcases h with (h | h) | h
  all_goals exact hd_sHd h fun _ => rfl

theorem idHd_sHd' {i} (h : sHd i = true) : idHd i = false := by
  rcases e : idHd i with _ | _
  · rfl
  · rw [idHd_sHd e] at h; cases h

theorem tq_vla {i t r} (d : Der .tqList i t r) : vlaHd i = false := by
  simp [vlaHd, nhd d .star (fun _ => rfl)]

theorem vla_rbrack (r) : vlaHd (.p .rbrack :: r) = false := rfl
theorem vla_static (r) : vlaHd (.p .static :: r) = false := rfl
theorem vla_star (r) : vlaHd (.p .star :: .p .rbrack :: r) = true := rfl

theorem arr_loop {t u j t' r o} (h : Ev (.arr t u) j (.ok t' false r)) (ho : Ev (.dLoop t' u) r o) :
    Ev (.dLoop t u) (.p .lbrack :: j) o := ev2 h ho fun f a b => by simp [step, hd_cons, a, b, R.bind]

theorem arr_direct {j t' r o} (h : Ev (.arr .null false) j (.ok t' false r)) (ho : Ev (.dLoop t' false) r o) :
    Ev .mdirect (.p .lbrack :: j) o := ev2 h ho fun f a b => by simp [step, identOf, hd_cons, a, b, R.bind]

theorem arr_expr {t u j e r} (d : Der .assignment j e (.p .rbrack :: r)) (h : Ev .assign j (.ok e false (.p .rbrack :: r))) :
    Ev (.arr t u) j (.ok (.array t .null e) false r) :=
  ev2 (quals_stop (ts := []) (eHd_qHd (e_and (start d)))) h fun f a b => by
    simp [step, nhd d .rbrack (fun _ => rfl), notStar d, nhd d .static (fun _ => rfl), a, b, R.bind, exp, hd_cons, mkChain]

theorem arr_quals {t u i q j e r} (d1 : Der .tqList i q j) (d : Der .assignment j e (.p .rbrack :: r))
    (h1 : Ev (.quals []) i (.ok q false j)) (h : Ev .assign j (.ok e false (.p .rbrack :: r))) :
    Ev (.arr t u) i (.ok (.array t q e) false r) :=
  ev2 h1 h fun f a b => by
    simp [step, nhd d1 .rbrack (fun _ => rfl), tq_vla d1, nhd d1 .static (fun _ => rfl),
      nhd d .rbrack (fun _ => rfl), notStar d, nhd d .static (fun _ => rfl), a, b, R.bind, exp, hd_cons]

theorem initItem_init {i t r} (d : Der .initializer i t r) (h : Ev .init i (.ok t false r)) :
    Ev .initItem i (.ok t false r) :=
  ev1 h fun f a => by simp [step, nhd d .lbrack (fun _ => rfl), nhd d .dot (fun _ => rfl), a]

theorem initItem_desig {i l j t r} (d : Der .designation i l j) (h1 : Ev (.desig []) i (.ok l false j))
    (h : Ev .init j (.ok t false r)) : Ev .initItem i (.ok (.assign l t) false r) :=
  ev2 h1 h fun f a b => by
    have hs : (hd .lbrack _ || hd .dot _) = true := start d
    simp only [step, hs, a, b, R.bind]
    rfl

/-- the next token is an `#include` -/
def preHd : List T → Bool
  | .cPreInc _ :: _ => true
  | _ => false

theorem replStmt_step {f i} (h : preHd i = false) :
    step f .replStmt i = if hd .question i then
        match identOf i.tail with
        | some s => .ok (.inspect (.ident s)) false i.tail.tail
        | none => .fail
      else if sHd i then f .declaration i
      else f .exprStmt i := by
  rcases i with _ | ⟨t, i⟩
  · rfl
  · cases t <;> first | rfl | cases h

theorem exprStmt_pre {i t r} (d : Der .exprStmt i t r) : preHd i = false := by
  have h : (eHd _ || hd .semi _) = true := start d
  rcases i with _ | ⟨t, i⟩
  · rfl
  · cases t <;> first | rfl | cases h

theorem sHd_pre {i} (h : sHd i = true) : preHd i = false := by
  rcases i with _ | ⟨t, i⟩
  · rfl
  · cases t <;> first | rfl | cases h

theorem exprStmt_sHd {i t r} (d : Der .exprStmt i t r) : sHd i = false := by
  have h : (eHd _ || hd .semi _) = true := start d
  simp only [Bool.or_eq_true] at h
  rcases h with h | h
  · exact eHd_sHd h
  · exact hd_sHd h fun _ => rfl

theorem hd_else {r} (h : noElse r = true) : hd .else_ r = false := by
  rcases e : hd .else_ r with _ | _
  · rfl
  · rw [eq_of_hd e] at h; cases h

theorem sHd_lev {i} (h : sHd i = true) : lev i = 100 := by
  rcases i with _ | ⟨t, i⟩
  · rfl
  · cases t with
    | p k => cases k <;> first | rfl | cases h
    | _ => first | rfl | cases h

theorem lev_lbrace {i} (h : hd .lbrace i = true) : lev i = 100 := by rw [eq_of_hd h]; rfl

theorem initDecl_plain {i t u r} (h : Ev .mdecl i (.ok t u r)) (hl : 13 ≤ lev r) : Ev .initDecl i (.ok t false r) :=
  ev1 h fun f a => by simp [step, a, R.bind, hd_lev hl (k := .assign) (by decide)]

theorem declList_stop {ts r} (h : hd .lbrace r = true) : Ev (.declList ts) r (.ok (.chain ts) false r) := ev0 fun f => by
  simp [step, h]

theorem item_ne_nil {i} (h : (stHd i || sHd i) = true) : i.isEmpty = false := by
  cases i with
  | nil => cases h
  | cons => rfl

set_option linter.unusedSimpArgs false in
theorem complete {n i t r} (h : Der n i t r) : Fol n r → Cl n i t r := by
  induction h with
  -- primary_expression
  | pInt => exact fun _ => ev0 fun f => rfl
  | pFlt => exact fun _ => ev0 fun f => rfl
  | pIdent => exact fun _ => ev0 fun f => rfl
  | pStr => exact fun _ => ev0 fun f => rfl
  | pParen _ ih =>
    exact fun _ => ev1 ((ih (by simp [Fol, lev])).expr (by simp [lev])) fun f a => by
      simp [step, hd, a, R.bind, exp]
  -- postfix_expression
  | poPrimary _ ih => exact fun _ o ho => ev2 (ih trivial) ho fun f a b => by simp [step, a, b, R.bind]
  | poCall0 _ ih => exact fun _ o ho => ih trivial _ (ev1 ho fun f a => by simp [step, hd, a])
  | poCall _ d ih1 ih2 =>
    exact fun _ o ho => ih1 trivial _
      (ev2 ((ih2 (by simp [Fol, lev])).args (by simp [lev])) ho fun f a b => by
        simp [step, hd_cons, nhd d .rparen (fun _ => rfl), a, b, R.bind, exp])
  | poIndex _ d ih1 ih2 =>
    exact fun _ o ho => ih1 trivial _
      (ev2 ((ih2 (by simp [Fol, lev])).expr (by simp [lev])) ho fun f a b => by simp [step, hd_cons, a, b, R.bind, exp])
  | poInc _ ih => exact fun _ o ho => ih trivial _ (ev1 ho fun f a => by simp [step, hd_cons, a])
  | poDec _ ih => exact fun _ o ho => ih trivial _ (ev1 ho fun f a => by simp [step, hd_cons, a])
  | poDot _ ih => exact fun _ o ho => ih trivial _ (ev1 ho fun f a => by simp [step, hd_cons, a, identOf])
  | poArrow _ ih => exact fun _ o ho => ih trivial _ (ev1 ho fun f a => by simp [step, hd_cons, a, identOf])
  -- argument_expression_list
  | agOne _ ih => exact fun hf => ⟨_, rfl, fun o ho => ev2 (ih hf) ho fun f a b => by simp [step, a, b, R.bind]⟩
  | agMore _ _ ih1 ih2 =>
    intro hf
    obtain ⟨ts, e, h⟩ := ih1 (by simp [Fol, lev])
    cases e
    exact ⟨_, rfl, fun o ho => h _ (ev2 (ih2 hf) ho fun f a b => by simp [step, hd_cons, a, b, R.bind])⟩
  -- unary_expression
  | uPostfix d ih =>
    intro hf
    have hs := start d
    simp only [st, Bool.and_eq_true, Bool.not_eq_true'] at hs
    exact ev1 (ih trivial _ (postLoop_stop hf)) fun f a => by
      simp [step, pHd_unOf hs.2, hd_false pHd hs.2 (k := .sizeof) (fun _ => rfl), a]
  | uOp hk d ih =>
    intro hf
    exact ev1 (ih hf) fun f a => by simp [step, unOf, hk, unary_notCast d, a, R.bind]
  | uSizeofT d ih =>
    intro hf
    exact ev1 (ih (by simp [Fol, hd_cons])) fun f a => by
      simp [step, hd_cons, castHd, show sHd _ = true from start d, a, R.bind, exp]
  -- cast_expression
  | cUnary d ih =>
    intro hf
    exact ⟨true, ev1 (ih (by simpa [Fol] using hf)) fun f a => by simp [step, unary_notCast d, a]⟩
  | cCast d _ ih1 ih2 =>
    intro hf
    obtain ⟨u, h⟩ := ih2 hf
    exact ⟨false, ev2 (ih1 (by simp [Fol, hd_cons])) h fun f a b => by
      simp [step, hd_cons, castHd, show sHd _ = true from start d, a, b, R.bind, exp]⟩
  -- binary operators
  | bBase _ _ ih =>
    intro hf
    have hf : _ ≤ lev _ := hf
    obtain ⟨u, h⟩ := (ih (by simp only [Fol]; omega)).bin (by omega)
    exact ⟨u, fun o ho => ev2 h ho fun f a b => by simp [step, a, b, R.bind]⟩
  | bOp _ hk _ ih1 ih2 =>
    intro hf
    have hf : _ ≤ lev _ := hf
    obtain ⟨u, h⟩ := ih1 (by simp only [Fol, binAction_lev hk]; omega)
    obtain ⟨u', h'⟩ := (ih2 (by simp only [Fol]; omega)).bin (by omega)
    exact ⟨false, fun o ho => h _ (ev2 h' ho fun f a b => by simp [step, binOf, hk, a, b, R.bind])⟩
  | cdBase _ ih =>
    intro hf
    have hf : 12 ≤ lev _ := hf
    obtain ⟨u, h⟩ := (ih (by simp only [Fol]; omega)).bin (by omega)
    exact ⟨u, ev1 h fun f a => by simp [step, a, R.bind, hd_lev hf (k := .question) (by decide)]⟩
  | cdCond _ _ _ ih1 ih2 ih3 =>
    intro hf
    obtain ⟨u, h⟩ := (ih1 (by simp [Fol, lev])).bin (by simp [lev])
    obtain ⟨u', h'⟩ := ih3 hf
    exact ⟨false, ev3 h ((ih2 (by simp [Fol, lev])).expr (by simp [lev])) h' fun f a b c => by
      simp [step, hd_cons, a, b, c, R.bind, exp]⟩
  | constant _ ih => exact ih
  | asCond _ ih =>
    intro hf
    have hf : 13 ≤ lev _ := hf
    obtain ⟨u, h⟩ := ih (by simp only [Fol]; omega)
    have hn : asgOf _ = none := asgOf_none (Nat.ne_of_gt hf)
    exact ev1 h fun f a => by simp [step, a, R.bind, hn]
  | asOp d hk _ ih1 ih2 =>
    intro hf
    exact ev2 (unary_cond (ih1 (by simp [Fol, assignAction_lev hk])) (unary_notCast d) (by simp [assignAction_lev hk]))
      (ih2 hf) fun f a b => by simp [step, a, b, R.bind, asgOf, hk]
  | exOne _ ih => exact fun hf => ⟨_, rfl, fun o ho => ev2 (ih hf) ho fun f a b => by simp [step, a, b, R.bind]⟩
  | exMore _ _ ih1 ih2 =>
    intro hf
    obtain ⟨ts, e, h⟩ := ih1 (by simp [Fol, lev])
    cases e
    exact ⟨_, rfl, fun o ho => h _ (ev2 (ih2 hf) ho fun f a b => by simp [step, hd_cons, a, b, R.bind])⟩
  -- declaration
  | dcEmpty _ ih => exact fun _ => ev1 ((ih rfl).specs rfl) fun f a => by simp [step, a, R.bind, hd_cons]
  | dcDecl _ d ih1 ih2 =>
    intro _
    obtain ⟨ts, t0, r0, rfl, h0, hb, hs, h⟩ := ih2 (by simp [Fol, hd_cons])
    have hd' := start d
    refine ev3 ((ih1 (nhd d .lbrace fun _ => rfl)).specs (dHd_sHd hd')) h0
      (h (.ok (.chain ts) false _) (ev0 fun f => by simp [step, hd_cons]; rfl)) fun f a b c => ?_
    simp [step, a, b, c, R.bind, nhd d .semi (fun _ => rfl), hb, hs, exp, hd_cons]
  | dsOne d ih =>
    exact fun hf => ⟨_, rfl, fun o ho => ev2 (ih hf) ho fun f a b => by
      simp [step, a, b, R.bind, show sHd _ = true from start d]⟩
  | dsMore _ d ih1 ih2 =>
    intro hf
    obtain ⟨ts, e, h⟩ := ih1 (nhd d .lbrace fun _ => rfl)
    cases e
    exact ⟨_, rfl, fun o ho => h _ (ev2 (ih2 hf) ho fun f a b => by
      simp [step, a, b, R.bind, show sHd _ = true from start d])⟩
  | dsStorage _ ih => exact ih
  | dsType _ ih => exact ih
  | dsQual _ ih => exact fun _ => (ih trivial).1
  | dsFn _ ih => exact ih
  | idlOne _ ih =>
    intro hf
    exact ⟨_, _, _, rfl, ih (lev_of_sep hf (by decide) (by decide) (by decide)), hd_of_sep hf rfl rfl,
      sHd_of_sep hf (fun _ => rfl) (fun _ => rfl), fun o ho => ho⟩
  | idlMore _ _ ih1 ih2 =>
    intro hf
    obtain ⟨ts, t0, r0, e, h0, hb, hs, h⟩ := ih1 (by simp [Fol, hd_cons])
    cases e
    exact ⟨_, _, _, rfl, h0, hb, hs, fun o ho => h _
      (ev2 (ih2 (lev_of_sep hf (by decide) (by decide) (by decide))) ho fun f a b => by simp [step, hd_cons, a, b, R.bind])⟩
  | idDecl _ ih =>
    intro hf
    have hf : 13 ≤ lev _ := hf
    exact ev1 (ih (by simp only [Fol]; omega)) fun f a => by
      simp [step, a, R.bind, hd_lev hf (k := .assign) (by decide)]
  | idInit _ _ ih1 ih2 =>
    exact fun hf => ev2 (ih1 (by simp [Fol, lev])) (ih2 hf) fun f a b => by
      simp [step, a, b, R.bind, hd_cons]
  -- specifiers
  | @storage k w r h =>
    intro _
    exact ev0 fun f => by cases k <;> first | (cases h; done) | (cases h; rfl)
  | @typeKw k w r h =>
    intro _
    exact ev0 fun f => by cases k <;> first | (cases h; done) | (cases h; rfl)
  | typeStruct _ ih => exact ih
  | typeEnum _ ih => exact ih
  | typeName => exact fun _ => ev0 fun f => rfl
  | stFull hk _ ih =>
    intro _
    obtain ⟨ts, rfl, h⟩ := ih trivial
    refine ev1 (h (.ok (.chain ts) false _) (ev0 fun f => by simp [step, hd_cons]; rfl)) fun f a => ?_
    simp [step, structOf, hk, identOf, hd_cons, a, R.bind, exp]
  | stAnon hk _ ih =>
    intro _
    obtain ⟨ts, rfl, h⟩ := ih trivial
    refine ev1 (h (.ok (.chain ts) false _) (ev0 fun f => by simp [step, hd_cons]; rfl)) fun f a => ?_
    simp [step, structOf, hk, identOf, hd_cons, a, R.bind, exp]
  | stRef hk =>
    intro hf
    exact ev0 fun f => by simp [step, structOf, hk, identOf, show hd _ _ = false from hf]
  | sdlOne d ih =>
    exact fun _ => ⟨_, rfl, fun o ho => ev2 (ih trivial) ho fun f a b => by
      simp [step, a, b, R.bind, nhd d .rbrace (fun _ => rfl)]⟩
  | sdlMore _ d ih1 ih2 =>
    intro _
    obtain ⟨ts, e, h⟩ := ih1 trivial
    cases e
    exact ⟨_, rfl, fun o ho => h _ (ev2 (ih2 trivial) ho fun f a b => by
      simp [step, a, b, R.bind, nhd d .rbrace (fun _ => rfl)])⟩
  | sdDecl _ d ih1 ih2 =>
    intro _
    obtain ⟨ts, t0, r0, rfl, h0, h⟩ := ih2 (by simp [Fol, hd_cons])
    have hd' : (dHd _ || hd .colon _) = true := start d
    have hs : sHd _ = false := (Bool.or_eq_true _ _ ▸ hd').elim dHd_sHd fun h => hd_sHd h fun _ => rfl
    refine ev3 (Cl.specs (ih1 (nhd d .lbrace fun _ => rfl)) hs) h0
      (h (.ok (.chain ts) false _) (ev0 fun f => by simp [step, hd_cons]; rfl)) fun f a b c => ?_
    simp [step, a, b, c, R.bind, nhd d .semi (fun _ => rfl), exp, hd_cons]
  | sdEmpty _ ih => exact fun _ => ev1 (Cl.specs (ih rfl) rfl) fun f a => by simp [step, a, R.bind, hd_cons]
  | sqlOne d ih =>
    exact fun hf => ⟨_, rfl, fun o ho => ev2 (ih hf) ho fun f a b => by
      simp [step, a, b, R.bind, show sHd _ = true from start d]⟩
  | sqlMore _ d ih1 ih2 =>
    intro hf
    obtain ⟨ts, e, h⟩ := ih1 (nhd d .lbrace fun _ => rfl)
    cases e
    exact ⟨_, rfl, fun o ho => h _ (ev2 (ih2 hf) ho fun f a b => by
      simp [step, a, b, R.bind, show sHd _ = true from start d])⟩
  | sqType _ ih => exact ih
  | sqQual _ ih => exact fun _ => (ih trivial).1
  | srlOne _ ih => exact fun hf => ⟨_, _, _, rfl, ih hf, fun o ho => ho⟩
  | srlMore _ _ ih1 ih2 =>
    intro hf
    obtain ⟨ts, t0, r0, e, h0, h⟩ := ih1 (by simp [Fol, hd_cons])
    cases e
    exact ⟨_, _, _, rfl, h0, fun o ho => h _ (ev2 (ih2 hf) ho fun f a b => by simp [step, hd_cons, a, b, R.bind])⟩
  | srDecl d ih =>
    intro hf
    exact ev1 (ih (lev_of_sep hf (by decide) (by decide) (by decide))) fun f a => by
      simp [step, nhd d .colon (fun _ => rfl), a, R.bind, hd_of_sep (k := .colon) hf rfl rfl]
  | srAnon _ ih =>
    intro hf
    obtain ⟨u, h⟩ := ih (lev_of_sep hf (by decide) (by decide) (by decide))
    exact ev1 h fun f a => by simp [step, a, R.bind, hd_cons]
  | srBits d _ ih1 ih2 =>
    intro hf
    obtain ⟨u, h⟩ := ih2 (lev_of_sep hf (by decide) (by decide) (by decide))
    exact ev2 (ih1 (by simp [Fol, lev])) h fun f a b => by
      simp [step, nhd d .colon (fun _ => rfl), a, b, R.bind, hd_cons]
  -- enumerations
  | enAnon _ ih =>
    intro _
    obtain ⟨ts, rfl, h⟩ := ih (by simp [Fol, hd_cons])
    refine ev1 (h (.ok (.chain ts) false _) (ev0 fun f => by simp [step, hd_cons, exp]; rfl)) fun f a => ?_
    simp [step, structOf, structAction, identOf, hd_cons, a, R.bind, exp]
  | enNamed _ ih =>
    intro _
    obtain ⟨ts, rfl, h⟩ := ih (by simp [Fol, hd_cons])
    refine ev1 (h (.ok (.chain ts) false _) (ev0 fun f => by simp [step, hd_cons, exp]; rfl)) fun f a => ?_
    simp [step, structOf, structAction, identOf, hd_cons, a, R.bind]
  | enAnonC _ ih =>
    intro _
    obtain ⟨ts, rfl, h⟩ := ih (by simp [Fol, hd_cons])
    refine ev1 (h (.ok (.chain ts) false _) (ev0 fun f => by simp [step, hd_cons]; rfl)) fun f a => ?_
    simp [step, structOf, structAction, identOf, hd_cons, a, R.bind, exp]
  | enNamedC _ ih =>
    intro _
    obtain ⟨ts, rfl, h⟩ := ih (by simp [Fol, hd_cons])
    refine ev1 (h (.ok (.chain ts) false _) (ev0 fun f => by simp [step, hd_cons]; rfl)) fun f a => ?_
    simp [step, structOf, structAction, identOf, hd_cons, a, R.bind]
  | enRef =>
    intro hf
    exact ev0 fun f => by simp [step, structOf, structAction, identOf, hd_cons, show hd _ _ = false from hf]
  | elOne _ ih => exact fun hf => ⟨_, rfl, fun o ho => ev2 (ih hf) ho fun f a b => by simp [step, a, b, R.bind]⟩
  | elMore _ d ih1 ih2 =>
    intro hf
    obtain ⟨ts, e, h⟩ := ih1 (by simp [Fol, hd_cons])
    cases e
    exact ⟨_, rfl, fun o ho => h _ (ev2 (ih2 hf) ho fun f a b => by
      simp [step, hd_cons, nhd d .rbrace (fun _ => rfl), a, b, R.bind])⟩
  | eName =>
    intro hf
    exact ev0 fun f => by simp [step, identOf, hd_of_sep (k := .assign) hf rfl rfl]
  | eValue _ ih =>
    intro hf
    obtain ⟨u, h⟩ := ih (lev_of_sep hf (by decide) (by decide) (by decide))
    exact ev1 h fun f a => by simp [step, identOf, hd_cons, a, R.bind]
  | @qual k w r h =>
    intro _
    exact ⟨ev0 fun f => by cases k <;> first | (cases h; done) | (cases h; rfl), by simp [qualOf, h], rfl⟩
  | inline => exact fun _ => ev0 fun f => rfl
  -- declarators
  | dDirect d ih =>
    intro hf
    exact ev1 (ih trivial _ (dLoop_stop hf)) fun f a => by
      simp [step, nhd d .star (fun _ => rfl), a, dirHd_direct d]
  | dPtr d1 d2 ih1 ih2 =>
    intro hf
    have hs : (idHd _ || hd .lparen _) = true := start d2
    have hq : qHd _ = false := (Bool.or_eq_true _ _ ▸ hs).elim idHd_qHd fun h => hd_qHd h fun _ => rfl
    exact ev2 (ih1 ⟨nhd d2 .star (fun _ => rfl), hq⟩) (ih2 trivial _ (dLoop_stop hf)) fun f a b => by
      simp [step, show hd .star _ = true from start d1, a, b, dirHd_direct d2, R.bind]
  | ddIdent => exact fun _ o ho => ev1 ho fun f a => by simp [step, identOf, a]
  | ddParen d ih =>
    intro _ o ho
    exact ev2 (ih (by simp [Fol, lev])) ho fun f a b => by
      simp [step, identOf, hd_cons, exp, nhd d .rparen (fun _ => rfl), dHd_sHd (start d), a, b, R.bind]
  | ddArrQ _ d2 d3 ih1 ih2 ih3 =>
    intro _ o ho
    exact ih1 trivial _ (arr_loop (arr_quals d2 d3 ((ih2 trivial).quals (eHd_qHd (e_and (start d3))))
      (ih3 (by simp [Fol, lev]))) ho)
  | ddArrQ0 _ d2 ih1 ih2 =>
    intro _ o ho
    refine ih1 trivial _ (arr_loop (ev1 ((ih2 trivial).quals rfl) fun f a => ?_) ho)
    simp [step, nhd d2 .rbrack (fun _ => rfl), tq_vla d2, nhd d2 .static (fun _ => rfl), hd_cons, vla_rbrack, vla_static, vla_star, a,
      R.bind, exp]
  | ddArr _ d2 ih1 ih2 =>
    intro _ o ho
    exact ih1 trivial _ (arr_loop (arr_expr d2 (ih2 (by simp [Fol, lev]))) ho)
  | ddArrSQ _ d2 d3 ih1 ih2 ih3 =>
    intro _ o ho
    have hs : (qHd _ && sHd _) = true := start d2
    have hq := (Bool.and_eq_true_iff.mp hs).1
    refine ih1 trivial _ (arr_loop
      (ev2 ((ih2 trivial).quals (eHd_qHd (e_and (start d3)))) (ih3 (by simp [Fol, lev])) fun f a b => ?_) ho)
    simp [step, hd_cons, vla_static, hq, a, b, R.bind, exp]
  | ddArrQS _ d2 d3 ih1 ih2 ih3 =>
    intro _ o ho
    refine ih1 trivial _ (arr_loop (ev2 ((ih2 trivial).quals rfl) (ih3 (by simp [Fol, lev])) fun f a b => ?_) ho)
    simp [step, nhd d2 .rbrack (fun _ => rfl), tq_vla d2, nhd d2 .static (fun _ => rfl), hd_cons, vla_rbrack, vla_static, vla_star, a, b,
      R.bind, exp]
  | ddArrQStar _ d2 ih1 ih2 =>
    intro _ o ho
    refine ih1 trivial _ (arr_loop (ev1 ((ih2 trivial).quals rfl) fun f a => ?_) ho)
    simp [step, nhd d2 .rbrack (fun _ => rfl), tq_vla d2, nhd d2 .static (fun _ => rfl), hd_cons, vla_rbrack, vla_static, vla_star, a,
      R.bind, exp]
  | ddArrStar _ ih => exact fun _ o ho => ih trivial _ (arr_loop (ev0 fun f => rfl) ho)
  | ddArr0 _ ih => exact fun _ o ho => ih trivial _ (arr_loop (ev0 fun f => rfl) ho)
  | ddFn _ d ih1 ih2 =>
    intro _ o ho
    have hs : sHd _ = true := start d
    have hi := idHd_sHd' hs
    exact ih1 trivial _ (ev2 (ih2 (by simp [Fol, hd_cons])) ho fun f a b => by
      simp [step, hd_cons, nhd d .rparen (fun _ => rfl), hi, a, b, R.bind, exp])
  | ddFnIds _ d ih1 ih2 =>
    intro _ o ho
    obtain ⟨ts, rfl, h⟩ := ih2 trivial
    have hs : idHd _ = true := start d
    refine ih1 trivial _ (ev2 (h (.ok (.chain ts) false _) (ev0 fun f => by simp [step, hd_cons]; rfl)) ho fun f a b => ?_)
    simp [step, hd_cons, nhd d .rparen (fun _ => rfl), hs, a, b, R.bind, exp]
  | ddFn0 _ ih => exact fun _ o ho => ih trivial _ (ev1 ho fun f a => by simp [step, hd_cons, a])
  -- pointers
  | ptr =>
    intro hf
    exact ev1 (quals_stop (ts := []) hf.2) fun f a => by simp [step, hd_cons, exp, a, R.bind, hf.1, mkChain]
  | ptrQ _ ih =>
    intro hf
    exact ev1 ((ih trivial).quals hf.2) fun f a => by simp [step, hd_cons, exp, a, R.bind, hf.1]
  | ptrP d ih =>
    intro hf
    have hs : hd .star _ = true := start d
    exact ev2 (quals_stop (ts := []) (hd_qHd hs fun _ => rfl)) (ih hf) fun f a b => by
      simp [step, hd_cons, exp, a, b, R.bind, hs, mkChain]
  | ptrQP _ d ih1 ih2 =>
    intro hf
    have hs : hd .star _ = true := start d
    exact ev2 ((ih1 trivial).quals (hd_qHd hs fun _ => rfl)) (ih2 hf) fun f a b => by
      simp [step, hd_cons, exp, a, b, R.bind, hs]
  | tqOne _ ih =>
    intro _
    obtain ⟨_, h, rfl⟩ := ih trivial
    exact ⟨_, rfl, rfl, fun o ho => ev1 ho fun f a => by simp [step, h, a]⟩
  | tqMore _ _ ih1 ih2 =>
    intro _
    obtain ⟨ts, e, _, h⟩ := ih1 trivial
    cases e
    obtain ⟨_, h2, rfl⟩ := ih2 trivial
    exact ⟨_, rfl, mkChain_snoc _ _, fun o ho => h _ (ev1 ho fun f a => by simp [step, h2, a])⟩
  -- parameters
  | ptlList _ ih =>
    intro hf
    obtain ⟨ts, rfl, h⟩ := ih (hf.elim Or.inl fun h => Or.inr (Or.inr h))
    have hc : hd .comma _ = false := hd_of_sep (k1 := .rparen) (k2 := .rparen) (hf.elim Or.inl fun h => Or.inr (Or.inr h)) rfl rfl
    exact h _ (ev0 fun f => by simp [step, hc])
  | ptlVar _ ih =>
    intro hf
    obtain ⟨ts, e, h⟩ := ih (by simp [Fol, hd_cons])
    cases e
    exact h _ (ev0 fun f => by simp [step, hd_cons])
  | plOne _ ih => exact fun hf => ⟨_, rfl, fun o ho => ev2 (ih hf) ho fun f a b => by simp [step, a, b, R.bind]⟩
  | plMore _ d ih1 ih2 =>
    intro hf
    obtain ⟨ts, e, h⟩ := ih1 (by simp [Fol, hd_cons])
    cases e
    exact ⟨_, rfl, fun o ho => h _ (ev2 (ih2 hf) ho fun f a b => by
      simp [step, hd_cons, nhd d .ellipsis (fun _ => rfl), a, b, R.bind])⟩
  | pdDecl _ d ih1 ih2 =>
    intro hf
    exact ev2 ((ih1 (nhd d .lbrace fun _ => rfl)).specs (dHd_sHd (start d)))
      (ih2 (lev_of_sep hf (by decide) (by decide) (by decide))) fun f a b => by simp [step, a, b, R.bind]
  | pdAbs _ d ih1 ih2 =>
    intro hf
    exact ev2 ((ih1 (nhd d .lbrace fun _ => rfl)).specs (abs_sHd d)) (ih2 hf) fun f a b => by simp [step, a, b, R.bind]
  | pdNone _ ih =>
    intro hf
    exact ev2 ((ih (hd_of_sep hf rfl rfl)).specs (sHd_of_sep hf (fun _ => rfl) (fun _ => rfl))) (mdecl_none hf) fun f a b => by
      simp [step, a, b, R.bind]
  | ilOne => exact fun _ => ⟨_, rfl, fun o ho => ev1 ho fun f a => by simp [step, identOf, a]⟩
  | ilMore _ ih =>
    intro _
    obtain ⟨ts, e, h⟩ := ih trivial
    cases e
    exact ⟨_, rfl, fun o ho => h _ (ev1 ho fun f a => by simp [step, hd_cons, identOf, a])⟩
  | tnSpecs _ ih =>
    intro hf
    exact ev2 (Cl.specs (ih (hd_of_sep hf rfl rfl)) (sHd_of_sep hf (fun _ => rfl) (fun _ => rfl))) (mdecl_none hf) fun f a b => by
      simp [step, a, b, R.bind]
  | tnAbs _ d ih1 ih2 =>
    intro hf
    exact ev2 (Cl.specs (ih1 (nhd d .lbrace fun _ => rfl)) (abs_sHd d)) (ih2 hf) fun f a b => by simp [step, a, b, R.bind]
  -- abstract declarators
  | abPtr d ih =>
    intro hf
    exact ev1 (ih ⟨hd_of_sep hf rfl rfl, qHd_of_sep hf (fun _ => rfl) (fun _ => rfl)⟩) fun f a => by
      simp [step, show hd .star _ = true from start d, a, R.bind, dirHd_sep hf]
  | abDirect d ih =>
    intro hf
    exact ev1 (ih trivial _ (dLoop_stop (lev_of_sep hf (by decide) (by decide) (by decide)))) fun f a => by
      simp [step, nhd d .star (fun _ => rfl), a, dirHd_abs d]
  | abBoth d1 d2 ih1 ih2 =>
    intro hf
    have hs : (hd .lparen _ || hd .lbrack _) = true := start d2
    have hq : qHd _ = false := (Bool.or_eq_true _ _ ▸ hs).elim (fun h => hd_qHd h fun _ => rfl) fun h => hd_qHd h fun _ => rfl
    exact ev2 (ih1 ⟨nhd d2 .star (fun _ => rfl), hq⟩)
      (ih2 trivial _ (dLoop_stop (lev_of_sep hf (by decide) (by decide) (by decide)))) fun f a b => by
      simp [step, show hd .star _ = true from start d1, a, b, dirHd_abs d2, R.bind]
  | daParen d ih =>
    intro _ o ho
    exact ev2 (ih (by simp [Fol, hd_cons])) ho fun f a b => by
      simp [step, identOf, hd_cons, exp, nhd d .rparen (fun _ => rfl), abs_sHd d, a, b, R.bind]
  | daArr0 => exact fun _ o ho => arr_direct (ev0 fun f => rfl) ho
  | daArr d ih => exact fun _ o ho => arr_direct (arr_expr d (ih (by simp [Fol, lev]))) ho
  | daMoreArr0 _ ih => exact fun _ o ho => ih trivial _ (arr_loop (ev0 fun f => rfl) ho)
  | daMoreArr _ d ih1 ih2 => exact fun _ o ho => ih1 trivial _ (arr_loop (arr_expr d (ih2 (by simp [Fol, lev]))) ho)
  | daStar => exact fun _ o ho => arr_direct (ev0 fun f => rfl) ho
  | daMoreStar _ ih => exact fun _ o ho => ih trivial _ (arr_loop (ev0 fun f => rfl) ho)
  | daFn0 => exact fun _ o ho => ev1 ho fun f a => by simp [step, identOf, hd_cons, exp, a]
  | daFn d ih =>
    intro _ o ho
    exact ev2 (ih (by simp [Fol, hd_cons])) ho fun f a b => by
      simp [step, identOf, hd_cons, exp, nhd d .rparen (fun _ => rfl), show sHd _ = true from start d, a, b, R.bind]
  | daMoreFn0 _ ih => exact fun _ o ho => ih trivial _ (ev1 ho fun f a => by simp [step, hd_cons, a])
  | daMoreFn _ d ih1 ih2 =>
    intro _ o ho
    exact ih1 trivial _ (ev2 (ih2 (by simp [Fol, hd_cons])) ho fun f a b => by
      simp [step, hd_cons, nhd d .rparen (fun _ => rfl), idHd_sHd' (start d), a, b, R.bind, exp])
  -- initializers
  | inExpr d ih =>
    intro hf
    exact ev1 (ih hf) fun f a => by simp [step, nhd d .lbrace (fun _ => rfl), a]
  | inList _ ih =>
    intro _
    obtain ⟨ts, rfl, h⟩ := ih (by simp [Fol, lev])
    exact ev1 (h (.ok (.chain ts) false _) (ev0 fun f => by simp [step, hd_cons]; rfl)) fun f a => by
      simp [step, hd_cons, a, R.bind, exp]
  | inListC _ ih =>
    intro _
    obtain ⟨ts, rfl, h⟩ := ih (by simp [Fol, lev])
    exact ev1 (h (.ok (.chain ts) false _) (ev0 fun f => by simp [step, hd_cons]; rfl)) fun f a => by
      simp [step, hd_cons, a, R.bind, exp]
  | ilInit d ih =>
    intro hf
    exact ⟨_, rfl, fun o ho => ev2 (initItem_init d (ih hf)) ho fun f a b => by simp [step, a, b, R.bind]⟩
  | ilDesig d _ ih1 ih2 =>
    intro hf
    exact ⟨_, rfl, fun o ho => ev2 (initItem_desig d (ih1 trivial) (ih2 hf)) ho fun f a b => by simp [step, a, b, R.bind]⟩
  | ilMoreInit _ d ih1 ih2 =>
    intro hf
    obtain ⟨ts, e, h⟩ := ih1 (by simp [Fol, lev])
    cases e
    exact ⟨_, rfl, fun o ho => h _ (ev2 (initItem_init d (ih2 hf)) ho fun f a b => by
      simp [step, hd_cons, nhd d .rbrace (fun _ => rfl), a, b, R.bind])⟩
  | ilMoreDesig _ d _ ih1 ih2 ih3 =>
    intro hf
    obtain ⟨ts, e, h⟩ := ih1 (by simp [Fol, lev])
    cases e
    exact ⟨_, rfl, fun o ho => h _ (ev2 (initItem_desig d (ih2 trivial) (ih3 hf)) ho fun f a b => by
      simp [step, hd_cons, nhd d .rbrace (fun _ => rfl), a, b, R.bind])⟩
  | designation _ ih =>
    intro _
    obtain ⟨ts, rfl, h⟩ := ih trivial
    exact h _ (ev0 fun f => by simp [step, hd_cons, exp])
  | dlOne _ ih => exact fun _ => ⟨_, rfl, fun o ho => ih trivial [] o ho⟩
  | dlMore _ _ ih1 ih2 =>
    intro _
    obtain ⟨ts, e, h⟩ := ih1 trivial
    cases e
    exact ⟨_, rfl, fun o ho => h _ (ih2 trivial _ o ho)⟩
  | dgIndex _ ih =>
    intro _ ts o ho
    obtain ⟨u, h⟩ := ih (by simp [Fol, lev])
    exact ev2 h ho fun f a b => by simp [step, hd_cons, a, b, R.bind, exp]
  | dgMember => exact fun _ ts o ho => ev1 ho fun f a => by simp [step, hd_cons, identOf, a]
  -- statements
  | esEmpty => exact fun _ => ev0 fun f => by simp [step, hd_cons]
  | esExpr d ih =>
    intro _
    exact ev1 ((ih (by simp [Fol, lev])).expr (by simp [lev])) fun f a => by
      simp [step, nhd d .semi (fun _ => rfl), a, R.bind, exp, hd_cons]
  | rsExpr d ih =>
    intro _
    exact ev1 (ih trivial) fun f a => by
      rw [replStmt_step (exprStmt_pre d), nhd d .question (fun _ => rfl), exprStmt_sHd d]
      simpa using a
  | rsDecl d ih =>
    intro _
    have hs : sHd _ = true := start d
    exact ev1 (ih trivial) fun f a => by
      rw [replStmt_step (sHd_pre hs), nhd d .question (fun _ => rfl), hs]
      simpa using a
  | rsInc => exact fun _ => ev0 fun f => rfl
  | rsInspect => exact fun _ => ev0 fun f => rfl
  | ruOne d ih =>
    intro _
    have hs := start d
    simp only [st, Bool.not_eq_true'] at hs
    exact ⟨_, rfl, fun o ho => ev2 (ih trivial) ho fun f a b => by simp [step, hs, a, b, R.bind]⟩
  | ruMore _ d ih1 ih2 =>
    intro _
    have hs := start d
    simp only [st, Bool.not_eq_true'] at hs
    obtain ⟨ts, e, h⟩ := ih1 trivial
    cases e
    exact ⟨_, rfl, fun o ho => h _ (ev2 (ih2 trivial) ho fun f a b => by simp [step, hs, a, b, R.bind])⟩
  | sExpr d ih =>
    intro _
    exact ev1 (ih trivial) fun f a => by
      simp [step, nhd d .lbrace (fun _ => rfl), nhd d .repl (fun _ => rfl), nhd d .if_ (fun _ => rfl),
        nhd d .while_ (fun _ => rfl), nhd d .for_ (fun _ => rfl), nhd d .break_ (fun _ => rfl), nhd d .return_ (fun _ => rfl), a]
  | sComp d ih => exact fun _ => ev1 (ih trivial) fun f a => by simp [step, show hd .lbrace _ = true from start d, a]
  | sSel _ ih => exact ih
  | sIter _ ih => exact ih
  | sJump _ ih => exact ih
  | sRepl => exact fun _ => ev0 fun f => by simp [step, hd_cons, exp]
  | csEmpty => exact fun _ => ev0 fun f => by simp [step, hd_cons, exp]
  | csItems d ih =>
    intro _
    obtain ⟨ts, rfl, h⟩ := ih trivial
    exact ev1 (h (.ok (.chain ts) false _) (ev0 fun f => by simp [step, hd_cons]; rfl)) fun f a => by
      simp [step, hd_cons, exp, nhd d .rbrace (fun _ => rfl), a, R.bind]
  | biOne d ih =>
    exact fun _ => ⟨_, rfl, fun o ho => ev2 (ih trivial) ho fun f a b => by
      simp [step, a, b, R.bind, nhd d .rbrace (fun _ => rfl)]⟩
  | biMore _ d ih1 ih2 =>
    intro _
    obtain ⟨ts, e, h⟩ := ih1 trivial
    cases e
    exact ⟨_, rfl, fun o ho => h _ (ev2 (ih2 trivial) ho fun f a b => by
      simp [step, a, b, R.bind, nhd d .rbrace (fun _ => rfl)])⟩
  | biDecl d ih => exact fun _ => ev1 (ih trivial) fun f a => by simp [step, show sHd _ = true from start d, a]
  | biStmt d ih => exact fun _ => ev1 (ih trivial) fun f a => by simp [step, stHd_sHd (start d), a]
  | slIf _ _ hn ih1 ih2 =>
    intro _
    exact ev2 ((ih1 (by simp [Fol, lev])).expr (by simp [lev])) (ih2 trivial) fun f a b => by
      simp [step, hd_cons, exp, a, b, R.bind, hd_else hn]
  | slElse _ _ _ ih1 ih2 ih3 =>
    intro _
    exact ev3 ((ih1 (by simp [Fol, lev])).expr (by simp [lev])) (ih2 trivial) (ih3 trivial) fun f a b c => by
      simp [step, hd_cons, exp, a, b, c, R.bind]
  | itWhile _ _ ih1 ih2 =>
    intro _
    exact ev2 ((ih1 (by simp [Fol, lev])).expr (by simp [lev])) (ih2 trivial) fun f a b => by
      simp [step, hd_cons, exp, a, b, R.bind]
  | itFor2 d _ _ ih1 ih2 ih3 =>
    intro _
    exact ev3 (ih1 trivial) (ih2 trivial) (ih3 trivial) fun f a b c => by
      simp [step, hd_cons, exp, a, b, c, R.bind, exprStmt_sHd d]
  | itFor3 d _ d3 _ ih1 ih2 ih3 ih4 =>
    intro _
    exact ev4 (ih1 trivial) (ih2 trivial) ((ih3 (by simp [Fol, lev])).expr (by simp [lev])) (ih4 trivial) fun f a b c e => by
      simp [step, hd_cons, exp, a, b, c, e, R.bind, exprStmt_sHd d, nhd d3 .rparen (fun _ => rfl)]
  | itForD2 d _ _ ih1 ih2 ih3 =>
    intro _
    exact ev3 (ih1 trivial) (ih2 trivial) (ih3 trivial) fun f a b c => by
      simp [step, hd_cons, exp, a, b, c, R.bind, show sHd _ = true from start d]
  | itForD3 d _ d3 _ ih1 ih2 ih3 ih4 =>
    intro _
    exact ev4 (ih1 trivial) (ih2 trivial) ((ih3 (by simp [Fol, lev])).expr (by simp [lev])) (ih4 trivial) fun f a b c e => by
      simp [step, hd_cons, exp, a, b, c, e, R.bind, show sHd _ = true from start d, nhd d3 .rparen (fun _ => rfl)]
  | jBreak => exact fun _ => ev0 fun f => by simp [step, hd_cons, exp]
  | jReturn0 => exact fun _ => ev0 fun f => by simp [step, hd_cons]
  | jReturn d ih =>
    intro _
    exact ev1 ((ih (by simp [Fol, lev])).expr (by simp [lev])) fun f a => by
      simp [step, hd_cons, exp, a, R.bind, nhd d .semi (fun _ => rfl)]
  -- external declarations
  | xFn _ ih => exact ih
  | xDecl _ ih => exact ih
  | fdOld _ d2 d3 d4 hs ih1 ih2 ih3 ih4 =>
    intro _
    have h3 : sHd _ = true := start d3
    have h4 : hd .lbrace _ = true := start d4
    obtain ⟨ts, rfl, h⟩ := ih3 trivial
    have hl := sHd_lev h3
    refine ev4 ((ih1 (nhd d2 .lbrace fun _ => rfl)).specs (dHd_sHd (start d2)))
      (initDecl_plain (ih2 (by simp only [Fol, hl]; decide)) (by rw [hl]; decide))
      (h _ (declList_stop h4)) (ih4 trivial) fun f a b c e => ?_
    simp [step, a, b, c, e, R.bind, nhd d2 .semi (fun _ => rfl), h3, hs]
  | fdNew _ d2 d4 hs ih1 ih2 ih4 =>
    intro _
    have h4 : hd .lbrace _ = true := start d4
    have hl : lev _ = 100 := lev_lbrace h4
    refine ev4 ((ih1 (nhd d2 .lbrace fun _ => rfl)).specs (dHd_sHd (start d2)))
      (initDecl_plain (ih2 (by simp only [Fol, hl]; decide)) (by rw [hl]; decide))
      (declList_stop (ts := []) h4) (ih4 trivial) fun f a b c e => ?_
    simp [step, a, b, c, e, R.bind, nhd d2 .semi (fun _ => rfl), h4, hs]
  | dllOne d ih =>
    exact fun _ => ⟨_, rfl, fun o ho => ev2 (ih trivial) ho fun f a b => by
      simp [step, a, b, R.bind, nhd d .lbrace (fun _ => rfl)]⟩
  | dllMore _ d ih1 ih2 =>
    intro _
    obtain ⟨ts, e, h⟩ := ih1 trivial
    cases e
    exact ⟨_, rfl, fun o ho => h _ (ev2 (ih2 trivial) ho fun f a b => by
      simp [step, a, b, R.bind, nhd d .lbrace (fun _ => rfl)])⟩
  | cxExt d ih => exact fun _ => ev1 (ih trivial) fun f a => by simp [step, show sHd _ = true from start d, a]
  | cxStmt d ih => exact fun _ => ev1 (ih trivial) fun f a => by simp [step, stHd_sHd (start d), a]
  | cuOne d ih =>
    intro _
    have hs := item_ne_nil (start d)
    exact ⟨_, rfl, fun o ho => ev2 (ih trivial) ho fun f a b => by simp [step, hs, a, b, R.bind]⟩
  | cuMore _ d ih1 ih2 =>
    intro _
    have hs := item_ne_nil (start d)
    obtain ⟨ts, e, h⟩ := ih1 trivial
    cases e
    exact ⟨_, rfl, fun o ho => h _ (ev2 (ih2 trivial) ho fun f a b => by simp [step, hs, a, b, R.bind])⟩

end Bic.Parser
