import Verif.Proofs.ParseFn
/-!
# How the phrases of the grammar begin
-/

namespace Bic.Parser

/-- a declarator begins -/
def dHd (i : List T) : Bool := idHd i || hd .lparen i || hd .star i

/-- a statement begins -/
def stHd (i : List T) : Bool :=
  eHd i || hd .semi i || hd .lbrace i || hd .if_ i || hd .while_ i || hd .for_ i || hd .break_ i || hd .return_ i || hd .repl i

/-- `*` is followed by an expression -/
def starOk (i : List T) : Bool := !hd .star i || eHd i.tail

/-- a primary expression begins -/
def pHd : List T → Bool
  | .ident _ :: _ | .integer _ :: _ | .floatCst _ :: _ | .string _ :: _ => true
  | .p .lparen :: _ => true
  | _ => false

/-- how the phrases begin -/
def st : N → List T → Bool
  | .primary, i | .postfix, i => eHd i && !castHd i && starOk i && pHd i
  | .unary, i => eHd i && !castHd i && starOk i
  | .argList, i | .bin _, i | .cond, i | .constant, i | .assignment, i | .expression, i => eHd i && starOk i
  | .declaration, i | .declSpecs, i | .declSpec, i | .storage, i | .typeSpecifier, i | .structSpec, i | .structDeclList, i
  | .structDecl, i | .sqList, i | .sq, i | .enumSpec, i | .fnSpec, i | .paramTypeList, i | .paramList, i | .paramDecl, i
  | .typeName, i | .externalDecl, i | .fnDef, i | .declList, i => sHd i
  | .typeQual, i | .tqList, i => qHd i && sHd i
  | .initDeclList, i | .initDecl, i | .declarator, i => dHd i
  | .structDeclrList, i | .structDeclr, i => dHd i || hd .colon i
  | .enumList, i | .enumerator, i | .identList, i => idHd i
  | .directDecl, i => idHd i || hd .lparen i
  | .pointer, i => hd .star i
  | .abstractDecl, i => hd .star i || hd .lparen i || hd .lbrack i
  | .directAbs, i => hd .lparen i || hd .lbrack i
  | .initializer, i => (eHd i || hd .lbrace i)
  | .initList, i => eHd i || hd .lbrace i || hd .lbrack i || hd .dot i
  | .designation, i | .desigList, i | .designator, i => hd .lbrack i || hd .dot i
  | .exprStmt, i => eHd i || hd .semi i
  | .replStmt, i | .replUnit, i => !i.isEmpty
  | .statement, i => stHd i
  | .compoundStmt, i => hd .lbrace i
  | .selection, i => hd .if_ i
  | .iteration, i => hd .while_ i || hd .for_ i
  | .jump, i => hd .break_ i || hd .return_ i
  | .blockItems, i | .blockItem, i | .cscriptDecl, i | .cscriptUnit, i => stHd i || sHd i

theorem hd_cons (k k' r) : hd k (.p k' :: r) = (k' == k) := rfl

theorem eq_of_hd {k i} (h : hd k i = true) : i = .p k :: i.tail := by
  rcases i with _ | ⟨t, i⟩
  · cases h
  · cases t <;> simp_all [hd]

theorem hd_false {k i} (C : List T → Bool) (h : C i = true) (hk : ∀ r, C (.p k :: r) = false) : hd k i = false := by
  rcases e : hd k i with _ | _
  · rfl
  · rw [eq_of_hd e, hk] at h; cases h

theorem eHd_sHd {i} (h : eHd i = true) : sHd i = false := by
  rcases i with _ | ⟨t, i⟩
  · rfl
  · cases t with
    | p k => cases k <;> first | rfl | cases h
    | _ => first | rfl | cases h

theorem idHd_sHd {i} (h : idHd i = true) : sHd i = false := by
  rcases i with _ | ⟨t, i⟩
  · rfl
  · cases t <;> first | rfl | cases h

theorem hd_sHd {k i} (h : hd k i = true) (hk : ∀ r, sHd (.p k :: r) = false) : sHd i = false := by
  rw [eq_of_hd h, hk]

theorem hd_qHd {k i} (h : hd k i = true) (hk : ∀ r, qHd (.p k :: r) = false) : qHd i = false := by
  rw [eq_of_hd h, hk]

theorem sHd_hd {k i} (h : sHd i = true) (hk : ∀ r, sHd (.p k :: r) = false) : hd k i = false := hd_false sHd h hk

theorem dHd_sHd {i} (h : dHd i = true) : sHd i = false := by
  simp only [dHd, Bool.or_eq_true] at h
  rcases h with (h | h) | h
  · exact idHd_sHd h
  · exact hd_sHd h fun _ => rfl
  · exact hd_sHd h fun _ => rfl

theorem stHd_sHd {i} (h : stHd i = true) : sHd i = false := by
  simp only [stHd, Bool.or_eq_true] at h
  rcases h with (((((((h | h) | h) | h) | h) | h) | h) | h) | h
  · exact eHd_sHd h
  all_goals exact hd_sHd h fun _ => rfl

theorem idHd_qHd {i} (h : idHd i = true) : qHd i = false := by
  rcases i with _ | ⟨t, i⟩
  · rfl
  · cases t <;> first | rfl | cases h

theorem eHd_qHd {i} (h : eHd i = true) : qHd i = false := by
  rcases i with _ | ⟨t, i⟩
  · rfl
  · cases t with
    | p k => cases k <;> first | rfl | cases h
    | _ => first | rfl | cases h

theorem unary_eHd {k f r} (h : unaryAction k = some f) : eHd (.p k :: r) = true ∧ hd .lparen (.p k :: r) = false := by
  cases k <;> first | exact ⟨rfl, rfl⟩ | cases h

theorem storage_sHd {k w r} (h : storageAction k = some w) : sHd (.p k :: r) = true := by simp [sHd, h]
theorem type_sHd {k w r} (h : typeAction k = some w) : sHd (.p k :: r) = true := by simp [sHd, h]
theorem qual_sHd {k w r} (h : qualAction k = some w) : sHd (.p k :: r) = true := by simp [sHd, h]
theorem struct_sHd {k w r} (h : structAction k = some w) : sHd (.p k :: r) = true := by simp [sHd, h]

theorem ne_nil_of_eHd {i} (h : eHd i = true) : i.isEmpty = false := by cases i <;> simp_all [eHd]
theorem ne_nil_of_sHd {i} (h : sHd i = true) : i.isEmpty = false := by cases i <;> simp_all [sHd]
theorem ne_nil_of_hd {k i} (h : hd k i = true) : i.isEmpty = false := by cases i <;> simp_all [hd]

theorem pHd_unOf {i} (h : pHd i = true) : unOf i = none := by
  rcases i with _ | ⟨t, i⟩
  · rfl
  · cases t with
    | p k => cases k <;> first | rfl | cases h
    | _ => rfl

theorem start {n i t r} (h : Der n i t r) : st n i = true := by
  induction h with
  | pParen _ ih =>
    simp only [st, Bool.and_eq_true] at ih ⊢
    refine ⟨⟨⟨rfl, ?_⟩, rfl⟩, rfl⟩
    simp [castHd, eHd_sHd ih.1]
  | uOp h _ ih =>
    simp only [st, Bool.and_eq_true] at ih ⊢
    refine ⟨⟨(unary_eHd h).1, by simp [castHd, (unary_eHd h).2]⟩, ?_⟩
    simp [starOk, ih.1.1]
  | @storage k w r h => exact storage_sHd (r := r) h
  | typeKw h => simp [st, sHd, h]
  | stFull h => simp [st, sHd, h]
  | stAnon h => simp [st, sHd, h]
  | stRef h => simp [st, sHd, h]
  | qual h => simp [st, qual_sHd h, qHd, h]
  | dPtr _ _ ih => simp only [st, dHd] at ih ⊢; simp [ih]
  | rsExpr _ ih =>
    simp only [st, Bool.or_eq_true] at ih ⊢
    rcases ih with ih | ih
    · simp [ne_nil_of_eHd ih]
    · simp [ne_nil_of_hd ih]
  | rsDecl _ ih => simp only [st] at ih ⊢; simp [ne_nil_of_sHd ih]
  | _ => first
    | rfl
    | (simp only [st, Bool.and_eq_true, Bool.or_eq_true, dHd, stHd] at *; first | done | (simp_all; done) | grind)

end Bic.Parser
