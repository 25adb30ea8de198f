import Verif.Proofs.Source
import Verif.Props.Grammar
import Verif.Props.Prog
import Verif.Props.Expr
/-!
# From source to result: expressions (C78) and programs (C79)

`WE` and `Src` (Spec.Source) say how C writes expressions and programs; `Der` is the grammar with its
actions; `Rep` says that a tree lies in the heap.  `Val` and `Run` are the specifications of C01 and
C34.
-/

namespace Bic
open Spec CSyn
open Bic.Parser (T K PT Der Rep lev nameStr)

/-! ## C78 -/

/-- C78: an integer expression as C writes it is accepted and has the value C gives it -/
def C78_statement : Prop :=
  ∀ (E : Env) (s : St) (TN : List T → PT → List T → Prop) (e : Expr) (v : Int) (i r : List T), WF s → lev r = 100 →
    WE cTable TN 1 e i r → CVal (VarC s) e v →
    (∃ t, Der .expression i t r) ∧ ∀ t x, Der .expression i t r → Rep s.nodes (.t t (some x)) → EvalsTo E s x v

/-- C78 for the operators and values bic gets right (`okOp`, `okTruth` of C01): the tokens are
accepted, and evaluating the objects of their tree yields the value.  Missing: `/`, `%` and shifts
where C01 fails. -/
theorem C78_value_partial {E : Env} {s : St} {TN : List T → PT → List T → Prop} {e : Expr} {v : Int} {i r : List T}
    (hs : WF s) (hr : lev r = 100) (hw : WE cTable TN 1 e i r) (hv : Val okOp okTruth (VarIs s) e v) :
    (∃ t, Der .expression i t r) ∧ ∀ t x, Der .expression i t r → Rep s.nodes (.t t (some x)) → EvalsTo E s x v := by
  obtain ⟨t, ht, h⟩ := Parser.we_der hw
  refine ⟨⟨t, ht⟩, fun t' x ht' hx => ?_⟩
  obtain rfl := C73_expr hr ht ht'
  obtain ⟨u, hu, he⟩ := h hx
  cases hu
  exact C01_expressions_partial E s e v x hs hv he

/-- the objects of `-7 >> 1` -/
def stShr' : St := stOf [.integer (-7), .integer 1, .bin .rshift (some 0) (some 1), .chain [2], .exprList (some 3)] [] []

/-- the tokens of `-7 >> 1`, which the lexer reads with the sign in the constant -/
def toksShr : List T := [.integer (-7), .p .shr, .integer 1]

theorem shr_we : WE cTable (fun _ _ _ => False) 1 (.bin .shr (.lit (-7)) (.lit 1)) toksShr [] :=
  ⟨.bin .shr (.int (-7)) (.int 1), .bin (o := .shr) (by decide) .int .int, .bin rfl .int .int⟩

theorem shr_der : Der .expression toksShr (.exprList (.chain [.bin .rshift (.integer (-7)) (.integer 1)])) [] :=
  .exOne (.asCond (.cdBase (Parser.nt_down (p := 4) (q := 11)
    (.bOp (l := 2) (k := .shr) (Parser.nt_down (p := 11) (q := 17) .pInt (by omega) (by omega)) rfl
      (Parser.nt_down (p := 12) (q := 17) .pInt (by omega) (by omega))) (by omega) (by omega))))

theorem shr_rep : Rep stShr'.nodes (.t (.exprList (.chain [.bin .rshift (.integer (-7)) (.integer 1)])) (some 4)) :=
  .exprList (x := some 3) rfl (.chain (ls := [2]) rfl
    (.cons (.bin (x := some 0) (y := some 1) rfl (.integer rfl) (.integer rfl)) .nil))

/-- C78 fails where C01 does: `-7 >> 1` gives -3 -/
theorem C78_refuted : ¬ C78_statement := by
  intro h
  have h1 := (h E0 stShr' (fun _ _ _ => False) _ (-4) toksShr [] (stOf_WF _ _ _) rfl shr_we
    (.bin (.lit _) (.lit _) ⟨1, rfl, by decide⟩)).2 _ 4 shr_der shr_rep
  exact absurd (h1.computed (w := -3) 12 (by decide)) (by decide)

/-! ## C79 -/

/-- C79: a script of assignments, declarations and control statements on integers, as C writes it,
is accepted, and evaluating it (cscript.c:185) leaves the variables with the values C gives them -/
def C79_statement : Prop :=
  ∀ (E : Env) (s : St) (TN : List T → PT → List T → Prop) (σ σ' : Store) (p : Spec.Stmt) (i : List T) (n : Nat), Sane s →
    Good s σ n → Src cTable TN .items p i [] → Run cRules σ p .next σ' n →
    (∃ t, Der .cscriptUnit i t []) ∧ ∀ t x, Der .cscriptUnit i t [] → Rep s.nodes (.t t (some x)) →
      ∃ s', Runs E s (.body (some x)) s' ∧ Rel s' σ'

/-- C79 for the programs of `C34_programs_partial`; the final store is the only one possible.
Missing: what is missing there. -/
theorem C79_script_partial {E : Env} {s : St} {TN : List T → PT → List T → Prop} {σ σ' : Store} {p : Spec.Stmt} {i : List T}
    {n : Nat} (hs : Sane s) (g : Good s σ n) (hw : Src cTable TN .items p i []) (hrun : Run okRules σ p .next σ' n) :
    (∃ t, Der .cscriptUnit i t []) ∧ ∀ t x, Der .cscriptUnit i t [] → Rep s.nodes (.t t (some x)) →
      (∃ s', Runs E s (.body (some x)) s' ∧ Rel s' σ') ∧ ∀ s', Runs E s (.body (some x)) s' → Rel s' σ' := by
  obtain ⟨ts, h1, h2⟩ := Parser.src_der hw
  have hd := Parser.chunk_script h1
  refine ⟨⟨_, hd⟩, fun t' x ht' hx => ?_⟩
  obtain rfl := C73_script hd ht'
  cases hx with
  | chain h3 h4 =>
    have hr : SRep s.nodes (.body (some x)) p := .braces h3 (h2 h4)
    obtain ⟨s', h5, h6, _⟩ := C34_programs_partial (E := E) hs g hr hrun
    exact ⟨⟨s', h5, h6⟩, fun s' h => C34_only_partial hs g hr hrun h⟩

/-- the same for a statement wherever it stands, for instance in the body of a function: the tokens
that follow do not matter -/
theorem C79_statement_partial {E : Env} {s : St} {TN : List T → PT → List T → Prop} {σ σ' : Store} {p : Spec.Stmt}
    {i r : List T} {n : Nat} (hs : Sane s) (g : Good s σ n) (hw : Src cTable TN .stmt p i r)
    (hrun : Run okRules σ p .next σ' n) :
    (∃ t, Der .statement i t r) ∧ ∀ t r' x, Der .statement i t r' → Rep s.nodes (.t t (some x)) →
      r' = r ∧ (∃ s', Runs E s (.stmt x) s' ∧ Rel s' σ') ∧ ∀ s', Runs E s (.stmt x) s' → Rel s' σ' := by
  obtain ⟨t, hd, h2⟩ := Parser.src_der hw
  refine ⟨⟨_, hd⟩, fun t' r' x ht' hx => ?_⟩
  obtain ⟨rfl, rfl⟩ := C73_stmt hd ht'
  obtain ⟨u, k, hu, hr, _⟩ := h2 hx
  cases hu
  obtain ⟨s', h5, h6, _⟩ := C34_programs_partial (E := E) hs g hr hrun
  exact ⟨rfl, ⟨s', h5, h6⟩, fun s' h => C34_only_partial hs g hr hrun h⟩

/-! ### Examples: `x = 2; while (x) { int y = x; x--; }` and `x = -7 / 2;` -/

/-- the tokens of the first -/
def toks79 : List T :=
  [.ident [120], .p .assign, .integer 2, .p .semi, .p .while_, .p .lparen, .ident [120], .p .rparen, .p .lbrace, .p .int,
   .ident [121], .p .assign, .ident [120], .p .semi, .ident [120], .p .decr, .p .semi, .p .rbrace]

theorem src79 : Src cTable (fun _ _ _ => False) .items src34 toks79 [] := by
  refine .more (.stmt (.act (.set (s := [120]) ⟨.int 2, .int, .int⟩))) (.last (.stmt ?_))
  refine .whileS (e := .var "x") ⟨.ident [120], .ident, .ident⟩ (.braces (.more (j := [.ident [120], .p .decr, .p .semi, .p .rbrace])
    (.decl (ws := [.int]) (.one rfl) ⟨[.int], by decide, by decide⟩ (.one (.init (s := [121]) ⟨.ident [120], .ident, .ident⟩)))
    (.last (.stmt (.act (.pDec (s := [120])))))))

/-- its objects, in a heap where `x` is an `int` -/
def prog79 : List Node :=
  [.ctype .int none, .lv (some 0) 4096 false 0, .ident "x", .integer 2, .assign (some 2) (some 3), .chain [4], .exprList (some 5),
   .ident "x", .chain [7], .exprList (some 8), .kw .int, .chain [10], .ident "y", .ident "x", .assign (some 12) (some 13),
   .chain [14], .decl (some 11) (some 15) 0, .ident "x", .pDec (some 17), .chain [18], .exprList (some 19), .chain [16, 20],
   .whileS (some 9) (some 21), .chain [6, 22]]

def st79 : St := stOf prog79 [⟨"x", 2, some 1⟩] (List.replicate 8 0)

/-- its tree -/
def tree79 : PT :=
  .chain [.exprList (.chain [.assign (.ident [120]) (.integer 2)]),
    .whileS (.exprList (.chain [.ident [120]]))
      (.chain [.decl (.chain [.kw .int]) (.chain [.assign (.ident [121]) (.ident [120])]),
        .exprList (.chain [.pDec (.ident [120])])])]

theorem rep79 : Rep st79.nodes (.t tree79 (some 23)) := by
  refine .chain (ls := [6, 22]) rfl (.cons (.exprList (x := some 5) rfl (.chain (ls := [4]) rfl (.cons (.assign (x := some 2)
    (y := some 3) rfl (.ident rfl) (.integer rfl)) .nil))) (.cons (.whileS (x := some 9) (y := some 21) rfl ?_ ?_) .nil))
  · exact .exprList (x := some 8) rfl (.chain (ls := [7]) rfl (.cons (.ident rfl) .nil))
  · refine .chain (ls := [16, 20]) rfl (.cons (.decl (x := some 11) (y := some 15) rfl (.chain (ls := [10]) rfl
      (.cons (.kw rfl) .nil)) (.chain (ls := [14]) rfl (.cons (.assign (x := some 12) (y := some 13) rfl (.ident rfl)
      (.ident rfl)) .nil))) (.cons (.exprList (x := some 19) rfl (.chain (ls := [18]) rfl (.cons (.pDec (x := some 17) rfl
      (.ident rfl)) .nil))) .nil))

theorem der79 : Der .cscriptUnit toks79 tree79 [] := by
  have id : ∀ s r, Der .assignment (.ident s :: r) (.ident s) r := fun s r =>
    Parser.nt_down (p := 2) (q := 17) .pIdent (by omega) (by omega)
  have un : ∀ s r, Der .unary (.ident s :: r) (.ident s) r := fun s r => .uPostfix (.poPrimary .pIdent)
  have h1 : Der .statement toks79 _ _ := .sExpr (.esExpr (.exOne (.asOp (k := .assign) (f := fun l r => .assign l r)
    (un [120] _) rfl (Parser.nt_down (p := 2) (q := 17) .pInt (by omega) (by omega)))))
  refine .cuMore (ts := [_]) (.cuOne (.cxStmt h1)) (.cxStmt (.sIter (.itWhile (.exOne (id _ _)) (.sComp (.csItems ?_)))))
  refine .biMore (ts := [_]) (.biOne (.biDecl (.dcDecl (.dsOne (.dsType (.typeKw rfl))) (.idlOne (.idInit
    (.dDirect .ddIdent) (.inExpr (id _ _))))))) (.biStmt (.sExpr (.esExpr (.exOne ?_))))
  exact Parser.nt_down (p := 2) (q := 16) (.poDec (.poPrimary .pIdent)) (by omega) (by omega)

example : (∃ s', Runs E0 st79 (.body (some 23)) s' ∧ Rel s' (store34 (some 0))) ∧
    ∀ s', Runs E0 st79 (.body (some 23)) s' → Rel s' (store34 (some 0)) :=
  (C79_script_partial (stOf_Sane _ _ _) (good34 2 (by omega) none (by simp) prog79 rfl rfl) src79 run34).2 _ 23 der79 rep79

/-- the tokens of `x = -7 / 2;` -/
def toksDiv : List T := [.ident [120], .p .assign, .integer (-7), .p .slash, .integer 2, .p .semi]

def div79 : List Node :=
  [.ctype .int none, .lv (some 0) 4096 false 0, .ident "x", .integer (-7), .integer 2, .bin .div (some 3) (some 4),
   .assign (some 2) (some 5), .chain [6], .exprList (some 7), .chain [8]]

theorem divDer : Der .cscriptUnit toksDiv
    (.chain [.exprList (.chain [.assign (.ident [120]) (.bin .div (.integer (-7)) (.integer 2))])]) [] := by
  refine .cuOne (.cxStmt (.sExpr (.esExpr (.exOne (.asOp (k := .assign) (f := fun l r => .assign l r)
    (.uPostfix (.poPrimary .pIdent)) rfl ?_)))))
  exact Parser.nt_down (p := 2) (q := 13) (.bOp (l := 0) (k := .slash) (Parser.nt_down (p := 13) (q := 17) .pInt (by omega) (by omega)) rfl
    (.cUnary (.uPostfix (.poPrimary .pInt)))) (by omega) (by omega)

def stDiv79 : St := stOf div79 [⟨"x", 2, some 1⟩] (List.replicate 8 0)

/-- the state after the assignment -/
def stDiv79' : St := outSt stDiv79 ((run E0 30).ev (some 8) stDiv79)

theorem div_runs : Runs E0 stDiv79 (.body (some 9)) stDiv79' := by
  have h : Conv E0 (fun R => R.ev (some 8)) stDiv79 (.ok (some 10) stDiv79') := by
    have h1 : outRef ((run E0 30).ev (some 8) stDiv79) = some 10 := by decide +kernel
    rw [← h1]
    exact Conv.computed 30 (by decide +kernel)
  show Conv E0 (fun R => evaluate R (some 9)) stDiv79 _
  refine Conv.of_eq (f := fun R => evalElems R [8]) (s := stDiv79) ?_ fun R => rfl
  refine Conv.bind h (Conv.fixed fun R => ?_)
  have h2 : stDiv79'.nodes 10 = some (.integer (-4)) := by decide +kernel
  simp [peek_apply h2, evalElems]

/-- C79 fails where C34 does -/
theorem C79_refuted : ¬ C79_statement := by
  intro h
  have hs : Sane (stOf div79 [⟨"x", 2, some 1⟩] (List.replicate 8 0)) := stOf_Sane _ _ _
  obtain ⟨s', h1, as, h2, _⟩ := (h E0 _ (fun _ _ _ => False) (store34 (some 0)) (store34 (some (-3)))
    (.seq (.act (.set "x" (.bin .div (.lit (-7)) (.lit 2)))) .skip) toksDiv 0 hs (good34 0 (by omega) _ (by simp) div79 rfl rfl)
    (.last (.stmt (.act (.set (s := [120]) ⟨.bin .div (.int (-7)) (.int 2), .bin (o := .div) (by decide) .int .int,
      .bin rfl .int .int⟩))))
    (.seq (n := 0) (m := 0) (.act (.set (c := .int) (u := some 0) (v := -3) (w := -3) rfl
      (.bin (.lit _) (.lit _) ⟨-1, by simp [TruncDiv]⟩) trivial (conv_self (by decide)))) .skip)).2 _ 9 divDer
    (.chain (ls := [8]) rfl (.cons (.exprList (x := some 7) rfl (.chain (ls := [6]) rfl (.cons (.assign (x := some 2) (y := some 5)
      rfl (.ident rfl) (.bin (x := some 3) (y := some 4) rfl (.integer rfl) (.integer rfl))) .nil))) .nil))
  have h4 : s' = stDiv79' := by
    have h3 := div_runs
    unfold Runs at h1 h3
    exact (Out.ok.inj (Conv.unique h1 h3)).2
  subst h4
  have hc : (lookups stDiv79').map (·.ids) = [[⟨"x", 2, some 1⟩]] := by decide +kernel
  generalize hl : lookups stDiv79' = cs at h2 hc
  cases h2 with
  | cons h5 _ =>
    simp only [List.map_cons, List.cons.injEq] at hc
    rw [hc.1] at h5
    cases h5 with
    | var h6 _ =>
      obtain ⟨τ, ⟨⟨arr, sz, h8⟩, _⟩⟩ := h6.at_
      have e2 : stDiv79'.nodes 1 = some (.lv (some 0) 4096 false 0) := by decide +kernel
      rw [e2] at h8
      cases h8
      have h7 := h6.val _ rfl
      revert h7
      decide +kernel

end Bic
