import Verif.Proofs.ParseDecl
import Verif.Proofs.ParseMono
/-!
# What the grammar says about programs (C73 – C77)
-/

namespace Bic
open Parser

/-! ## C73: one tree at most -/

/-- C73: the tokens of a script have one tree at most -/
theorem C73_script {i t t'} (h : Der .cscriptUnit i t []) (h' : Der .cscriptUnit i t' []) : t = t' := by
  obtain ⟨ts, rfl, g⟩ := complete h trivial
  obtain ⟨ts', rfl, g'⟩ := complete h' trivial
  have := (g _ (ev0 fun f => rfl)).unique (g' _ (ev0 fun f => rfl))
  cases this
  rfl

/-- C73: the tokens of an input of the REPL have one tree at most -/
theorem C73_repl {i t t'} (h : Der .replUnit i t []) (h' : Der .replUnit i t' []) : t = t' := by
  obtain ⟨ts, rfl, g⟩ := complete h trivial
  obtain ⟨ts', rfl, g'⟩ := complete h' trivial
  have := (g _ (ev0 fun f => rfl)).unique (g' _ (ev0 fun f => rfl))
  cases this
  rfl

/-- C73: wherever a statement begins, its end and its tree are determined -/
theorem C73_stmt {i t t' r r'} (h : Der .statement i t r) (h' : Der .statement i t' r') : t = t' ∧ r = r' := by
  have := Ev.unique (complete h trivial) (complete h' trivial)
  cases this
  exact ⟨rfl, rfl⟩

/-- C73: wherever a declaration begins, its end and its tree are determined -/
theorem C73_decl {i t t' r r'} (h : Der .declaration i t r) (h' : Der .declaration i t' r') : t = t' ∧ r = r' := by
  have := Ev.unique (complete h trivial) (complete h' trivial)
  cases this
  exact ⟨rfl, rfl⟩

/-- C73: an expression before a token that cannot continue it has one tree -/
theorem C73_expr {i t t' r} (hr : lev r = 100) (h : Der .expression i t r) (h' : Der .expression i t' r) : t = t' := by
  have := Ev.unique ((complete h (by simp only [Fol]; omega)).expr (by omega))
    ((complete h' (by simp only [Fol]; omega)).expr (by omega))
  cases this
  rfl

/-- the tokens `- x` -/
def negX : List T := [.p .minus, .ident (Lexer.bytes "x")]

/-- `a - b - c * d` -/
def exSub (r : List T) : List T :=
  .ident (Lexer.bytes "a") :: .p .minus :: .ident (Lexer.bytes "b") :: .p .minus :: .ident (Lexer.bytes "c") :: .p .star ::
    .ident (Lexer.bytes "d") :: r

/-- the tree `(a - b) - c * d` -/
def exSubT : PT :=
  .exprList (.chain [.bin .sub (.bin .sub (.ident (Lexer.bytes "a")) (.ident (Lexer.bytes "b")))
    (.bin .mul (.ident (Lexer.bytes "c")) (.ident (Lexer.bytes "d")))])

/-- beside C73: a derivation -/
theorem exSub_der (r : List T) : Der .expression (exSub r) exSubT r := by
  unfold exSub exSubT
  exact .exOne (nt_down (p := 2) (q := 12) (.bOp (l := 1) (k := .minus)
    (.bOp (l := 1) (k := .minus) (nt_down (p := 12) (q := 17) .pIdent (by omega) (by omega)) rfl
      (nt_down (p := 13) (q := 17) .pIdent (by omega) (by omega))) rfl
    (.bOp (l := 0) (k := .star) (nt_down (p := 13) (q := 17) .pIdent (by omega) (by omega)) rfl
      (nt_down (p := 14) (q := 17) .pIdent (by omega) (by omega)))) (by omega) (by omega))

/-- so every tree of `a - b - c * d` is that one -/
example {t} (h : Der .expression (exSub []) t []) : t = exSubT := C73_expr rfl h (exSub_der [])

/-- C73 for a whole input: `a - b - c * d;` -/
example {t} (h : Der .replUnit (exSub [.p .semi]) t []) : t = .chain [exSubT] :=
  C73_repl h (.ruOne (.rsExpr (.esExpr (exSub_der _))))

/-! ## C74: operators group as in C -/

open CSyn

/-- C74: an expression written as C's table of precedences says is accepted, and each of its trees
stands for that expression -/
def C74_statement : Prop :=
  ∀ e i, Writes cTable TyName (.prec 1) e i [] →
    (∃ t, Der .expression i t []) ∧ ∀ t, Der .expression i t [] → Means t e

/-- there are no signs: `- x` is an expression of C and is rejected -/
theorem C74_refuted : ¬ C74_statement := by
  intro h
  obtain ⟨⟨t, ht⟩, -⟩ := h (.pre .minus (.ident (Lexer.bytes "x"))) negX (.pre (q := 14) (by omega) rfl .ident)
  have := start ht
  cases this

/-- the operand of a prefix operator is no cast: `* ( int * ) p` is rejected -/
theorem C74_no_cast (r : List T) (t : PT) :
    ¬ Der .expression (.p .star :: .p .lparen :: .p .int :: .p .star :: .p .rparen :: .ident (Lexer.bytes "p") :: .p .semi :: r)
      t (.p .semi :: r) := by
  intro h
  have h := (complete h (by simp [Fol, lev])).expr (by simp [lev])
  exact not_der_of_parse (n := 40) rfl h

/-- C74 without signs, and with casts in parentheses below prefix operators: the expressions written
by `bTable` are accepted with exactly the trees that stand for them -/
theorem C74_groups_partial {e i r} (hr : lev r = 100) (h : Writes bTable TyName (.prec 1) e i r) :
    (∃ t, Der .expression i t r) ∧ ∀ t, Der .expression i t r → Means t e := by
  obtain ⟨t, hm, ht⟩ := der_of_writes h
  exact ⟨⟨t, ht⟩, fun t' ht' => C73_expr hr ht ht' ▸ hm⟩

/-- C74, the other direction, without restriction: what is accepted as an expression is an
expression of C and its tree stands for it -/
theorem C74_only {i t r} (h : Der .expression i t r) : ∃ e, Writes cTable TyName (.prec 1) e i r ∧ Means t e := by
  obtain ⟨e, hm, hw⟩ := writes_of_der h
  exact ⟨e, writes_c hw, hm⟩

/-- both directions: `bTable` is exactly what is accepted -/
theorem C74_exactly_partial {i t r} (hr : lev r = 100) :
    Der .expression i t r ↔ ∃ e, Writes bTable TyName (.prec 1) e i r ∧ Means t e ∧ ∀ t', Der .expression i t' r → t' = t := by
  constructor
  · intro h
    obtain ⟨e, hm, hw⟩ := writes_of_der h
    exact ⟨e, hw, hm, fun t' h' => C73_expr hr h' h⟩
  · rintro ⟨e, hw, hm, hu⟩
    obtain ⟨t', hm', ht'⟩ := der_of_writes hw
    exact hu t' ht' ▸ ht'

/-- `x = y = a ? b : c ? d : e` groups to the right -/
example : Writes bTable TyName (.prec 1)
    (.asg .plain (.ident (Lexer.bytes "x")) (.asg .plain (.ident (Lexer.bytes "y"))
      (.cond (.ident (Lexer.bytes "a")) (.ident (Lexer.bytes "b")) (.cond (.ident (Lexer.bytes "c")) (.ident (Lexer.bytes "d")) (.ident (Lexer.bytes "e"))))))
    [.ident (Lexer.bytes "x"), .p .assign, .ident (Lexer.bytes "y"), .p .assign, .ident (Lexer.bytes "a"), .p .question, .ident (Lexer.bytes "b"), .p .colon,
      .ident (Lexer.bytes "c"), .p .question, .ident (Lexer.bytes "d"), .p .colon, .ident (Lexer.bytes "e")] [] :=
  .asg (o := .plain) (by omega) .ident (.asg (o := .plain) (by omega) .ident
    (.cond (by omega) .ident .ident (.cond (by omega) .ident .ident .ident)))

/-- `* p ++ << 1 < n && ! f ( a , b )` -/
example : Writes bTable TyName (.prec 1)
    (.bin .land (.bin .lt (.bin .shl (.pre .deref (.pInc (.ident (Lexer.bytes "p")))) (.int 1)) (.ident (Lexer.bytes "n")))
      (.pre .not (.call (.ident (Lexer.bytes "f")) (.argMore (.arg1 (.ident (Lexer.bytes "a"))) (.ident (Lexer.bytes "b"))))))
    [.p .star, .ident (Lexer.bytes "p"), .p .incr, .p .shl, .integer 1, .p .lt, .ident (Lexer.bytes "n"), .p .andand, .p .bang, .ident (Lexer.bytes "f"),
      .p .lparen, .ident (Lexer.bytes "a"), .p .comma, .ident (Lexer.bytes "b"), .p .rparen] [] :=
  .bin (o := .land) (by decide)
    (.bin (o := .lt) (by decide)
      (.bin (o := .shl) (by decide) (.pre (o := .deref) (by decide) rfl (.pInc (by omega) .ident)) .int) .ident)
    (.pre (o := .not) (by decide) rfl (.call (by omega) .ident (.argMore (.arg1 .ident) .ident)))

/-! ## C75: else belongs to the nearest if -/

/-- the statement ends with an `if` that an `else` could still continue -/
inductive OpenIf : PT → Prop
  | short {c t} : OpenIf (.ifS c t .null)
  | else_ {c t e} : OpenIf e → OpenIf (.ifS c t e)
  | while_ {c b} : OpenIf b → OpenIf (.whileS c b)
  | for_ {a c d b} : OpenIf b → OpenIf (.forS a c d b)

theorem not_openIf_exprStmt {i t r} (h : Der .exprStmt i t r) : ¬ OpenIf t := by
  intro ho
  cases h with
  | esEmpty => cases ho
  | esExpr h =>
    obtain ⟨ts, -, rfl⟩ := expr_list h
    cases ho

theorem not_openIf_compound {i t r} (h : Der .compoundStmt i t r) : ¬ OpenIf t := by
  intro ho
  cases h with
  | csEmpty => cases ho
  | csItems h => cases h <;> cases ho

theorem not_openIf_jump {i t r} (h : Der .jump i t r) : ¬ OpenIf t := by
  intro ho
  cases h <;> cases ho

theorem stmt_ne_null {i t r} (h : Der .statement i t r) : t ≠ .null := by
  intro ht
  subst ht
  cases h with
  | sExpr h =>
    cases h with
    | esExpr h => obtain ⟨ts, -, h⟩ := expr_list h; cases h
  | sComp h => cases h with
    | csItems h => cases h
  | sSel h => cases h
  | sIter h => cases h
  | sJump h => cases h

/-- the claim of `C75_closed` for the nonterminals of statements -/
def Closed (n : N) (t : PT) (r : List T) : Prop :=
  match n with
  | .statement => (∃ r', r = .p .else_ :: r') → ¬ OpenIf t
  | .selection => (∃ r', r = .p .else_ :: r') → ¬ OpenIf t
  | .iteration => (∃ r', r = .p .else_ :: r') → ¬ OpenIf t
  | _ => True

theorem closed {n i t r} (h : Der n i t r) : Closed n t r := by
  induction h
  case sExpr h _ => exact fun _ => not_openIf_exprStmt h
  case sComp h _ => exact fun _ => not_openIf_compound h
  case sJump h _ => exact fun _ => not_openIf_jump h
  case sSel ih => exact ih
  case sIter ih => exact ih
  case sRepl => exact fun _ ho => by cases ho
  case slIf hn _ _ =>
    rintro ⟨r', rfl⟩ ho
    cases hn
  case slElse hs _ _ ih =>
    intro hr ho
    cases ho with
    | short => exact stmt_ne_null hs rfl
    | else_ ho => exact ih hr ho
  case itWhile ih => exact fun hr ho => by cases ho with | while_ ho => exact ih hr ho
  case itFor2 ih => exact fun hr ho => by cases ho with | for_ ho => exact ih hr ho
  case itFor3 ih => exact fun hr ho => by cases ho with | for_ ho => exact ih hr ho
  case itForD2 ih => exact fun hr ho => by cases ho with | for_ ho => exact ih hr ho
  case itForD3 ih => exact fun hr ho => by cases ho with | for_ ho => exact ih hr ho
  all_goals exact trivial

/-- C75: what stands between `if (…)` and its `else` never ends with an `if` that has no `else`: an
`else` is never taken away from a nearer `if`, however many loops and branches are between -/
theorem C75_closed {i t r} (h : Der .statement i t (.p .else_ :: r)) : ¬ OpenIf t := closed h ⟨r, rfl⟩

/-- C75: `if (c₁) if (c₂) s₁ else s₂` is a statement with one tree, the one in which the `else`
belongs to the second `if` -/
theorem C75_nearest {i c₁ j c₂ k s₁ m s₂ r} (h₁ : Der .expression i c₁ (.p .rparen :: .p .if_ :: .p .lparen :: j))
    (h₂ : Der .expression j c₂ (.p .rparen :: k)) (h₃ : Der .statement k s₁ (.p .else_ :: m))
    (h₄ : Der .statement m s₂ r) (hr : noElse r) :
    Der .statement (.p .if_ :: .p .lparen :: i) (.ifS c₁ (.ifS c₂ s₁ s₂) .null) r ∧
      ∀ t r', Der .statement (.p .if_ :: .p .lparen :: i) t r' → t = .ifS c₁ (.ifS c₂ s₁ s₂) .null ∧ r' = r := by
  have h : Der .statement (.p .if_ :: .p .lparen :: i) (.ifS c₁ (.ifS c₂ s₁ s₂) .null) r :=
    .sSel (.slIf h₁ (.sSel (.slElse h₂ h₃ h₄)) hr)
  exact ⟨h, fun t r' h' => C73_stmt h' h⟩

/-- a one-token expression -/
theorem one_expr (s : Lexer.Str) (r : List T) : Der .expression (.ident s :: r) (.exprList (.chain [.ident s])) r :=
  .exOne (nt_down (q := 17) (p := 2) .pIdent (by omega) (by omega))

/-- `if (a) if (b) x; else y;` -/
example {t r'} (h : Der .statement [.p .if_, .p .lparen, .ident (Lexer.bytes "a"), .p .rparen, .p .if_, .p .lparen, .ident (Lexer.bytes "b"), .p .rparen,
      .ident (Lexer.bytes "x"), .p .semi, .p .else_, .ident (Lexer.bytes "y"), .p .semi] t r') :
    t = .ifS (.exprList (.chain [.ident (Lexer.bytes "a")])) (.ifS (.exprList (.chain [.ident (Lexer.bytes "b")]))
      (.exprList (.chain [.ident (Lexer.bytes "x")])) (.exprList (.chain [.ident (Lexer.bytes "y")]))) .null ∧ r' = [] :=
  (C75_nearest (one_expr _ _) (one_expr _ _) (.sExpr (.esExpr (one_expr _ _))) (.sExpr (.esExpr (one_expr _ _))) rfl).2 t r' h

/-! ## C76: a declarator declares what C says -/

/-- C76: a declarator of C is accepted, and its tree, read from the outside in, gives the name the
type C gives it -/
def C76_statement : Prop :=
  ∀ x f i, Dec BrkQ (CBrk BrkE BrkQ) FnArgs false x f i [] →
    (∃ t, Der .declarator i t []) ∧ ∀ t, Der .declarator i t [] → ∀ T, readD t T = some (x, f T)

/-- `a []` declares an array in C; here its tree is the one of `* a` -/
theorem C76_refuted : ¬ C76_statement := by
  intro h
  have h := (h (Lexer.bytes "a") (fun t => .arr none t) [.ident (Lexer.bytes "a"), .p .lbrack, .p .rbrack]
    (.direct (.array (f := fun t => t) .name .none))).2 _ (.dDirect (.ddArr0 .ddIdent)) .base
  cases h

/-- `a [ static 3 ]` is a declarator of C and is rejected -/
theorem C76_no_static (t : PT) :
    ¬ Der .declarator [.ident (Lexer.bytes "a"), .p .lbrack, .p .static, .integer 3, .p .rbrack] t [] := by
  intro h
  exact not_der_of_parse (n := 40) rfl (complete h (by simp [Fol, lev]))

/-- C76 for the declarators whose brackets are not empty and not just `static` with a size: they are
accepted and read as C reads them, with any number of stars, brackets, parameter lists and
parentheses -/
theorem C76_reads_partial {x f i r} (hr : 1 ≤ lev r) (h : Dec BrkQ (SBrk BrkE BrkQ) FnArgs false x f i r) :
    (∃ t, Der .declarator i t r) ∧ ∀ t, Der .declarator i t r → ∀ T, readD t T = some (x, f T) := by
  obtain ⟨t, ht, hT⟩ := der_of_dec (dec_mono (fun _ _ _ => .sized) h)
  exact ⟨⟨t, ht⟩, fun t' ht' => declarator_unique hr ht ht' ▸ hT⟩

/-- those are declarators of C -/
theorem C76_reads_c {x f i r} (h : Dec BrkQ (SBrk BrkE BrkQ) FnArgs false x f i r) :
    Dec BrkQ (CBrk BrkE BrkQ) FnArgs false x f i r := dec_mono (fun _ _ _ => sBrk_c) h

/-- C76, the other direction: every accepted declarator is one of C once its empty brackets are
taken for stars, and its tree is read so -/
theorem C76_only_partial {i t r} (h : Der .declarator i t r) :
    ∃ x f, Dec BrkQ GBrk FnArgs false x f i r ∧ ∀ T, readD t T = some (x, f T) := dec_of_der h

/-- `* ( * f [ 3 ] ) ( )`: an array of pointers to functions returning pointers -/
example : Dec BrkQ (SBrk BrkE BrkQ) FnArgs false (Lexer.bytes "f")
    (fun t => .arr (some (.integer 3)) (.ptr (.fn .null (.ptr t))))
    [.p .star, .p .lparen, .p .star, .ident (Lexer.bytes "f"), .p .lbrack, .integer 3, .p .rbrack, .p .rparen,
      .p .lparen, .p .rparen] [] :=
  .ptr (.direct (.func (.paren (.ptr (.direct (.array .name
    (.size (nt_down (q := 17) (p := 2) .pInt (by omega) (by omega))))))) (.inl ⟨rfl, rfl⟩)))

/-! ## C77: function definitions -/

/-- C77: specifiers, a declarator of a function and a body make a function definition, whatever the
function returns -/
def C77_statement : Prop :=
  ∀ i s j x a (g : CTy → CTy) j' b r, Der .declSpecs i s j → Dec BrkQ (CBrk BrkE BrkQ) FnArgs false x (fun T => .fn a (g T)) j j' →
    Der .compoundStmt j' b r → ∃ t, Der .fnDef i t r

/-- `char * f ( ) { }`: the action writes the body into the tree of the declarator, which is a
T_POINTER (parser.m4:1570) -/
theorem C77_refuted : ¬ C77_statement := by
  intro h
  obtain ⟨t, ht⟩ := h (.p .char :: .p .star :: .ident (Lexer.bytes "f") :: .p .lparen :: .p .rparen :: .p .lbrace :: .p .rbrace :: [])
    _ _ (Lexer.bytes "f") .null .ptr _ _ [] (.dsOne (.dsType (.typeKw rfl)))
    (.ptr (.direct (.func .name (.inl ⟨rfl, rfl⟩)))) .csEmpty
  exact not_der_of_parse (n := 40) rfl (complete ht trivial)

/-- C77 for functions that return the type of the specifiers: the definition is accepted, it has one
tree, and that holds the name, the parameters and the body -/
theorem C77_defines_partial {i s j x a j' b r} (hs : Der .declSpecs i s j)
    (hd : Dec BrkQ GBrk FnArgs false x (fun T => .fn a T) j j') (hb : Der .compoundStmt j' b r) :
    Der .fnDef i (.decl s (.chain [.fn (.ident x) a b])) r ∧
      ∀ t r', Der .externalDecl i t r' → t = .decl s (.chain [.fn (.ident x) a b]) ∧ r' = r := by
  obtain ⟨d, hd, hT⟩ := der_of_dec hd
  obtain ⟨st, rfl⟩ := fn_tree hT
  have h : Der .fnDef i (.decl s (.chain [.fn (.ident x) a b])) r := .fdNew hs hd hb rfl
  refine ⟨h, fun t r' h' => ?_⟩
  have := Ev.unique (complete h' trivial) (complete h trivial)
  cases this
  exact ⟨rfl, rfl⟩

/-- `int f ( ) { x ; }` -/
example (r : List T) : Der .fnDef (.p .int :: .ident (Lexer.bytes "f") :: .p .lparen :: .p .rparen :: .p .lbrace ::
      .ident (Lexer.bytes "x") :: .p .semi :: .p .rbrace :: r)
    (.decl (.chain [.kw .int]) (.chain [.fn (.ident (Lexer.bytes "f")) .null
      (.chain [.exprList (.chain [.ident (Lexer.bytes "x")])])])) r :=
  (C77_defines_partial (.dsOne (.dsType (.typeKw rfl))) (.direct (.func .name (.inl ⟨rfl, rfl⟩)))
    (.csItems (.biOne (.biStmt (.sExpr (.esExpr (one_expr _ _))))))).1

end Bic
