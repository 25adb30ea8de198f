import Verif.Props.Source
import Verif.Props.Text
/-!
# C82: from the text of a script to its result
-/

namespace Bic
open Spec CSyn
open Bic.Parser (T K PT Der Rep nameStr ofTok)
open Bic.Lexer (Target Lex Tok Reads Follows)
open CText (Text ascii)

/-- the lexer reads the text to its end, and the parser accepts the tokens as `N`, building `t` -/
def Parses (tg : Target) (ty : CText.Str → Bool) (N : Parser.N) (text : CText.Str) (t : PT) : Prop :=
  ∃ toks i, (∃ m, Lex tg ty Lexer.start text toks (some m)) ∧ toks.map ofTok = i.map some ∧ Der N i t []

/-- C82: a script whose text C reads as a program of assignments, declarations and control statements
on integers is accepted, and evaluating it leaves the variables with the values C gives them.  The
text is what the preprocessor gives, without line markers. -/
def C82_statement : Prop :=
  ∀ (E : Env) (s : St) (ty : CText.Str → Bool) (TN : List T → PT → List T → Prop) (σ σ' : Store) (p : Spec.Stmt) (i : List T)
    (text : CText.Str) (n : Nat), Sane s → Good s σ n → CText.CText ty i text → Src cTable TN .items p i [] →
    Run cRules σ p .next σ' n →
    (∃ t, Parses .cscript ty .cscriptUnit text t) ∧ ∀ t x, Parses .cscript ty .cscriptUnit text t → Rep s.nodes (.t t (some x)) →
      ∃ s', Runs E s (.body (some x)) s' ∧ Rel s' σ'

theorem map_some_inj {α : Type} {l l' : List α} (h : l.map some = l'.map some) : l = l' :=
  List.map_injective_iff.mpr (Option.some_injective α) h

/-- C82 for the texts of `C81_tokens_partial` and the programs of `C34_programs_partial`; the final
store is the only one possible. -/
theorem C82_script_partial {E : Env} {s : St} {ty : CText.Str → Bool} {TN : List T → PT → List T → Prop} {σ σ' : Store}
    {p : Spec.Stmt} {i : List T} {text : CText.Str} {n : Nat} (hs : Sane s) (g : Good s σ n)
    (ht : Text (Reads ty) Follows i text) (hw : Src cTable TN .items p i []) (hrun : Run okRules σ p .next σ' n) :
    (∃ t, Parses .cscript ty .cscriptUnit text t) ∧
    ∀ t x, Parses .cscript ty .cscriptUnit text t → Rep s.nodes (.t t (some x)) →
      (∃ s', Runs E s (.body (some x)) s' ∧ Rel s' σ') ∧ ∀ s', Runs E s (.body (some x)) s' → Rel s' σ' := by
  obtain ⟨toks, h1, h2⟩ := Lexer.C81_tokens_partial .cscript ty ht
  obtain ⟨⟨t0, h3⟩, h4⟩ := C79_script_partial (E := E) hs g hw hrun
  refine ⟨⟨t0, toks, i, ⟨_, h2 []⟩, h1, h3⟩, ?_⟩
  rintro t x ⟨toks', i', ⟨_, h5⟩, h6, h7⟩ hx
  obtain rfl := (Lexer.Lex.unique (h2 []) h5).1
  obtain rfl := map_some_inj (h1.symm.trans h6)
  exact h4 t x h7 hx

/-! ### Examples: `x = 2; while (x) { int y=x; x--; }` and `x=010;` -/

def text82 : CText.Str :=
  [120] ++ (32 :: (ascii "=" ++ (32 :: ([50] ++ (ascii ";" ++ (10 :: (ascii "while" ++ (32 :: (ascii "(" ++ ([120] ++ (ascii ")" ++
    (32 :: (ascii "{" ++ (32 :: (ascii "int" ++ (32 :: ([121] ++ (ascii "=" ++ ([120] ++ (ascii ";" ++ (32 :: ([120] ++ (ascii "--" ++
    (ascii ";" ++ (32 :: (ascii "}" ++ []))))))))))))))))))))))))))

theorem name_y : CText.IsName [121] := ⟨⟨121, [], rfl, by decide, by simp⟩, by decide +kernel, by simp, by simp⟩

theorem isText82 : Text (Reads fun _ => false) Follows toks79 text82 := by
  refine .tok rfl (.ident Lexer.name_x (by decide) rfl) (by decide +kernel) (.space (by decide) (.tok rfl (.word rfl rfl) (by decide +kernel)
    (.space (by decide) (.tok (t := .integer (CText.decVal [50])) rfl (.dec (by unfold CText.Digits; decide) (.inr (by decide)))
    (by decide +kernel) (.tok rfl (.word rfl rfl) (by decide +kernel) (.space (by decide) ?_))))))
  refine .tok rfl (.word rfl rfl) (by decide +kernel) (.space (by decide) (.tok rfl (.word rfl rfl) (by decide +kernel)
    (.tok rfl (.ident Lexer.name_x (by decide) rfl) (by decide +kernel) (.tok rfl (.word rfl rfl) (by decide +kernel) (.space (by decide)
    (.tok rfl (.word rfl rfl) (by decide +kernel) (.space (by decide) ?_)))))))
  refine .tok rfl (.word rfl rfl) (by decide +kernel) (.space (by decide) (.tok rfl (.ident name_y (by decide) rfl) (by decide +kernel)
    (.tok rfl (.word rfl rfl) (by decide +kernel) (.tok rfl (.ident Lexer.name_x (by decide) rfl) (by decide +kernel)
    (.tok rfl (.word rfl rfl) (by decide +kernel) (.space (by decide) ?_))))))
  exact .tok rfl (.ident Lexer.name_x (by decide) rfl) (by decide +kernel) (.tok rfl (.word rfl rfl) (by decide +kernel)
    (.tok rfl (.word rfl rfl) (by decide +kernel) (.space (by decide) (.tok rfl (.word rfl rfl) (by decide +kernel) .nil))))

theorem text82_eq : text82 = ascii "x = 2;\nwhile (x) { int y=x; x--; }" := by decide +kernel

theorem parses82 : Parses .cscript (fun _ => false) .cscriptUnit text82 tree79 := by
  obtain ⟨toks, h1, h2⟩ := Lexer.C81_tokens_partial .cscript (fun _ => false) isText82
  exact ⟨toks, toks79, ⟨_, h2 []⟩, h1, der79⟩

example : (∃ s', Runs E0 st79 (.body (some 23)) s' ∧ Rel s' (store34 (some 0))) ∧
    ∀ s', Runs E0 st79 (.body (some 23)) s' → Rel s' (store34 (some 0)) :=
  (C82_script_partial (stOf_Sane _ _ _) (good34 2 (by omega) none (by simp) prog79 rfl rfl) isText82 src79 run34).2 _ 23 parses82 rep79

/-- `x=010;` -/
def text010 : CText.Str := [120] ++ (ascii "=" ++ ((48 :: [49, 48] ++ ascii "") ++ (ascii ";" ++ [])))

/-- as C reads it -/
def toks8 : List T := [.ident [120], .p .assign, .integer (Spec.octVal [49, 48] : Nat), .p .semi]

def nodes10 : List Node :=
  [.ctype .int none, .lv (some 0) 4096 false 0, .ident "x", .integer 10, .assign (some 2) (some 3), .chain [4], .exprList (some 5), .chain [6]]

def st10 : St := stOf nodes10 [⟨"x", 2, some 1⟩] (List.replicate 8 0)
def st10' : St := outSt st10 ((run E0 30).ev (some 6) st10)

theorem runs10 : Runs E0 st10 (.body (some 7)) st10' := by
  have h : Conv E0 (fun R => R.ev (some 6)) st10 (.ok (some 3) st10') := by
    have h1 : outRef ((run E0 30).ev (some 6) st10) = some 3 := by decide +kernel
    rw [← h1]
    exact Conv.computed 30 (by decide +kernel)
  show Conv E0 (fun R => evaluate R (some 7)) st10 _
  refine Conv.of_eq (f := fun R => evalElems R [6]) (s := st10) ?_ fun R => rfl
  refine Conv.bind h (Conv.fixed fun R => ?_)
  have h2 : st10'.nodes 3 = some (.integer 10) := by decide +kernel
  simp [peek_apply h2, evalElems]

theorem parses10 : Parses .cscript (fun _ => false) .cscriptUnit text010
    (.chain [.exprList (.chain [.assign (.ident [120]) (.integer 10)])]) := by
  refine ⟨[.ident [120], .tok "=", .integer 10, .tok ";"], [.ident [120], .p .assign, .integer 10, .p .semi], ?_, by decide +kernel, ?_⟩
  · refine ⟨_, .tok (t := .ident [120]) (st' := Lexer.start) (rest := text010.drop 1) (by decide +kernel)
      (.tok (st' := Lexer.start) (rest := text010.drop 2) (by decide +kernel) (.tok (st' := Lexer.start) (rest := text010.drop 5) (by decide +kernel)
      (.tok (st' := Lexer.start) (rest := []) (by decide +kernel) (.eof rfl))))⟩
  · refine .cuOne (.cxStmt (.sExpr (.esExpr (.exOne (.asOp (k := .assign) (f := fun l r => .assign l r)
      (.uPostfix (.poPrimary .pIdent)) rfl ?_)))))
    exact Parser.nt_down (p := 2) (q := 17) .pInt (by omega) (by omega)

theorem isText010 : CText.CText (fun _ => false) toks8 text010 := by
  refine .tok rfl (.ident Lexer.name_x rfl) (by decide +kernel) (.tok rfl (.word rfl) (by decide +kernel) (.tok rfl (.int (.oct (ds := [49, 48])
    (x := "") (by decide) (by decide))) (by decide +kernel) (.tok rfl (.word rfl) (by decide +kernel) .nil)))

/-- C82 is false: after `x=010;` the variable is 10. -/
theorem C82_refuted : ¬ C82_statement := by
  intro h
  obtain ⟨s', h1, as, h2, _⟩ := (h E0 st10 (fun _ => false) (fun _ _ _ => False) (store34 (some 0)) (store34 (some 8))
    (.seq (.act (.set "x" (.lit 8))) .skip) toks8 text010 0 (stOf_Sane _ _ _) (good34 0 (by omega) _ (by simp) nodes10 rfl rfl) isText010
    (.last (.stmt (.act (.set (s := [120]) ⟨.int 8, .int, .int⟩))))
    (.seq (n := 0) (m := 0) (.act (.set (c := .int) (u := some 0) (v := 8) (w := 8) rfl (.lit _) trivial (conv_self (by decide)))) .skip)).2
    _ 7 parses10
    (.chain (ls := [6]) rfl (.cons (.exprList (x := some 5) rfl (.chain (ls := [4]) rfl (.cons (.assign (x := some 2) (y := some 3)
      rfl (.ident rfl) (.integer rfl)) .nil))) .nil))
  have h4 : s' = st10' := by
    have h3 := runs10
    unfold Runs at h1 h3
    exact (Out.ok.inj (Conv.unique h1 h3)).2
  subst h4
  have hc : (lookups st10').map (·.ids) = [[⟨"x", 2, some 1⟩]] := by decide +kernel
  generalize hl : lookups st10' = cs at h2 hc
  cases h2 with
  | cons h5 _ =>
    simp only [List.map_cons, List.cons.injEq] at hc
    rw [hc.1] at h5
    cases h5 with
    | var h6 _ =>
      obtain ⟨τ, ⟨⟨arr, sz, h8⟩, _⟩⟩ := h6.at_
      have e2 : st10'.nodes 1 = some (.lv (some 0) 4096 false 0) := by decide +kernel
      rw [e2] at h8
      cases h8
      have h7 := h6.val _ rfl
      revert h7
      decide +kernel

end Bic
