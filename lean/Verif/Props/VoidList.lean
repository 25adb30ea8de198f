import Verif.Proofs.VoidList
import Verif.Props.ScriptMain
/-!
# C87: functions whose parameters are written `(void)`
-/

namespace Bic
open Spec CSyn Script
open Bic.Parser (T K PT Der Rep nameStr ofTok build buildAll parts_der der_full buildAll_makes specs_der body_der rep_one resolveKws_name specs_kw)
open Bic.Lexer (Target Lex Tok Reads Follows)
open CText (Text ascii)

/-- **C87**: a function with the parameter list `(void)` has no parameters (C11 6.7.6.3p10): a call without arguments
runs its body. -/
def C87_statement : Prop :=
  ∀ (E : Env) (s s' : St) (call i f fd args b : TId) (ret : Ref) (x name : String),
    Sane s → s.nodes call = some (.fnCall (some i) none) → s.nodes i = some (.ident x) → resolveGlobal x .normal s = some f →
    s.nodes f = some (.fn (some fd) (some args) ret (some b)) → s.nodes fd = some (.ident name) → VoidList s.nodes args →
    Exec okLang (Evt E) (CondIs E) (enterFn s name) (.body (some b)) .next s' →
    Conv E (fun R => R.ev (some call)) s (.ok none (leave s'))

/-- **C87** (what happens): every such call is an error. -/
theorem C87_call_dies {E : Env} {s : St} {call i f fd args b : TId} {ret : Ref} {x name : String}
    (h1 : s.nodes call = some (.fnCall (some i) none)) (h2 : s.nodes i = some (.ident x)) (h3 : resolveGlobal x .normal s = some f)
    (h4 : s.nodes f = some (.fn (some fd) (some args) ret (some b))) (h5 : s.nodes fd = some (.ident name)) (h6 : VoidList s.nodes args) :
    Conv E (fun R => R.ev (some call)) s (.stop (.die "Invalid number of parameters to function") (enterFn s name)) := by
  obtain ⟨d, specs, k, off, g1, _⟩ := h6
  exact fnCall_conv h1 (ident_conv h2 h3) h4 (by simp) (callUser_number (vs := []) h5 g1 rfl (by simp))

/-- `void g(void) {}` has been evaluated; `g()` is node 0 -/
def stG : St :=
  stOf [.fnCall (some 1) none, .ident "g", .ident "g", .kw .void, .chain [3], .decl (some 4) none 0, .chain [5], .void, .empty,
    .fn (some 2) (some 6) (some 7) (some 8)] [⟨"g", 2, some 9⟩] []

theorem stG_void : VoidList stG.nodes 6 := ⟨5, 4, 3, 0, rfl, rfl, rfl, rfl⟩

example (E : Env) : Conv E (fun R => R.ev (some 0)) stG (.stop (.die "Invalid number of parameters to function") (enterFn stG "g")) :=
  C87_call_dies (i := 1) (f := 9) (fd := 2) rfl rfl (by decide +kernel) rfl rfl stG_void

theorem C87_refuted : ¬ C87_statement := by
  intro h
  have h1 := h E0 stG (enterFn stG "g") 0 1 9 2 6 8 (some 7) "g" "g" (stOf_Sane _ _ _) rfl rfl (by decide +kernel) rfl rfl stG_void
    (.single (n := .empty) rfl rfl nofun (.expr (n := .empty) (r := none) rfl rfl
      ⟨Conv.evNode (nd := .empty) rfl (Conv.pure _), rfl, ((stOf_Sane _ _ _).enterFn "g").flags⟩ (by simp [NoJump])))
  have h2 := C87_call_dies (E := E0) (s := stG) (call := 0) (i := 1) (f := 9) (fd := 2) rfl rfl (by decide +kernel) rfl rfl stG_void
  cases Conv.unique h1 h2

/-- **C87** (`main`, what happens): a script of declarations and definitions that ends with the definition of `main` with
`(void)`, whatever its body, is accepted; it ends with an error, status 1, and the body does not run: the
variables have the values of their initialisations. -/
theorem C87_main_dies {E : Env} {F : Lexer.Str → Nat} {mem : Mem} {ps : List Nat} {ty : CText.Str → Bool}
    {TN : List T → PT → List T → Prop} {us : List Part} {i j k : List T} {text : CText.Str} {G : String → Prop} {ws tn s b}
    {Φ' : String → Option Proc} {fr1 : Frame} {n : Nat} (hl : LiveLt mem) (few : ps.length < 2 ^ 31)
    (cap : mem.brk + 176 + 104 * ps.length + 48 * n < Mem.limit) (ht : Text (Reads ty) Follows i text)
    (hw : (us = [] ∧ i = j) ∨ WParts cTable TN False us i j)
    (hs : WSpecs ws j (.ident s :: .p .lparen :: .p .void :: .p .rparen :: k)) (hg : CSpec.Gives ws tn) (hb : tn ≠ .bool)
    (hbody : WBody cTable TN b k []) (hmain : nameStr s = "main") (hd : ∀ u ∈ us, u.Declares) (hm : ∀ q, Part.proc "main" q ∉ us)
    (hf : Frame.find "main" fr1 = none) (ha : ∀ u ∈ us, u.Apart G)
    (h : RunParts okStatic (fun _ => none) (argFrame ps.length) us Φ' fr1 n) :
    (∃ t, Parses .cscript ty .cscriptUnit text t) ∧ ∀ t, Parses .cscript ty .cscriptUnit text t →
      ∃ x s s' c cs, build F t (initSt mem) = .ok (some x) s ∧
        Conv E (fun R => evaluateCscript R x ps) s (.stop (.die "Not a valid lvalue.") s') ∧
        status (.stop (.die "Not a valid lvalue.") s') = some 1 ∧ s'.ctxs = c :: cs ∧ Rel (onBase s' cs) [fr1 ++ [("main", none)]] := by
  obtain ⟨toks, h1, h2⟩ := Lexer.C81_tokens_partial .cscript ty ht
  have hv : ∀ r, Der .declSpecs (.p .void :: r) (.chain [.kw .void]) r := fun r => .dsOne (.dsType (.typeKw rfl))
  obtain ⟨ss, e1, -, e2⟩ := specs_der hs
  obtain ⟨tb, e3, e4⟩ := body_der hbody
  have e5 : Der .cscriptDecl j (.decl (.chain ss) (.chain [.fn (.ident s) (.chain [.decl (.chain [.kw .void]) .null]) tb])) [] :=
    .cxExt (.xFn (.fdNew e1 (.dDirect (.ddFn .ddIdent (.ptlList (.plOne (.pdNone (hv _)))))) e3 rfl))
  have e6 : ∀ {nd : TId → Option Node} {u}, Rep nd (.t (.decl (.chain ss) (.chain [.fn (.ident s) (.chain [.decl (.chain [.kw .void]) .null]) tb])) (some u)) →
      DefVoid nd u "main" := by
    intro nd u hx
    obtain ⟨g1, v, g2, _⟩ := resolveKws_name (specs_kw hs) hg hb
    cases hx with
    | decl k1 k2 k3 =>
      cases k2 with
      | chain k4 k5 =>
        cases k3 with
        | chain k6 k7 =>
          obtain ⟨w, rfl, k8⟩ := rep_one k7
          cases k8 with
          | fn m1 m2 m3 m4 =>
            cases m2 with
            | ident m2 =>
              cases m3 with
              | chain m5 m6 =>
                obtain ⟨d, rfl, m7⟩ := rep_one m6
                obtain ⟨b, rfl, _⟩ := e4 m4
                cases m7 with
                | decl m8 m9 m10 =>
                  cases m10
                  cases m9 with
                  | chain m11 m12 =>
                    obtain ⟨kk, rfl, m13⟩ := rep_one m12
                    cases m13 with
                    | kw m14 =>
                      exact ⟨_, _, _, _, _, _, _, _, _, _, k1, k4, e2 k5, g1, g2, k6, m1, hmain ▸ m2, ⟨_, _, _, _, m5, m8, m11, m14⟩⟩
  obtain ⟨ts, h3, h4⟩ : ∃ ts, Der .cscriptUnit i (.chain ts) [] ∧ ∀ {nd : TId → Option Node} {ls'}, Rep nd (.l ts ls') →
      ∃ ls u, ls' = ls ++ [u] ∧ PartsRep nd ls us ∧ DefVoid nd u "main" := by
    rcases hw with ⟨rfl, rfl⟩ | hw
    · refine ⟨_, .cuOne e5, ?_⟩
      intro nd ls' hr
      obtain ⟨u, rfl, hu⟩ := rep_one hr
      exact ⟨[], u, rfl, .nil, e6 hu⟩
    · obtain ⟨ts, h3, -, h4⟩ := parts_der hw
      refine ⟨_, .cuMore h3 e5, ?_⟩
      intro nd ls' hr
      obtain ⟨ls, us', rfl, r1, r2⟩ := Parser.rep_append hr
      obtain ⟨u, rfl, hu⟩ := rep_one r2
      exact ⟨ls, u, rfl, h4 r1, e6 hu⟩
  refine ⟨⟨_, toks, i, ⟨_, h2 []⟩, h1, h3⟩, ?_⟩
  rintro t ⟨toks', i', ⟨_, h5⟩, h6, h7⟩
  obtain rfl := (Lexer.Lex.unique (h2 []) h5).1
  obtain rfl := map_some_inj (h1.symm.trans h6)
  obtain rfl := C73_script h3 h7
  obtain ⟨g1, g2⟩ := der_full h3
  obtain ⟨ls', s0, b1, b2, b3⟩ := buildAll_makes (F := F) ts (by simpa [PT.full] using g2) (initSt mem) (initSt_WF mem)
  obtain ⟨ls, u, rfl, p1, p2⟩ := h4 b3
  obtain ⟨s', c, cs, c1, c2, c3⟩ := script_voidMain (E := E) b2 hl few cap p1 p2 hd hm hf ha h
  refine ⟨s0.next, _, s', c, cs, ?_, c1, rfl, c2, c3⟩
  rw [build]
  simp [b1, Parser.leaf_apply]

/-! ### Example: `int x = 1; int main(void) { x = 2; }` -/

section
open TextCheck

def wordsVM : List (Option (Wd fun _ => false)) :=
  [kw .int "int", sp, idn [120] Lexer.name_x, sp, kw .assign "=", sp, num [49], kw .semi ";", sp,
   kw .int "int", sp, idn [109, 97, 105, 110] name_main, kw .lparen "(", kw .void "void", kw .rparen ")", sp, kw .lbrace "{", sp,
   idn [120] Lexer.name_x, sp, kw .assign "=", sp, num [50], kw .semi ";", sp, kw .rbrace "}"]

theorem wordsVM_text : textW wordsVM = ascii "int x = 1; int main(void) { x = 2; }" := by decide +kernel

theorem wordsVM_ok : okW wordsVM = true := by decide +kernel
end

/-- status 1, and `x` is 1 -/
example (E : Env) (F : Lexer.Str → Nat) (mem : Mem) (ps : List Nat) (hl : LiveLt mem) (few : ps.length < 2 ^ 31)
    (cap : mem.brk + 176 + 104 * ps.length + 48 * 1 < Mem.limit) :
    ∃ t x s s' c cs, Parses .cscript (fun _ => false) .cscriptUnit (ascii "int x = 1; int main(void) { x = 2; }") t ∧
      build F t (initSt mem) = .ok (some x) s ∧ Conv E (fun R => evaluateCscript R x ps) s (.stop (.die "Not a valid lvalue.") s') ∧
      s'.ctxs = c :: cs ∧ Rel (onBase s' cs) [argFrame ps.length ++ [("x", some ⟨.int, some 1⟩)] ++ [("main", none)]] := by
  have hr := int_range (v := 1) (by omega) (by omega)
  rw [← wordsVM_text]
  obtain ⟨⟨t, h1⟩, h2⟩ := C87_main_dies (E := E) (F := F) (G := fun _ => True) (us := [.stmt (.decl .int [("x", some (.lit 1))])])
    (TN := fun _ _ _ => False) (b := .seq (.act (.set "x" (.lit 2))) .skip) (tn := .arith .int) (s := [109, 97, 105, 110]) (ws := [.int])
    (j := (TextCheck.toksW wordsVM).drop 5) (k := (TextCheck.toksW wordsVM).drop 10)
    (fr1 := argFrame ps.length ++ [("x", some ⟨.int, some 1⟩)]) (Φ' := fun _ => none) hl few cap (TextCheck.okW_text wordsVM_ok)
    (.inr (.one (.stmt (.decl (ws := [.int]) (.one rfl) ⟨[.int], by decide, by decide⟩ (.one (.init (s := [120]) ⟨.int 1, .int, .int⟩))))))
    (.one rfl) ⟨[.int], by decide, by decide⟩ (by decide) (.items (.last (.stmt (.act (.set (s := [120]) ⟨.int 2, .int, .int⟩))))) (by decide)
    (by simp [Part.Declares]) (by simp) rfl (by simp [Part.Apart, Stmt.inners])
    (.stmt (n := 1) (m := 0) (.decl (by decide) (.init rfl (.set (c := .int) (u := none) (v := 1) (w := 1) rfl (.lit 1)
      (.inl ⟨rfl, .inl (by decide)⟩) (conv_self hr.1)) .nil)) .nil)
  obtain ⟨x, s, s', c, cs, h3, h4, _, h5, h6⟩ := h2 t h1
  exact ⟨t, x, s, s', c, cs, h1, h3, h4, h5, h6⟩

end Bic
