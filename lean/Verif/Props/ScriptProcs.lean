import Verif.Props.Grammar
import Verif.Props.ScriptText
import Verif.Props.Script
import Verif.Props.Procs
import Verif.Proofs.Start
import Verif.Proofs.TextCheck
/-!
# C86: scripts with procedures, from the text to the exit status

The state is the one `eval_init` makes (`initSt`), the tree of the script is made by the parser
(`build`), and `evaluateCscript` looks for `main`, declares `argc` and `argv` and evaluates.
-/

namespace Bic
open Spec CSyn Script
open Bic.Parser (T K PT Der Rep nameStr ofTok build parts_der der_full build_makes)
open Bic.Lexer (Target Lex Tok Reads Follows)
open CText (Text ascii)

/-- **C86**: a script without `main`, written as C writes declarations, definitions of procedures and
statements on integers, is accepted, ends with exit status 0 and leaves the variables with the values
C gives them (C11 5.1.1.2, 6.8, 6.9; statements outside of functions run in their order).  `ps` are the
addresses of the arguments, `F` gives the values of floating constants. -/
def C86_statement : Prop :=
  ∀ (E : Env) (F : Lexer.Str → Nat) (mem : Mem) (ps : List Nat) (ty : CText.Str → Bool) (TN : List T → PT → List T → Prop)
    (us : List Part) (i : List T) (text : CText.Str) (Φ' : String → Option Proc) (fr' : Frame) (n : Nat),
    LiveLt mem → ps.length < 2 ^ 31 → mem.brk + 176 + 104 * ps.length + 48 * n < Mem.limit →
    CText.CText ty i text → WParts cTable TN True us i [] → (∀ q, Part.proc "main" q ∉ us) →
    RunParts cRules (fun _ => none) (argFrame ps.length) us Φ' fr' n →
    (∃ t, Parses .cscript ty .cscriptUnit text t) ∧ ∀ t, Parses .cscript ty .cscriptUnit text t →
      ∃ x s s', build F t (initSt mem) = .ok (some x) s ∧ Conv E (fun R => evaluateCscript R x ps) s (.ok () s') ∧ Rel s' [fr']

/-- C86 for the texts of `C81_tokens_partial`, the programs of `C34_programs_partial` and procedures as in
`C85_procedures_partial`.  Missing: what is missing there, and empty lists of parameters that are written
`(void)`. -/
theorem C86_script_partial {E : Env} {F : Lexer.Str → Nat} {mem : Mem} {ps : List Nat} {ty : CText.Str → Bool}
    {TN : List T → PT → List T → Prop} {us : List Part} {i : List T} {text : CText.Str} {G : String → Prop}
    {Φ' : String → Option Proc} {fr' : Frame} {n : Nat} (hl : LiveLt mem) (few : ps.length < 2 ^ 31)
    (cap : mem.brk + 176 + 104 * ps.length + 48 * n < Mem.limit) (ht : Text (Reads ty) Follows i text)
    (hw : WParts cTable TN False us i []) (hm : ∀ q, Part.proc "main" q ∉ us) (ha : ∀ u ∈ us, u.Apart G)
    (h : RunParts okStatic (fun _ => none) (argFrame ps.length) us Φ' fr' n) :
    (∃ t, Parses .cscript ty .cscriptUnit text t) ∧ ∀ t, Parses .cscript ty .cscriptUnit text t →
      ∃ x s s', build F t (initSt mem) = .ok (some x) s ∧ Conv E (fun R => evaluateCscript R x ps) s (.ok () s') ∧ Rel s' [fr'] ∧
        FnsAt Φ' s' [fr'] := by
  obtain ⟨toks, h1, h2⟩ := Lexer.C81_tokens_partial .cscript ty ht
  obtain ⟨ts, h3, -, h4⟩ := parts_der hw
  refine ⟨⟨_, toks, i, ⟨_, h2 []⟩, h1, h3⟩, ?_⟩
  rintro t ⟨toks', i', ⟨_, h5⟩, h6, h7⟩
  obtain rfl := (Lexer.Lex.unique (h2 []) h5).1
  obtain rfl := map_some_inj (h1.symm.trans h6)
  obtain rfl := C73_script h3 h7
  obtain ⟨g1, g2⟩ := der_full h3
  obtain ⟨x, s, b1, b2, b3, b4⟩ := build_makes (F := F) _ g2 (initSt mem) (initSt_WF mem)
  obtain ⟨x, rfl⟩ := b4 g1
  cases b3 with
  | chain k1 k2 =>
    obtain ⟨s', c1, c2, c3⟩ := script_runs (E := E) b2 hl few cap k1 (h4 k2) hm ha h
    exact ⟨x, s, s', b1, c1, c2, c3⟩

/-- the rules are C's -/
theorem okStatic_c {Φ Φ' : String → Option Proc} {fr fr' : Frame} {us n} (h : RunParts okStatic Φ fr us Φ' fr' n) :
    RunParts cRules Φ fr us Φ' fr' n := by
  induction h with
  | nil => exact .nil
  | stmt h _ ih => exact .stmt (static_c h) ih
  | proc h _ ih => exact .proc h ih

/-! ### Example: `int x = 0; void f(int n) { if (n) { x = x + n; f(n - 1); return; } } f(900);` -/

theorem name_f : CText.IsName [102] := ⟨⟨102, [], rfl, by decide, by simp⟩, by decide +kernel, by simp, by simp⟩
theorem name_g : CText.IsName [103] := ⟨⟨103, [], rfl, by decide, by simp⟩, by decide +kernel, by simp, by simp⟩
theorem name_n : CText.IsName [110] := ⟨⟨110, [], rfl, by decide, by simp⟩, by decide +kernel, by simp, by simp⟩

section
open TextCheck

def words86 : List (Option (Wd fun _ => false)) :=
  [kw .int "int", sp, idn [120] Lexer.name_x, sp, kw .assign "=", sp, num [48], kw .semi ";", sp,
   kw .void "void", sp, idn [102] name_f, kw .lparen "(", kw .int "int", sp, idn [110] name_n, kw .rparen ")", sp, kw .lbrace "{", sp,
   kw .if_ "if", sp, kw .lparen "(", idn [110] name_n, kw .rparen ")", sp, kw .lbrace "{", sp,
   idn [120] Lexer.name_x, sp, kw .assign "=", sp, idn [120] Lexer.name_x, sp, kw .plus "+", sp, idn [110] name_n, kw .semi ";", sp,
   idn [102] name_f, kw .lparen "(", idn [110] name_n, sp, kw .minus "-", sp, num [49], kw .rparen ")", kw .semi ";", sp,
   kw .return_ "return", kw .semi ";", sp, kw .rbrace "}", sp, kw .rbrace "}", sp,
   idn [102] name_f, kw .lparen "(", num [57, 48, 48], kw .rparen ")", kw .semi ";"]

theorem words86_text : textW words86 = ascii "int x = 0; void f(int n) { if (n) { x = x + n; f(n - 1); return; } } f(900);" := by
  decide +kernel

theorem words86_ok : okW words86 = true := by decide +kernel
end

def proc86 : Proc := ⟨[(.int, "n")], body85⟩

def parts86 : List Part := [.stmt (.decl .int [("x", some (.lit 0))]), .proc "f" proc86, .stmt (.call "f" [.lit 900])]

theorem nameStr_x : nameStr [120] = "x" := by decide
theorem nameStr_n : nameStr [110] = "n" := by decide
theorem nameStr_f : nameStr [102] = "f" := by decide

theorem src86 : WParts cTable (fun _ _ _ => False) False parts86 (TextCheck.toksW words86) [] := by
  refine .more (.stmt (.decl (ws := [.int]) (.one rfl) ⟨[.int], by decide, by decide⟩ (.one (.init (s := [120]) ⟨.int 0, .int, .int⟩))))
    (.more (.proc (.params (ws := [.void]) (ty := .void) (s := [102]) (.one rfl) ⟨[.void], by decide, by decide⟩ (by decide)
      (.one (.mk (ws := [.int]) (s := [110]) (.one rfl) ⟨[.int], by decide, by decide⟩)) (.items (.last (.stmt ?_)))))
      (.one (.stmt (.stmt (.call (s := [102]) (.one ⟨.int 900, .int, .int⟩))))))
  refine .cond (e := .var "n") ⟨.ident [110], .ident, .ident⟩ (.braces (.more (.stmt (.act (.set (s := [120]) ⟨.bin .add (.ident [120])
    (.ident [110]), .bin (o := .add) (by decide) .ident .ident, .bin (bo := .add) rfl .ident .ident⟩))) (.more (.stmt (.call (s := [102]) (.one
    ⟨.bin .sub (.ident [110]) (.int 1), .bin (o := .sub) (by decide) .ident .int, .bin (bo := .sub) rfl .ident .int⟩))) (.last (.stmt .leave)))))
    (by simp)


/-- the variables, `a` arguments having been given -/
def glob86 (a : Nat) (v : Int) : Frame :=
  [("argc", some ⟨.int, some (a : Int)⟩), ("argv", none), ("x", some ⟨.int, some v⟩), ("f", none)]

def procs86 : String → Option Proc := addProc (fun _ => none) "f" proc86

/-- the body with the argument `k` -/
theorem body_runs86 (a k : Nat) : ∀ v : Int, 0 ≤ v → v + sum85 k ≤ 1000000 → k ≤ 1000 →
    Run (staticRules procs86) [[("n", some ⟨.int, some (k : Int)⟩)], glob86 a v] body85 (end85 k)
      [[("n", some ⟨.int, some (k : Int)⟩)], glob86 a (v + sum85 k)] k := by
  induction k with
  | zero =>
    intro v h1 h2 _
    have hz := int_range (v := 0) (by omega) (by omega)
    refine .seq (n := 0) (m := 0) (.cond (v := 0) (b := false) (fr := []) (.var ⟨.int, rfl, hz.2⟩) ⟨by simp [cTruth], by omega⟩ ?_) .skip
    simp only [sum85, Int.add_zero]
    exact .skip
  | succ k ih =>
    intro v h1 h2 hk
    have hs := sum85_bound k (by omega)
    simp only [sum85] at h2
    have hn := int_range (v := ((k + 1 : Nat) : Int)) (by omega) (by omega)
    have hv := int_range (v := v) (by omega) (by omega)
    have hw := int_range (v := v + ((k + 1 : Nat) : Int)) (by omega) (by omega)
    have hk' := int_range (v := ((k : Nat) : Int)) (by omega) (by omega)
    refine .stop (n := k + 1) (.cond (v := ((k + 1 : Nat) : Int)) (b := true) (fr := []) (.var ⟨.int, rfl, hn.2⟩)
      ⟨by simp [cTruth]; omega, by omega⟩ ?_) (by simp [end85])
    have hset : Acts (staticRules procs86) ([] :: [[("n", some ⟨.int, some ((k + 1 : Nat) : Int)⟩)], glob86 a v])
        (.set "x" (.bin .add (.var "x") (.var "n")))
        ([] :: [[("n", some ⟨.int, some ((k + 1 : Nat) : Int)⟩)], glob86 a (v + ((k + 1 : Nat) : Int))]) :=
      .set (c := .int) (u := some v) (v := v + ((k + 1 : Nat) : Int)) (w := v + ((k + 1 : Nat) : Int)) rfl
        (.bin (.var ⟨.int, rfl, hv.2⟩) (.var ⟨.int, rfl, hn.2⟩) ⟨rfl, trivial⟩) (.inl ⟨rfl, .inl (by decide)⟩) (conv_self hw.1)
    rw [if_pos rfl]
    refine run_count (Run.seq (n := 0) (m := k + 1) (.act hset) ?_) (by omega)
    have hsum : v + sum85 (k + 1) = (v + ((k + 1 : Nat) : Int)) + sum85 k := by simp only [sum85]; omega
    rw [hsum]
    have hcall := Run.call (L := staticRules procs86) (f := "f") (es := [.bin .sub (.var "n") (.lit 1)])
      (hid := [[], [("n", some ⟨.int, some ((k + 1 : Nat) : Int)⟩)]])
      (vis := [glob86 a (v + ((k + 1 : Nat) : Int))]) (q := proc86) (g := end85 k) rfl
      (by simp [Frame.names]) rfl ⟨by simp [Avoid, Expr.uses, proc86], end85_or k⟩
      (.cons (c := .int) (x := "n") (v := (k : Int)) (w := (k : Int)) (by decide)
        (.bin (.var ⟨.int, rfl, hn.2⟩) (.lit 1) ⟨by simp [cOp], trivial⟩) (.inl ⟨rfl, .inl (by decide)⟩) (conv_self hk'.1) .nil)
      (by simp [Frame.names]) (ih _ (by omega) (by omega) (by omega))
    have := Run.seq (b := .seq .leave .skip) hcall (.stop .leave nofun)
    simpa [Nat.add_comm, end85, proc86] using this

theorem run86 (a : Nat) : RunParts okStatic (fun _ => none) (argFrame a) parts86 procs86 (glob86 a (sum85 900)) 902 := by
  have hs := sum85_bound 900 (by omega)
  have hr := int_range (v := 900) (by omega) (by omega)
  have h0 := int_range (v := 0) (by omega) (by omega)
  have hb := body_runs86 a 900 0 (by omega) (by omega) (by omega)
  rw [Int.zero_add] at hb
  refine .stmt (n := 1) (m := 901) (.decl (by decide) (.init rfl (.set (c := .int) (u := none) (v := 0) (w := 0) rfl (.lit 0)
    (.inl ⟨rfl, .inl (by decide)⟩) (conv_self h0.1)) .nil)) (.proc rfl (.stmt (n := 901) (m := 0) ?_ .nil))
  exact Run.call (L := staticRules procs86) (hid := []) (vis := [glob86 a 0]) (q := proc86) (g := end85 900) (n := 900) rfl (by simp) rfl
      ⟨by simp [Avoid, Expr.uses, proc86], end85_or _⟩
      (.cons (c := .int) (x := "n") (v := 900) (w := 900) (by decide) (.lit _) (.inl ⟨rfl, .inl (by decide)⟩) (conv_self hr.1) .nil)
      (by simp [Frame.names]) hb

/-- the script ends with status 0, and `x` is the sum of the numbers up to 900 -/
example (E : Env) (F : Lexer.Str → Nat) (mem : Mem) (ps : List Nat) (hl : LiveLt mem) (few : ps.length < 2 ^ 31)
    (cap : mem.brk + 176 + 104 * ps.length + 48 * 902 < Mem.limit) :
    ∃ t x s s', Parses .cscript (fun _ => false) .cscriptUnit
        (ascii "int x = 0; void f(int n) { if (n) { x = x + n; f(n - 1); return; } } f(900);") t ∧
      build F t (initSt mem) = .ok (some x) s ∧ Conv E (fun R => evaluateCscript R x ps) s (.ok () s') ∧ Rel s' [glob86 ps.length 405450] := by
  have e : sum85 900 = 405450 := by decide +kernel
  rw [← words86_text, ← e]
  obtain ⟨⟨t, h1⟩, h2⟩ := C86_script_partial (E := E) (F := F) (G := fun x => x = "x" ∨ x = "f") hl few cap (TextCheck.okW_text words86_ok) src86
    (by simp [parts86]) (by
      simp only [parts86, List.mem_cons, List.not_mem_nil, or_false, forall_eq_or_imp, forall_eq]
      refine ⟨by simp [Part.Apart, Stmt.inners], ?_, by simp [Part.Apart, Stmt.inners]⟩
      refine ⟨?_, ?_, ?_⟩
      · intro x hx
        simp [proc86, body85, Stmt.free, Expr.uses, Act.uses, Stmt.binds] at hx ⊢
        rcases hx with rfl | rfl | rfl | rfl | rfl <;> simp
      · simp [proc86]
      · simp [proc86, body85, Stmt.binds, Stmt.inners]) (run86 ps.length)
  obtain ⟨x, s, s', h3, h4, h5, _⟩ := h2 t h1
  exact ⟨t, x, s, s', h1, h3, h4, h5⟩

/-! ### `void g(void) { } g();` -/

section
open TextCheck

def wordsVoid : List (Option (Wd fun _ => false)) :=
  [kw .void "void", sp, idn [103] name_g, kw .lparen "(", kw .void "void", kw .rparen ")", sp, kw .lbrace "{", sp, kw .rbrace "}", sp,
   idn [103] name_g, kw .lparen "(", kw .rparen ")", kw .semi ";"]

theorem wordsVoid_text : textW wordsVoid = ascii "void g(void) { } g();" := by decide +kernel

theorem wordsVoid_ok : okW wordsVoid = true := by decide +kernel
end

def toksVoid : List T := TextCheck.toksW wordsVoid

def treeVoid : PT :=
  .chain [.decl (.chain [.kw .void]) (.chain [.fn (.ident [103]) (.chain [.decl (.chain [.kw .void]) .null]) .empty]),
    .exprList (.chain [.fnCall (.ident [103]) .null])]

theorem derVoid : Der .cscriptUnit toksVoid treeVoid [] := by
  have hv : ∀ r, Der .declSpecs (.p .void :: r) (.chain [.kw .void]) r := fun r => .dsOne (.dsType (.typeKw rfl))
  refine .cuMore (ts := [_]) (.cuOne (.cxExt (.xFn (.fdNew (hv _) (.dDirect (.ddFn .ddIdent (.ptlList (.plOne (.pdNone (hv _))))))
    .csEmpty rfl)))) (.cxStmt (.sExpr (.esExpr (.exOne ?_))))
  exact Parser.nt_down (p := 2) (q := 16) (.poCall0 (.poPrimary .pIdent)) (by omega) (by omega)

/-- the tree in the heap -/
def stVoid : St :=
  match build (fun _ => 0) treeVoid (initSt (memOf [])) with
  | .ok _ s => s
  | _ => initSt (memOf [])

def rootVoid : TId :=
  match build (fun _ => 0) treeVoid (initSt (memOf [])) with
  | .ok (some x) _ => x
  | _ => 0

def diesU : Out Unit → Bool
  | .stop (.die _) _ => true
  | _ => false

theorem void_dies : diesU (evaluateCscript (run E0 40) rootVoid [] stVoid) = true := by decide +kernel

theorem parsesVoid : Parses .cscript (fun _ => false) .cscriptUnit (TextCheck.textW wordsVoid) treeVoid := by
  obtain ⟨toks, h1, h2⟩ := Lexer.C81_tokens_partial .cscript (fun _ => false) (TextCheck.okW_text wordsVoid_ok)
  exact ⟨toks, _, ⟨_, h2 []⟩, h1, derVoid⟩

/-- C86 is false: `g` can not be called without arguments, and the script ends with status 1. -/
theorem C86_refuted : ¬ C86_statement := by
  intro h
  obtain ⟨x, s, s', h1, h2, _⟩ := (h E0 (fun _ => 0) (memOf []) [] (fun _ => false) (fun _ _ _ => False)
    [.proc "g" ⟨[], .skip⟩, .stmt (.call "g" [])] toksVoid _ (addProc (fun _ => none) "g" ⟨[], .skip⟩) (argFrame 0 ++ [("g", none)]) 0
    (memOf_livelt _) (by simp) (by simp only [memOf]; decide +kernel) (TextCheck.okW_ctext wordsVoid_ok)
    (.more (.proc (.void (ws := [.void]) (ty := .void) (s := [103]) trivial (.one rfl) ⟨[.void], by decide, by decide⟩ (by decide) .empty))
      (.one (.stmt (.stmt (.call0 (s := [103]))))))
    (by simp) (.proc rfl (.stmt (n := 0) (m := 0) (Run.call (L := cRules.with _) (hid := []) (vis := [argFrame 0 ++ [("g", none)]])
      (q := ⟨[], .skip⟩) (g := .next) (n := 0) rfl (by simp) rfl trivial .nil (by simp [Frame.names]) .skip) .nil))).2 treeVoid parsesVoid
  have e1 : rootVoid = x := by unfold rootVoid; rw [h1]
  have e2 : stVoid = s := by unfold stVoid; rw [h1]
  rw [← e1, ← e2] at h2
  have h3 := void_dies
  cases h4 : evaluateCscript (run E0 40) rootVoid [] stVoid with
  | stop r s'' =>
    have := Conv.unique h2 (Conv.of_run (mono_evaluateCscript _ _) (n := 40) h4 (by simp))
    cases this
  | _ => rw [h4] at h3; cases h3

end Bic
