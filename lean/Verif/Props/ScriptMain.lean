import Verif.Proofs.MainCall
import Verif.Props.ScriptProcs
/-!
# C88: scripts with `main`, from the text to the exit status
-/

namespace Bic
open Spec CSyn Script
open Bic.Parser (T K PT Der Rep nameStr ofTok build buildAll parts_der der_full buildAll_makes)
open Bic.Lexer (Target Lex Tok Reads Follows)
open CText (Text ascii)

/-- the value that a body of `main` which ends so gives to the system (C11 5.1.2.2.3): falling off the
end is `return 0;` -/
inductive MainGives : End → Int → Prop
  | fell : MainGives .next 0
  | returned (v : Int) : MainGives (.ret v) v

/-- `main` is defined with the type `int` -/
def IntMain (i : List T) : Prop :=
  ∃ a s b, i = a ++ .p .int :: .ident s :: .p .lparen :: b ∧ nameStr s = "main" ∧
    ∀ k, a.getLast? = some k → k = .p .semi ∨ k = .p .rbrace

/-- the state in which the program ends -/
def EndsIn (s : St) : Out Unit → Prop
  | .ok _ s' => s' = s
  | .stop _ s' => s' = s
  | .fuel => False

/-- **C88**: a script of declarations and definitions, one of them of `main` without parameters, is accepted,
runs `main` after the initialisations, ends with the value of `main` as its exit status and leaves the variables
with the values C gives them. -/
def C88_statement : Prop :=
  ∀ (E : Env) (F : Lexer.Str → Nat) (mem : Mem) (ps : List Nat) (ty : CText.Str → Bool) (TN : List T → PT → List T → Prop)
    (us : List Part) (i : List T) (text : CText.Str) (Φ' : String → Option Proc) (fr1 fr2 fr' : Frame) (b : Spec.Stmt) (g : End)
    (v : Int) (n m : Nat),
    LiveLt mem → ps.length < 2 ^ 31 → mem.brk + 176 + 104 * ps.length + 48 * (n + m) < Mem.limit →
    CText.CText ty i text → WParts cTable TN False us i [] → IntMain i → (∀ u ∈ us, u.Declares) →
    RunParts cRules (fun _ => none) (argFrame ps.length) us Φ' fr1 n → Part.proc "main" ⟨[], b⟩ ∈ us →
    (∀ q, Part.proc "main" q ∈ us → q = ⟨[], b⟩) →
    Run (cRules.with Φ') [[], fr1] b g [fr2, fr'] m → MainGives g v →
    (∃ t, Parses .cscript ty .cscriptUnit text t) ∧ ∀ t, Parses .cscript ty .cscriptUnit text t →
      ∃ x s s' o, build F t (initSt mem) = .ok (some x) s ∧ Conv E (fun R => evaluateCscript R x ps) s o ∧
        status o = some (v % 256).toNat ∧ EndsIn s' o ∧ Rel s' [fr']

/-- **C88** (what happens): for the texts, programs and procedures of `C86_script_partial`, `main` runs and the variables
have the values C gives them, but the status is 0 however `main` ends. -/
theorem C88_main_zero {E : Env} {F : Lexer.Str → Nat} {mem : Mem} {ps : List Nat} {ty : CText.Str → Bool}
    {TN : List T → PT → List T → Prop} {us : List Part} {i : List T} {text : CText.Str} {G : String → Prop}
    {Φ' : String → Option Proc} {fr1 fr2 fr' : Frame} {b : Spec.Stmt} {g : End} {n m : Nat} (hl : LiveLt mem) (few : ps.length < 2 ^ 31)
    (cap : mem.brk + 176 + 104 * ps.length + 48 * (n + m) < Mem.limit) (ht : Text (Reads ty) Follows i text)
    (hw : WParts cTable TN False us i []) (hd : ∀ u ∈ us, u.Declares) (ha : ∀ u ∈ us, u.Apart G)
    (h : RunParts okStatic (fun _ => none) (argFrame ps.length) us Φ' fr1 n) (hq : Φ' "main" = some ⟨[], b⟩)
    (hm : ∀ q, Part.proc "main" q ∈ us → q = ⟨[], b⟩) (hb : Run (staticRules Φ') [[], fr1] b g [fr2, fr'] m) :
    (∃ t, Parses .cscript ty .cscriptUnit text t) ∧ ∀ t, Parses .cscript ty .cscriptUnit text t →
      ∃ x s s', build F t (initSt mem) = .ok (some x) s ∧ Conv E (fun R => evaluateCscript R x ps) s (.ok () s') ∧ Rel s' [fr'] := by
  obtain ⟨toks, h1, h2⟩ := Lexer.C81_tokens_partial .cscript ty ht
  obtain ⟨ts, h3, -, h4⟩ := parts_der hw
  refine ⟨⟨_, toks, i, ⟨_, h2 []⟩, h1, h3⟩, ?_⟩
  rintro t ⟨toks', i', ⟨_, h5⟩, h6, h7⟩
  obtain rfl := (Lexer.Lex.unique (h2 []) h5).1
  obtain rfl := map_some_inj (h1.symm.trans h6)
  obtain rfl := C73_script h3 h7
  obtain ⟨g1, g2⟩ := der_full h3
  obtain ⟨ls, s0, b1, b2, b3⟩ := buildAll_makes (F := F) ts (by simpa [PT.full] using g2) (initSt mem) (initSt_WF mem)
  obtain ⟨s', c1, c2⟩ := script_main (E := E) b2 hl few cap (h4 b3) hd (fun q hq => by rw [hm q hq]) ha h hq hb
  refine ⟨s0.next, _, s', ?_, c1, c2⟩
  rw [build]
  simp [b1, Parser.leaf_apply]

/-- C88 if `main` returns a multiple of 256.  Missing: other values (`C88_refuted`), and what is missing in
`C86_script_partial`. -/
theorem C88_main_partial {E : Env} {F : Lexer.Str → Nat} {mem : Mem} {ps : List Nat} {ty : CText.Str → Bool}
    {TN : List T → PT → List T → Prop} {us : List Part} {i : List T} {text : CText.Str} {G : String → Prop}
    {Φ' : String → Option Proc} {fr1 fr2 fr' : Frame} {b : Spec.Stmt} {g : End} {v : Int} {n m : Nat} (hl : LiveLt mem) (few : ps.length < 2 ^ 31)
    (cap : mem.brk + 176 + 104 * ps.length + 48 * (n + m) < Mem.limit) (ht : Text (Reads ty) Follows i text)
    (hw : WParts cTable TN False us i []) (hd : ∀ u ∈ us, u.Declares) (ha : ∀ u ∈ us, u.Apart G)
    (h : RunParts okStatic (fun _ => none) (argFrame ps.length) us Φ' fr1 n) (hq : Φ' "main" = some ⟨[], b⟩)
    (hm : ∀ q, Part.proc "main" q ∈ us → q = ⟨[], b⟩) (hb : Run (staticRules Φ') [[], fr1] b g [fr2, fr'] m)
    (_hg : MainGives g v) (hv : v % 256 = 0) :
    (∃ t, Parses .cscript ty .cscriptUnit text t) ∧ ∀ t, Parses .cscript ty .cscriptUnit text t →
      ∃ x s s' o, build F t (initSt mem) = .ok (some x) s ∧ Conv E (fun R => evaluateCscript R x ps) s o ∧
        status o = some (v % 256).toNat ∧ EndsIn s' o ∧ Rel s' [fr'] := by
  obtain ⟨h1, h2⟩ := C88_main_zero (E := E) (F := F) hl few cap ht hw hd ha h hq hm hb
  refine ⟨h1, fun t h3 => ?_⟩
  obtain ⟨x, s, s', h4, h5, h6⟩ := h2 t h3
  exact ⟨x, s, s', _, h4, h5, by rw [hv]; rfl, rfl, h6⟩

/-! ### Example: `int x = 1; void g() { x = x + 4; } int main() { g(); return x; }` -/

theorem name_main : CText.IsName [109, 97, 105, 110] := ⟨⟨109, [97, 105, 110], rfl, by decide, by decide⟩, by decide +kernel, by simp, by simp⟩

section
open TextCheck

def words88 : List (Option (Wd fun _ => false)) :=
  [kw .int "int", sp, idn [120] Lexer.name_x, sp, kw .assign "=", sp, num [49], kw .semi ";", sp,
   kw .void "void", sp, idn [103] name_g, kw .lparen "(", kw .rparen ")", sp, kw .lbrace "{", sp,
   idn [120] Lexer.name_x, sp, kw .assign "=", sp, idn [120] Lexer.name_x, sp, kw .plus "+", sp, num [52], kw .semi ";", sp, kw .rbrace "}", sp,
   kw .int "int", sp, idn [109, 97, 105, 110] name_main, kw .lparen "(", kw .rparen ")", sp, kw .lbrace "{", sp,
   idn [103] name_g, kw .lparen "(", kw .rparen ")", kw .semi ";", sp, kw .return_ "return", sp, idn [120] Lexer.name_x, kw .semi ";", sp,
   kw .rbrace "}"]

theorem words88_text : textW words88 = ascii "int x = 1; void g() { x = x + 4; } int main() { g(); return x; }" := by decide +kernel

theorem words88_ok : okW words88 = true := by decide +kernel
end

def bodyG : Spec.Stmt := .seq (.act (.set "x" (.bin .add (.var "x") (.lit 4)))) .skip

def bodyMain : Spec.Stmt := .seq (.call "g" []) (.seq (.ret (.var "x")) .skip)

def parts88 : List Part := [.stmt (.decl .int [("x", some (.lit 1))]), .proc "g" ⟨[], bodyG⟩, .proc "main" ⟨[], bodyMain⟩]

theorem src88 : WParts cTable (fun _ _ _ => False) False parts88 (TextCheck.toksW words88) [] :=
  .more (.stmt (.decl (ws := [.int]) (.one rfl) ⟨[.int], by decide, by decide⟩ (.one (.init (s := [120]) ⟨.int 1, .int, .int⟩))))
    (.more (.proc (.none (ws := [.void]) (ty := .void) (s := [103]) (.one rfl) ⟨[.void], by decide, by decide⟩ (by decide)
      (.items (.last (.stmt (.act (.set (s := [120]) ⟨.bin .add (.ident [120]) (.int 4), .bin (o := .add) (by decide) .ident .int,
        .bin (bo := .add) rfl .ident .int⟩)))))))
    (.one (.proc (.none (ws := [.int]) (ty := .arith .int) (s := [109, 97, 105, 110]) (.one rfl) ⟨[.int], by decide, by decide⟩ (by decide)
      (.items (.more (.stmt (.call0 (s := [103]))) (.last (.stmt (.ret ⟨.ident [120], .ident, .ident⟩)))))))))

def procs88 : String → Option Proc := addProc (addProc (fun _ => none) "g" ⟨[], bodyG⟩) "main" ⟨[], bodyMain⟩

def glob88 (a : Nat) (v : Int) : Frame :=
  [("argc", some ⟨.int, some (a : Int)⟩), ("argv", none), ("x", some ⟨.int, some v⟩), ("g", none), ("main", none)]

theorem parts_run88 (a : Nat) : RunParts okStatic (fun _ => none) (argFrame a) parts88 procs88 (glob88 a 1) 1 := by
  have h := int_range (v := 1) (by omega) (by omega)
  exact .stmt (n := 1) (m := 0) (.decl (by decide) (.init rfl (.set (c := .int) (u := none) (v := 1) (w := 1) rfl (.lit 1)
    (.inl ⟨rfl, .inl (by decide)⟩) (conv_self h.1)) .nil)) (.proc rfl (.proc rfl .nil))

theorem main_run88 (a : Nat) : Run (staticRules procs88) [[], glob88 a 1] bodyMain (.ret 5) [[], glob88 a 5] 0 := by
  have h1 := int_range (v := 1) (by omega) (by omega)
  have h5 := int_range (v := 5) (by omega) (by omega)
  refine .seq (n := 0) (m := 0) (Run.call (L := staticRules procs88) (hid := [[]]) (vis := [glob88 a 1]) (q := ⟨[], bodyG⟩) (g := .next) (n := 0)
    rfl (by simp [Frame.names]) rfl ⟨by simp [Avoid], .inl rfl⟩ .nil (by simp [Frame.names]) (fr' := []) (vis' := [glob88 a 5])
    (.seq (n := 0) (m := 0) (.act ?_) .skip)) (.stop (.ret (.var ⟨.int, rfl, h5.2⟩)) nofun)
  exact .set (c := .int) (u := some 1) (v := 5) (w := 5) rfl (.bin (.var ⟨.int, rfl, h1.2⟩) (.lit 4) ⟨rfl, trivial⟩) (.inl ⟨rfl, .inl (by decide)⟩)
    (conv_self h5.1)

theorem apart88 : ∀ u ∈ parts88, u.Apart (fun x => x = "x" ∨ x = "g" ∨ x = "main") := by
  simp only [parts88, List.mem_cons, List.not_mem_nil, or_false, forall_eq_or_imp, forall_eq]
  refine ⟨by simp [Part.Apart, Stmt.inners], ⟨?_, by simp, by simp [bodyG, Stmt.binds, Stmt.inners]⟩,
    ⟨?_, by simp, by simp [bodyMain, Stmt.binds, Stmt.inners]⟩⟩
  · simp [bodyG, Stmt.free, Expr.uses, Act.uses, Stmt.binds]
  · simp [bodyMain, Stmt.free, Expr.uses, Stmt.binds]

theorem once88 : ∀ q, Part.proc "main" q ∈ parts88 → q = ⟨[], bodyMain⟩ := by
  intro q h
  simpa [parts88] using h

/-- the script ends with status 0, and `x` is 5 -/
theorem runs88 (E : Env) (F : Lexer.Str → Nat) (mem : Mem) (ps : List Nat) (hl : LiveLt mem) (few : ps.length < 2 ^ 31)
    (cap : mem.brk + 176 + 104 * ps.length + 48 < Mem.limit) :
    (∃ t, Parses .cscript (fun _ => false) .cscriptUnit (TextCheck.textW words88) t) ∧
      ∀ t, Parses .cscript (fun _ => false) .cscriptUnit (TextCheck.textW words88) t →
      ∃ x s s', build F t (initSt mem) = .ok (some x) s ∧ Conv E (fun R => evaluateCscript R x ps) s (.ok () s') ∧ Rel s' [glob88 ps.length 5] :=
  C88_main_zero hl few cap (TextCheck.okW_text words88_ok) src88 (by simp [parts88, Part.Declares]) apart88 (parts_run88 _) rfl once88
    (main_run88 _)

/-- C88 is false: the exit status of this script is not 5 but 0. -/
theorem C88_refuted : ¬ C88_statement := by
  intro h
  have cap : (memOf []).brk + 176 + 104 * ([] : List Nat).length + 48 * (1 + 0) < Mem.limit := by simp only [memOf]; decide +kernel
  obtain ⟨⟨t, h1⟩, h2⟩ := runs88 E0 (fun _ => 0) (memOf []) [] (memOf_livelt _) (by simp) cap
  obtain ⟨x, s, s', h3, h4, _⟩ := h2 t h1
  obtain ⟨x', s1, s2, o, k1, k2, k3, _⟩ := (h E0 (fun _ => 0) (memOf []) [] (fun _ => false) (fun _ _ _ => False) parts88 _ _ procs88
    (glob88 0 1) [] (glob88 0 5) bodyMain (.ret 5) 5 1 0 (memOf_livelt _) (by simp) cap (TextCheck.okW_ctext words88_ok) src88
    ⟨(TextCheck.toksW words88).take 17, [109, 97, 105, 110], (TextCheck.toksW words88).drop 20, by rfl, by decide, fun k hk => .inr (Option.some.inj (hk.symm.trans
      (show ((TextCheck.toksW words88).take 17).getLast? = some (.p .rbrace) from rfl)))⟩
    (by simp [parts88, Part.Declares]) (okStatic_c (parts_run88 0)) (by simp [parts88]) once88 (static_c (main_run88 0)) (.returned 5)).2 t h1
  rw [h3] at k1
  cases k1
  cases Conv.unique h4 k2
  cases k3

/-! ### Example: `int x = 1; int main() { x = 2; }` -/

section
open TextCheck

def wordsFell : List (Option (Wd fun _ => false)) :=
  [kw .int "int", sp, idn [120] Lexer.name_x, sp, kw .assign "=", sp, num [49], kw .semi ";", sp,
   kw .int "int", sp, idn [109, 97, 105, 110] name_main, kw .lparen "(", kw .rparen ")", sp, kw .lbrace "{", sp,
   idn [120] Lexer.name_x, sp, kw .assign "=", sp, num [50], kw .semi ";", sp, kw .rbrace "}"]

theorem wordsFell_text : textW wordsFell = ascii "int x = 1; int main() { x = 2; }" := by decide +kernel

theorem wordsFell_ok : okW wordsFell = true := by decide +kernel
end

def bodyFell : Spec.Stmt := .seq (.act (.set "x" (.lit 2))) .skip

def partsFell : List Part := [.stmt (.decl .int [("x", some (.lit 1))]), .proc "main" ⟨[], bodyFell⟩]

def globFell (a : Nat) (v : Int) : Frame :=
  [("argc", some ⟨.int, some (a : Int)⟩), ("argv", none), ("x", some ⟨.int, some v⟩), ("main", none)]

/-- status 0, and `x` is 2 -/
example (E : Env) (F : Lexer.Str → Nat) (mem : Mem) (ps : List Nat) (hl : LiveLt mem) (few : ps.length < 2 ^ 31)
    (cap : mem.brk + 176 + 104 * ps.length + 48 * 1 < Mem.limit) :
    ∃ t x s s' o, Parses .cscript (fun _ => false) .cscriptUnit (ascii "int x = 1; int main() { x = 2; }") t ∧
      build F t (initSt mem) = .ok (some x) s ∧ Conv E (fun R => evaluateCscript R x ps) s o ∧ status o = some 0 ∧ EndsIn s' o ∧
      Rel s' [globFell ps.length 2] := by
  have h1 := int_range (v := 1) (by omega) (by omega)
  have h2 := int_range (v := 2) (by omega) (by omega)
  rw [← wordsFell_text]
  obtain ⟨⟨t, k1⟩, k2⟩ := C88_main_partial (E := E) (F := F) (G := fun x => x = "x") (us := partsFell) (b := bodyFell) (v := 0) (g := .next)
    (TN := fun _ _ _ => False) (fr1 := globFell ps.length 1) (fr2 := [])
    (fr' := globFell ps.length 2) (n := 1) (m := 0)
    (Φ' := addProc (fun _ => none) "main" ⟨[], bodyFell⟩) hl few cap (TextCheck.okW_text wordsFell_ok)
    (.more (.stmt (.decl (ws := [.int]) (.one rfl) ⟨[.int], by decide, by decide⟩ (.one (.init (s := [120]) ⟨.int 1, .int, .int⟩))))
      (.one (.proc (.none (ws := [.int]) (ty := .arith .int) (s := [109, 97, 105, 110]) (.one rfl) ⟨[.int], by decide, by decide⟩ (by decide)
        (.items (.last (.stmt (.act (.set (s := [120]) ⟨.int 2, .int, .int⟩)))))))))
    (by simp [partsFell, Part.Declares]) (by
      simp only [partsFell, List.mem_cons, List.not_mem_nil, or_false, forall_eq_or_imp, forall_eq]
      exact ⟨by simp [Part.Apart, Stmt.inners], by simp [bodyFell, Stmt.free, Expr.uses, Act.uses, Stmt.binds], by simp,
        by simp [bodyFell, Stmt.binds, Stmt.inners]⟩)
    (.stmt (n := 1) (m := 0) (.decl (by decide) (.init rfl (.set (c := .int) (u := none) (v := 1) (w := 1) rfl (.lit 1)
      (.inl ⟨rfl, .inl (by decide)⟩) (conv_self h1.1)) .nil)) (.proc rfl .nil)) rfl
    (by intro q hq; simpa [partsFell] using hq)
    (.seq (n := 0) (m := 0) (.act (.set (c := .int) (u := some 1) (v := 2) (w := 2) rfl (.lit 2) (.inl ⟨rfl, .inl (by decide)⟩) (conv_self h2.1))) .skip)
    .fell rfl
  obtain ⟨x, s, s', o, k3, k4, k5, k6, k7⟩ := k2 t k1
  exact ⟨t, x, s, s', o, k1, k3, k4, k5, k6, k7⟩

end Bic
