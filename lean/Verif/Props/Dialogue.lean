import Verif.Proofs.Dialogue
import Verif.Proofs.TextCheck
import Verif.Props.ScriptText
/-!
# C89: dialogues at the REPL
-/

namespace Bic.Repl
open Spec CSyn
open Lexer (Reads Follows)
open _root_.Bic.Parser (PT T K nameStr)
open Printer (Floats)
open CText (Text ascii)

/-- the lines typed for these inputs: each line is an input itself, and the last line of what the
preprocessor makes of it is the input that is meant (they differ when the line uses macros) -/
inductive Typed (Tx : List T → Str → Prop) (TN : List T → PT → List T → Prop) (cpp : Str → Str) : List Str → List Input → Prop
  | nil : Typed Tx TN cpp [] []
  | cons {line text i0 i p0 p ls ps} : Tx i0 line → WInput cTable TN p0 i0 → LastLine (cpp line) text → Tx i text → WInput cTable TN p i →
      Typed Tx TN cpp ls ps → Typed Tx TN cpp (line :: ls) (p :: ps)

/-- C89: for each line bic shows what C gives for it -- the value of the expression, the name that is
declared --, and the variables keep the values C gives them from line to line. -/
def C89_statement : Prop :=
  ∀ (E : Env) (fl : Floats) (F : Str → Nat) (cpp : List String → Str → Str) (r : RSt) (TN : List T → PT → List T → Prop) (σ σ' : Store)
    (ls outs : List Str) (ps : List Input) (n : Nat), r.lx.mode = .initial → Good r.st σ n →
    Typed (CText.CText r.ty) TN (cpp r.st.includes) ls ps → Dialogue cRules cShows σ ps outs σ' n →
    ∃ r', Session E fl F cpp r ls outs none r' ∧ Rel r'.st σ'

/-- What bic shows: for an assignment the value before its conversion.  No other session is possible. -/
theorem C89_shown {E : Env} {fl : Floats} {F : Str → Nat} {cpp : List String → Str → Str} {r : RSt} {TN : List T → PT → List T → Prop}
    {σ σ' : Store} {ls outs : List Str} {ps : List Input} {n : Nat} (hm : r.lx.mode = .initial) (g : Good r.st σ n)
    (ht : Typed (Text (Reads r.ty) Follows) TN (cpp r.st.includes) ls ps) (h : Dialogue okRules bicShows σ ps outs σ' n) :
    (∃ r', Session E fl F cpp r ls outs none r' ∧ Rel r'.st σ') ∧
    ∀ outs' w r', Session E fl F cpp r ls outs' w r' → outs' = outs ∧ w = none ∧ Rel r'.st σ' := by
  induction h generalizing r ls with
  | nil =>
    cases ht
    refine ⟨⟨r, .nil, g.rel⟩, ?_⟩
    intro os w r' hs
    cases hs
    exact ⟨rfl, rfl, g.rel⟩
  | cons h1 h2 ih =>
    cases ht with
    | cons t1 t2 t3 t4 t5 t6 =>
      obtain ⟨⟨r1, l1⟩, l2⟩ := line_of (E := E) (fl := fl) (F := F) hm g t1 t2 t3 t4 t5 h1
      have step : ∀ r1 : RSt, r1.lx.mode = .initial ∧ r1.ty = r.ty ∧ r1.st.includes = r.st.includes ∧ Good r1.st _ _ → _ :=
        fun r1 h => ih (r := r1) (ls := _) h.1 h.2.2.2 (by rw [h.2.1, h.2.2.1]; exact t6)
      constructor
      · obtain ⟨⟨r', i1, i2⟩, -⟩ := step r1 (l2 _ _ l1).2
        exact ⟨r', .cons l1 i1, i2⟩
      · intro os w r' hs
        cases hs with
        | cons j1 j2 =>
          obtain ⟨e, j3⟩ := l2 _ _ j1
          cases e
          obtain ⟨e1, e2, e3⟩ := (step _ j3).2 _ _ _ j2
          exact ⟨by rw [e1], e2, e3⟩
        | ends j1 => exact absurd (l2 _ _ j1).1 nofun

/-- bic and C show the same if assigned values fit into the type of the variable and stepped values
into a `long` -/
def okShows : Shows := ⟨fun v w z => z = w ∧ v = w, InRange .long⟩

theorem Reply.mono {L : Rules} {S S' : Shows} (h1 : ∀ v w z, S.asg v w z → S'.asg v w z) (h2 : ∀ z, S.step z → S'.step z) {σ p out σ' n}
    (h : Reply L S σ p out σ' n) : Reply L S' σ p out σ' n := by
  cases h with
  | expr a b => exact .expr a b
  | set a b c d e f => exact .set a b c d (h1 _ _ _ e) f
  | post a b c d => exact .post a b (h2 _ c) d
  | pre a b c d => exact .pre a b (h2 _ c) d
  | decl a b c => exact .decl a b c
  | empty => exact .empty

theorem Dialogue.mono {L : Rules} {S S' : Shows} (h1 : ∀ v w z, S.asg v w z → S'.asg v w z) (h2 : ∀ z, S.step z → S'.step z) {σ ps outs σ' n}
    (h : Dialogue L S σ ps outs σ' n) : Dialogue L S' σ ps outs σ' n := by
  induction h with
  | nil => exact .nil
  | cons a _ ih => exact .cons (Reply.mono h1 h2 a) ih

/-- C89 for the texts of `C81_tokens_partial`, the operations of `C34_programs_partial`, and values that
fit; no other session is possible. -/
theorem C89_dialogue_partial {E : Env} {fl : Floats} {F : Str → Nat} {cpp : List String → Str → Str} {r : RSt}
    {TN : List T → PT → List T → Prop} {σ σ' : Store} {ls outs : List Str} {ps : List Input} {n : Nat} (hm : r.lx.mode = .initial)
    (g : Good r.st σ n) (ht : Typed (Text (Reads r.ty) Follows) TN (cpp r.st.includes) ls ps) (h : Dialogue okRules okShows σ ps outs σ' n) :
    (∃ r', Session E fl F cpp r ls outs none r' ∧ Rel r'.st σ') ∧
    ∀ outs' w r', Session E fl F cpp r ls outs' w r' → outs' = outs ∧ w = none ∧ Rel r'.st σ' :=
  C89_shown hm g ht (Dialogue.mono (S := okShows) (S' := bicShows) (fun _ _ _ h => h.1.trans h.2.symm) (fun _ h => h) h)

/-! ### Examples: `int y=7;`, `x=y+2;`, `x++;`, `x;`, `;` and `x=3000000000;` -/

open TextCheck

def cpp89 : List String → Str → Str := fun _ l => ascii "# 1 \"<stdin>\"" ++ [10] ++ (l ++ [10])

theorem lastLine89 {hs : List String} {l : Str} (h : newline ∉ l) : LastLine (cpp89 hs l) l :=
  ⟨h, ascii "# 1 \"<stdin>\"" ++ [10], by simp [cpp89, newline], .inr ⟨_, rfl⟩⟩

def st89 : St := stOf [.ctype .int none, .lv (some 0) 4096 false 0, .ident "x"] [⟨"x", 2, some 1⟩] (List.replicate 8 0)
def r89 : RSt := ⟨Lexer.start, fun _ => false, st89⟩

abbrev W89 := List (Option (Wd fun _ => false))

def decl89 : W89 := [kw .int "int", sp, idn [121] name_y, kw .assign "=", num [55], kw .semi ";"]
def set89 : W89 := [idn [120] Lexer.name_x, kw .assign "=", idn [121] name_y, kw .plus "+", num [50], kw .semi ";"]
def inc89 : W89 := [idn [120] Lexer.name_x, kw .incr "++", kw .semi ";"]
def var89 : W89 := [idn [120] Lexer.name_x, kw .semi ";"]
def emp89 : W89 := [kw .semi ";"]
def big89 : W89 := [idn [120] Lexer.name_x, kw .assign "=", num (ascii "3000000000"), kw .semi ";"]

theorem ok89 : (okW decl89 && okW set89 && okW inc89 && okW var89 && okW emp89 && okW big89) = true := by decide +kernel

theorem typed1 {l : W89} {p : Input} {ls ps} {TN} (h : okW l = true) (hn : newline ∉ textW l) (hw : WInput cTable TN p (toksW l))
    (ht : Typed (Text (Reads fun _ => false) Follows) TN (cpp89 []) ls ps) :
    Typed (Text (Reads fun _ => false) Follows) TN (cpp89 []) (textW l :: ls) (p :: ps) :=
  .cons (okW_text h) hw (lastLine89 hn) (okW_text h) hw ht

def lines89 : List Str := [textW decl89, textW set89, textW inc89, textW var89, textW emp89]

theorem lines89_eq : lines89 = ["int y=7;", "x=y+2;", "x++;", "x;", ";"].map ascii := by decide +kernel

def inputs89 : List Input :=
  [.decl .int [("y", some (.lit 7))], .set "x" (.bin .add (.var "y") (.lit 2)), .post "x" 1, .expr (.var "x"), .empty]

theorem typed89 : Typed (Text (Reads fun _ => false) Follows) (fun _ _ _ => False) (cpp89 []) lines89 inputs89 := by
  have h := ok89
  simp only [Bool.and_eq_true] at h
  obtain ⟨⟨⟨⟨⟨h1, h2⟩, h3⟩, h4⟩, h5⟩, _⟩ := h
  refine typed1 h1 (by decide +kernel) (.decl (ws := [.int]) (.one rfl) ⟨[.int], by decide, by decide⟩
    (.one (.init (s := [121]) ⟨.int 7, .int, .int⟩))) ?_
  refine typed1 h2 (by decide +kernel) (.set (s := [120]) ⟨.bin .add (.ident [121]) (.int 2), .bin (o := .add) (by decide) .ident .int,
    .bin (bo := .add) rfl .ident .int⟩) ?_
  refine typed1 h3 (by decide +kernel) (.pInc (s := [120])) ?_
  refine typed1 h4 (by decide +kernel) (.expr (e := .var "x") ⟨.ident [120], .ident, .ident⟩) ?_
  exact typed1 h5 (by decide +kernel) .empty .nil

def outs89 : List Str := [ascii "y" ++ [10], [57] ++ [10], [57] ++ [10], [49, 48] ++ [10], []]

theorem outs89_eq : outs89 = ["y\n", "9\n", "9\n", "10\n", ""].map ascii := by decide +kernel

def store89 (v : Int) : Store := [[("x", some ⟨.int, some v⟩), ("y", some ⟨.int, some 7⟩)]]

theorem dialogue89 : Dialogue okRules okShows (store34 (some 0)) inputs89 outs89 (store89 10) 1 := by
  refine .cons (n := 1) (m := 0) (σ1 := store89 0) (p := .decl .int [("y", some (.lit 7))]) (out := ascii "y" ++ [10]) (.decl (x := "y") (e := some (.lit 7)) (by decide) (.init rfl (.set (c := .int) (u := none)
    (v := 7) (w := 7) rfl (.lit 7) (.inl ⟨rfl, .inl (by decide)⟩) (conv_self (by decide))) .nil) rfl) ?_
  refine .cons (n := 0) (m := 0) (out := [57] ++ [10]) (.set (c := .int) (u := some 0) (v := 9) (w := 9) rfl
    (.bin (.var ⟨.int, rfl, show InRange .long _ by decide⟩) (.lit 2) ⟨by simp [cOp], by simp [side]⟩) (.inl ⟨rfl, .inl (by decide)⟩) (conv_self (by decide))
    ⟨rfl, rfl⟩ ⟨[57], by unfold CText.Digits; decide, .inr (by decide), .inl ⟨rfl, by decide⟩⟩) ?_
  refine .cons (n := 0) (m := 0) (out := [57] ++ [10]) (.post (c := .int) (v := 9) (w := 10) rfl (conv_self (by decide)) (show InRange .long _ by decide)
    ⟨[57], by unfold CText.Digits; decide, .inr (by decide), .inl ⟨rfl, by decide⟩⟩) ?_
  refine .cons (n := 0) (m := 0) (out := [49, 48] ++ [10]) (.expr (v := 10) (.var ⟨.int, rfl, show InRange .long _ by decide⟩)
    ⟨[49, 48], by unfold CText.Digits; decide, .inr (by decide), .inl ⟨rfl, by decide⟩⟩) ?_
  exact .cons (n := 0) (m := 0) (out := []) .empty .nil

theorem good89 (n : Nat) (hn : n ≤ 1000) : Good r89.st (store34 (some 0)) n := good34 n hn (some 0) (by simp) _ rfl rfl

example (fl : Floats) (F : Str → Nat) : (∃ r', Session E0 fl F cpp89 r89 lines89 outs89 none r' ∧ Rel r'.st (store89 10)) ∧
    ∀ outs' w r', Session E0 fl F cpp89 r89 lines89 outs' w r' → outs' = outs89 ∧ w = none ∧ Rel r'.st (store89 10) :=
  C89_dialogue_partial rfl (good89 1 (by omega)) typed89 dialogue89

theorem typedBig {Tx : List T → Str → Prop} (h : Tx (toksW big89) (textW big89)) :
    Typed Tx (fun _ _ _ => False) (cpp89 []) [textW big89] [.set "x" (.lit 3000000000)] := by
  have hw : WInput cTable (fun _ _ _ => False) (.set "x" (.lit 3000000000)) (toksW big89) := .set (s := [120]) ⟨.int 3000000000, .int, .int⟩
  exact .cons h hw (lastLine89 (by decide +kernel)) h hw .nil

theorem decimalBig : Decimal 3000000000 (ascii "3000000000") :=
  ⟨ascii "3000000000", by unfold CText.Digits; decide +kernel, .inr (by decide +kernel), .inl ⟨rfl, by decide +kernel⟩⟩

theorem decimalWrapped : Decimal (-1294967296) (ascii "-1294967296") :=
  ⟨ascii "1294967296", by unfold CText.Digits; decide +kernel, .inr (by decide +kernel), .inr ⟨by decide +kernel, by decide +kernel, by decide +kernel⟩⟩

/-- C89 is false: for `x=3000000000;` with `int x` bic shows 3000000000, although the value of `x` and
of the assignment is -1294967296. -/
theorem C89_refuted : ¬ C89_statement := by
  intro h
  have hok := ok89
  simp only [Bool.and_eq_true] at hok
  have hc : Converts .int 3000000000 (-1294967296) := ⟨by decide, 1, by decide⟩
  obtain ⟨r', h1, _⟩ := h E0 ⟨fun _ => [], fun _ _ => []⟩ (fun _ => 0) cpp89 r89 (fun _ _ _ => False) (store34 (some 0)) (store34 (some (-1294967296)))
    [textW big89] [ascii "-1294967296" ++ [10]] [.set "x" (.lit 3000000000)] 0 rfl (good89 0 (by omega)) (typedBig (okW_ctext hok.2))
    (.cons (n := 0) (m := 0) (.set (c := .int) (u := some 0) (v := 3000000000) (w := -1294967296) rfl (.lit _) trivial hc rfl decimalWrapped) .nil)
  have h2 := (C89_shown (E := E0) (fl := ⟨fun _ => [], fun _ _ => []⟩) (F := fun _ => 0) (r := r89) (cpp := cpp89) (n := 0) rfl (good89 0 (by omega)) (typedBig (okW_text hok.2))
    (.cons (n := 0) (m := 0) (.set (c := .int) (u := some 0) (v := 3000000000) (w := -1294967296) rfl (.lit _)
      (.inl ⟨rfl, .inl (by decide)⟩) hc rfl decimalBig) .nil)).2 _ _ _ h1
  exact absurd h2.1 (by decide +kernel)

end Bic.Repl
