import Verif.Proofs.ArrayDialogue
/-!
# C101: dialogues with an array
-/

namespace Bic.Repl
open Spec CSyn
open Lexer (Reads Follows)
open _root_.Bic.Parser (PT T K nameStr)
open Printer (Floats)
open CText (Text ascii)

section
variable (Tx : List T → Str → Prop) (TN : List T → PT → List T → Prop) (cpp : Str → Str)

/-- the line, as it is typed and after the preprocessor, declares the array `x` -/
structure ArrayLine (line : Str) (k : CT) (x : Str) (e : Expr) : Prop where
  typed : ∃ i0 k0 x0 e0, Tx i0 line ∧ WArrayVar cTable TN k0 x0 e0 i0
  meant : ∃ i text, LastLine (cpp line) text ∧ Tx i text ∧ WArrayVar cTable TN k x e i

/-- the lines typed for these inputs, as in C89 -/
inductive ATyped (x : Str) : List Str → List AInput → Prop
  | nil : ATyped x [] []
  | cons {line text i0 i p0 p ls ps} : Tx i0 line → WAInput cTable TN x p0 i0 → LastLine (cpp line) text → Tx i text → WAInput cTable TN x p i →
      ATyped x ls ps → ATyped x (line :: ls) (p :: ps)

end

/-- C101: after the declaration of an array each line that assigns to an element shows the value assigned, and each
line that names an element shows the value last assigned to that element. -/
def C101_statement : Prop :=
  ∀ (E : Env) (fl : Floats) (F : Str → Nat) (cpp : List String → Str → Str) (r : RSt) (TN : List T → PT → List T → Prop) (k : CT)
    (x : Str) (e : Expr) (n : Nat) (σ : AVals) (line : Str) (ls outs : List Str) (ps : List AInput),
    r.lx.mode = .initial → WF r.st → Fresh r.st (nameStr x) → Cap r.st (128 + k.size * n + 96 * ps.length) → integral k → 0 < n →
    ArrayLine (CText.CText r.ty) TN (cpp r.st.includes) line k x e → CVal (IntIs r.st) e n →
    ATyped (CText.CText r.ty) TN (cpp r.st.includes) x ls ps →
    ADialogue (CVal fun y u => IntIs r.st y u ∧ y ≠ nameStr x) (CVal fun y u => IntIs r.st y u ∧ y ≠ nameStr x) (fun _ w z => z = w) k n
      (fun _ => none) ps outs σ →
    ∃ r', Session E fl F cpp r (line :: ls) ((ascii (nameStr x) ++ [newline]) :: outs) none r'

/-- the lines after the declaration -/
theorem elems_session {E : Env} {fl : Floats} {F : Str → Nat} {cpp : List String → Str → Str} {r : RSt} {s0 : St}
    {TN : List T → PT → List T → Prop} {x : Str} {k : CT} {n cap : Nat} {σ σ' : AVals} {ls outs : List Str} {ps : List AInput} (hk : integral k)
    (hm : r.lx.mode = .initial) (g : Elems s0 r.st (nameStr x) k n σ (cap + 96 * ps.length))
    (ht : ATyped (Text (Reads r.ty) Follows) TN (cpp s0.includes) x ls ps)
    (h : ADialogue (Val okOp okTruth fun y u => IntIs s0 y u ∧ y ≠ nameStr x) (bicVal s0 (nameStr x) k) (fun v _ z => z = v) k n σ ps outs σ') :
    (∃ r', Session E fl F cpp r ls outs none r') ∧
    ∀ outs' w r', Session E fl F cpp r ls outs' w r' → outs' = outs ∧ w = none ∧ Elems s0 r'.st (nameStr x) k n σ' cap := by
  induction h generalizing r ls with
  | nil =>
    cases ht
    refine ⟨⟨r, .nil⟩, ?_⟩
    intro os w r' hs
    cases hs
    exact ⟨rfl, rfl, g⟩
  | @cons σ p out σ1 ps outs σ2 h1 h2 ih =>
    cases ht with
    | cons t1 t2 t3 t4 t5 t6 =>
      obtain ⟨q0, d0, n0, c0, -⟩ := ainput_der t2
      obtain ⟨q, d, nn, -, b⟩ := ainput_der t5
      rw [← g.kept.includes] at t3
      have g' : Elems s0 r.st (nameStr x) k n σ (cap + 96 * ps.length + 96) := by
        have : cap + 96 * (p :: ps).length = cap + 96 * ps.length + 96 := by simp only [List.length_cons]; omega
        rw [← this]
        exact g
      obtain ⟨⟨r1, l1⟩, l2⟩ := line_shows (E := E) (fl := fl) (F := F) (cpp := cpp) (out := out)
        (P := fun s' => Elems s0 s' (nameStr x) k n σ1 (cap + 96 * ps.length)) g.wf hm t1 d0 n0 c0 t3 t4 d nn
        fun s y e hy => ainput_conv fl hk (g'.ext e) (b hy) h1
      have step : ∀ r1 : RSt, r1.lx.mode = .initial ∧ r1.ty = r.ty ∧ Elems s0 r1.st (nameStr x) k n σ1 (cap + 96 * ps.length) → _ :=
        fun r1 h => ih (r := r1) (ls := _) h.1 h.2.2 (by rw [h.2.1]; exact t6)
      constructor
      · obtain ⟨⟨r', i1⟩, -⟩ := step r1 (l2 _ _ l1).2
        exact ⟨r', .cons l1 i1⟩
      · intro os w r' hs
        cases hs with
        | cons j1 j2 =>
          obtain ⟨e, j3⟩ := l2 _ _ j1
          cases e
          obtain ⟨e1, e2, e3⟩ := (step _ j3).2 _ _ _ j2
          exact ⟨by rw [e1], e2, e3⟩
        | ends j1 => exact absurd (l2 _ _ j1).1 nofun

/-- What bic shows: for an assignment the value before its conversion.  No other session is possible. -/
theorem C101_shown {E : Env} {fl : Floats} {F : Str → Nat} {cpp : List String → Str → Str} {r : RSt}
    {TN : List T → PT → List T → Prop} {k : CT} {x : Str} {e : Expr} {n : Nat} {σ : AVals} {line : Str} {ls outs : List Str}
    {ps : List AInput} (hm : r.lx.mode = .initial) (w : WF r.st) (hf : Fresh r.st (nameStr x))
    (hc : Cap r.st (128 + k.size * n + 96 * ps.length)) (hk : integral k)
    (hl : ArrayLine (Text (Reads r.ty) Follows) TN (cpp r.st.includes) line k x e) (hv : Val okOp okTruth (IntIs r.st) e n)
    (ht : ATyped (Text (Reads r.ty) Follows) TN (cpp r.st.includes) x ls ps)
    (h : ADialogue (Val okOp okTruth fun y u => IntIs r.st y u ∧ y ≠ nameStr x) (bicVal r.st (nameStr x) k) (fun v _ z => z = v) k n
      (fun _ => none) ps outs σ) :
    (∃ r', Session E fl F cpp r (line :: ls) ((ascii (nameStr x) ++ [newline]) :: outs) none r') ∧
    ∀ outs' w r', Session E fl F cpp r (line :: ls) outs' w r' → outs' = (ascii (nameStr x) ++ [newline]) :: outs ∧ w = none ∧
      Elems r.st r'.st (nameStr x) k n σ 0 := by
  obtain ⟨i0, k0, x0, e0, t1, w1⟩ := hl.typed
  obtain ⟨i, text, t2, t3, w2⟩ := hl.meant
  obtain ⟨q0, d0, n0, c0, -⟩ := arrayVar_der w1
  obtain ⟨q, d, nn, -, b⟩ := arrayVar_der w2
  obtain ⟨⟨r1, l1⟩, l2⟩ := line_shows (E := E) (fl := fl) (F := F) (cpp := cpp) (out := ascii (nameStr x) ++ [newline])
    (P := fun s' => Elems r.st s' (nameStr x) k n (fun _ => none) (96 * ps.length)) w hm t1 d0 n0 c0 t2 t3 d nn fun s y he hy => by
      obtain ⟨id, s', h1, h2, h3⟩ := arrayDecl_conv (E := E) he w (b hy) hf hv hc
      exact ⟨s', .inl ⟨id, _, h1, rfl, fun o => prints_ident h2 o⟩, h3⟩
  have step : ∀ r1 : RSt, r1.lx.mode = .initial ∧ r1.ty = r.ty ∧ Elems r.st r1.st (nameStr x) k n (fun _ => none) (96 * ps.length) → _ :=
    fun r1 j => elems_session (E := E) (fl := fl) (F := F) (cap := 0) hk j.1 (by rw [Nat.zero_add]; exact j.2.2) (by rw [j.2.1]; exact ht) h
  constructor
  · obtain ⟨⟨r', i1⟩, -⟩ := step r1 (l2 _ _ l1).2
    exact ⟨r', .cons l1 i1⟩
  · intro os w r' hs
    cases hs with
    | cons j1 j2 =>
      obtain ⟨e, j3⟩ := l2 _ _ j1
      cases e
      obtain ⟨e1, e2, e3⟩ := (step _ j3).2 _ _ _ j2
      exact ⟨by rw [e1], e2, e3⟩
    | ends j1 => exact absurd (l2 _ _ j1).1 nofun

theorem ADialogue.mono {idx val : Expr → Int → Prop} {sh sh' : Int → Int → Int → Prop} (h2 : ∀ v w z, sh v w z → sh' v w z) {k n σ ps outs σ'}
    (h : ADialogue idx val sh k n σ ps outs σ') : ADialogue idx val sh' k n σ ps outs σ' := by
  induction h with
  | nil => exact .nil
  | cons a _ ih =>
    refine .cons ?_ ih
    cases a with
    | set a b c d e f => exact .set a b c d (h2 _ _ _ e) f
    | get a b c d => exact .get a b c d

/-- C101 for the texts of `C81_tokens_partial`, the operations of `C34_programs_partial` and values that fit into
the elements.  The values assigned are literals or computed, not the names of variables.  No other session is
possible. -/
theorem C101_elements_partial {E : Env} {fl : Floats} {F : Str → Nat} {cpp : List String → Str → Str} {r : RSt}
    {TN : List T → PT → List T → Prop} {k : CT} {x : Str} {e : Expr} {n : Nat} {σ : AVals} {line : Str} {ls outs : List Str}
    {ps : List AInput} (hm : r.lx.mode = .initial) (w : WF r.st) (hf : Fresh r.st (nameStr x))
    (hc : Cap r.st (128 + k.size * n + 96 * ps.length)) (hk : integral k)
    (hl : ArrayLine (Text (Reads r.ty) Follows) TN (cpp r.st.includes) line k x e) (hv : Val okOp okTruth (IntIs r.st) e n)
    (ht : ATyped (Text (Reads r.ty) Follows) TN (cpp r.st.includes) x ls ps)
    (h : ADialogue (Val okOp okTruth fun y u => IntIs r.st y u ∧ y ≠ nameStr x) (bicVal r.st (nameStr x) k) (fun v w z => z = w ∧ v = w) k n
      (fun _ => none) ps outs σ) :
    (∃ r', Session E fl F cpp r (line :: ls) ((ascii (nameStr x) ++ [newline]) :: outs) none r') ∧
    ∀ outs' w r', Session E fl F cpp r (line :: ls) outs' w r' → outs' = (ascii (nameStr x) ++ [newline]) :: outs ∧ w = none :=
  have := C101_shown (E := E) (fl := fl) (F := F) hm w hf hc hk hl hv ht (ADialogue.mono (fun _ _ _ h => h.1.trans h.2.symm) h)
  ⟨this.1, fun o w r' hs => ⟨(this.2 o w r' hs).1, (this.2 o w r' hs).2.1⟩⟩

/-! ### Examples: `char a[x+3];`, `a[2]=x+7;`, `a[x]=5;`, `a[1+1];`, and `a[0]=300;` -/

open TextCheck

def decl101 : W89 := [kw .char "char", sp, idn [97] (name1 97), kw .lbrack "[", idn [120] Lexer.name_x, kw .plus "+", num [51], kw .rbrack "]", kw .semi ";"]
def set101 : W89 := [idn [97] (name1 97), kw .lbrack "[", num [50], kw .rbrack "]", kw .assign "=", idn [120] Lexer.name_x, kw .plus "+", num [55], kw .semi ";"]
def setx101 : W89 := [idn [97] (name1 97), kw .lbrack "[", idn [120] Lexer.name_x, kw .rbrack "]", kw .assign "=", num [53], kw .semi ";"]
def get101 : W89 := [idn [97] (name1 97), kw .lbrack "[", num [49], kw .plus "+", num [49], kw .rbrack "]", kw .semi ";"]
def big101 : W89 := [idn [97] (name1 97), kw .lbrack "[", num [48], kw .rbrack "]", kw .assign "=", num (ascii "300"), kw .semi ";"]

theorem ok101 : (okW decl101 && okW set101 && okW setx101 && okW get101 && okW big101) = true := by decide +kernel

theorem lines101_eq : [decl101, set101, setx101, get101, big101].map textW =
    ["char a[x+3];", "a[2]=x+7;", "a[x]=5;", "a[1+1];", "a[0]=300;"].map ascii := by decide +kernel

theorem wdecl101 : WArrayVar cTable noTN .char [97] (.bin .add (.var "x") (.lit 3)) (toksW decl101) :=
  .mk (ws := [.char]) (.one rfl) ⟨[.char], by decide, by decide⟩
    ⟨.bin .add (.ident [120]) (.int 3), .bin (o := .add) (by decide) .ident .int, .bin (bo := .add) rfl .ident .int⟩

theorem arrayLine101 {Tx : List T → Str → Prop} (h : Tx (toksW decl101) (textW decl101)) :
    ArrayLine Tx noTN (cpp89 []) (textW decl101) .char [97] (.bin .add (.var "x") (.lit 3)) :=
  ⟨⟨_, _, _, _, h, wdecl101⟩, ⟨_, _, lastLine89 (by decide +kernel), h, wdecl101⟩⟩

theorem atyped1 {Tx : List T → Str → Prop} {l : W89} {p : AInput} {ls ps} (h : Tx (toksW l) (textW l)) (hn : newline ∉ textW l)
    (hw : WAInput cTable noTN [97] p (toksW l)) (ht : ATyped Tx noTN (cpp89 []) [97] ls ps) :
    ATyped Tx noTN (cpp89 []) [97] (textW l :: ls) (p :: ps) :=
  .cons h hw (lastLine89 hn) h hw ht

theorem fresh101 : Fresh r89.st "a" := by
  intro c cs hc b hb
  simp only [r89, st89, stOf, List.cons.injEq] at hc
  obtain ⟨rfl, -⟩ := hc
  simp only [ctx1, List.mem_singleton] at hb
  subst hb
  decide

theorem size101 : Val okOp okTruth (IntIs r89.st) (.bin .add (.var "x") (.lit 3)) ((3 : Nat) : Int) := .bin (x := 0) (.var x99) (.lit _) ⟨rfl, trivial⟩

example (fl : Floats) (F : Str → Nat) :
    (∃ r', Session E0 fl F cpp89 r89 ([decl101, set101, setx101, get101].map textW) (["a\n", "7\n", "5\n", "7\n"].map ascii) none r') ∧
    ∀ outs a r', Session E0 fl F cpp89 r89 ([decl101, set101, setx101, get101].map textW) outs a r' → outs = ["a\n", "7\n", "5\n", "7\n"].map ascii ∧ a = none := by
  have h := ok101
  simp only [Bool.and_eq_true] at h
  obtain ⟨⟨⟨⟨h0, h1⟩, h2⟩, h3⟩, _⟩ := h
  have e : ["a\n", "7\n", "5\n", "7\n"].map ascii = [ascii "a" ++ [newline], [55] ++ [10], [53] ++ [10], [55] ++ [10]] := by decide +kernel
  rw [e]
  refine C101_elements_partial (x := [97]) (k := .char) (n := 3) (σ := fun y => if y = 0 then some 5 else if y = 2 then some 7 else none) rfl (stOf_WF _ _ _) fresh101
    ⟨by decide +kernel, by simp [r89, st89, stOf], memOf_livelt _⟩ trivial (arrayLine101 (okW_text h0)) size101
    (atyped1 (okW_text h1) (by decide +kernel) (.set ⟨.int 2, .int, .int⟩ ⟨.bin .add (.ident [120]) (.int 7), .bin (o := .add) (by decide) .ident .int,
      .bin (bo := .add) rfl .ident .int⟩)
    (atyped1 (okW_text h2) (by decide +kernel) (.set ⟨.ident [120], .ident, .ident⟩ ⟨.int 5, .int, .int⟩)
    (atyped1 (okW_text h3) (by decide +kernel) (.get ⟨.bin .add (.int 1) (.int 1), .bin (o := .add) (by decide) .int .int,
      .bin (bo := .add) rfl .int .int⟩) .nil))) ?_
  refine .cons (.set (j := 2) (v := 7) (w := 7) (.lit _) (by decide) ⟨.bin (x := 0) (.var ⟨x99, by decide⟩) (.lit _) ⟨rfl, trivial⟩, rfl, .inl (by decide)⟩
    (Converts.self (by decide)) ⟨rfl, rfl⟩ ?_) (.cons (.set (j := 0) (v := 5) (w := 5) (.var ⟨x99, by decide⟩) (by decide) ⟨.lit _, rfl, .inl (by decide)⟩
    (Converts.self (by decide)) ⟨rfl, rfl⟩ ?_) (.cons (.get (j := 2) (v := 7) (.bin (x := 1) (.lit _) (.lit _) ⟨rfl, trivial⟩) (by decide) (by decide) ?_) .nil))
  all_goals exact ⟨_, by unfold CText.Digits; decide +kernel, .inr (by decide +kernel), .inl ⟨rfl, by decide +kernel⟩⟩

/-- C101 is false: for `a[0]=300;` with an array of `char` bic shows 300, and C the value of `a[0]`. -/
theorem C101_refuted : ¬ C101_statement := by
  intro h
  have hok := ok101
  simp only [Bool.and_eq_true] at hok
  obtain ⟨⟨h0, _⟩, h1⟩ := hok
  have hw : WAInput cTable noTN [97] (.set (.lit 0) (.lit 300)) (toksW big101) := .set ⟨.int 0, .int, .int⟩ ⟨.int 300, .int, .int⟩
  have hc : Converts .char 300 44 := ⟨by decide, 1, by decide⟩
  have hcap : Cap r89.st (128 + CT.char.size * 3 + 96 * 1) := ⟨by decide +kernel, by simp [r89, st89, stOf], memOf_livelt _⟩
  obtain ⟨r', h3⟩ := h E0 ⟨fun _ => [], fun _ _ => []⟩ (fun _ => 0) cpp89 r89 noTN .char [97] _ 3 _ (textW decl101) [textW big101] [ascii "44" ++ [10]]
    [.set (.lit 0) (.lit 300)] rfl (stOf_WF _ _ _) fresh101 hcap trivial (by decide) (arrayLine101 (okW_ctext h0.1.1))
    (.bin (x := 0) (.var x99) (.lit _) rfl) (atyped1 (okW_ctext h1) (by decide +kernel) hw .nil)
    (.cons (.set (j := 0) (v := 300) (w := 44) (.lit _) (by decide) (.lit _) hc rfl
      ⟨ascii "44", by unfold CText.Digits; decide +kernel, .inr (by decide +kernel), .inl ⟨rfl, by decide +kernel⟩⟩) .nil)
  have := ((C101_shown (E := E0) (fl := ⟨fun _ => [], fun _ _ => []⟩) (F := fun _ => 0) (cpp := cpp89) (x := [97]) (k := .char) (outs := [ascii "300" ++ [10]])
    rfl (stOf_WF _ _ _) fresh101 hcap trivial (arrayLine101 (okW_text h0.1.1)) size101 (atyped1 (okW_text h1) (by decide +kernel) hw .nil)
    (.cons (.set (j := 0) (v := 300) (w := 44) (.lit _) (by decide) ⟨.lit _, rfl, .inl (by decide)⟩ hc rfl
      ⟨ascii "300", by unfold CText.Digits; decide +kernel, .inr (by decide +kernel), .inl ⟨rfl, by decide +kernel⟩⟩) .nil)).2 _ _ _ h3).1
  exact absurd this (by decide +kernel)

end Bic.Repl
