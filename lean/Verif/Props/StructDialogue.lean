import Verif.Proofs.StructDialogue
/-!
# C100: dialogues with a structure
-/

namespace Bic.Repl
open Spec CSyn
open Lexer (Reads Follows)
open _root_.Bic.Parser (PT T K nameStr)
open Printer (Floats)
open CText (Text ascii)

/-- the lines typed for these inputs, as in C89 -/
inductive MTyped (Tx : List T → Str → Prop) (TN : List T → PT → List T → Prop) (cpp : Str → Str) (x : Str) : List Str → List MInput → Prop
  | nil : MTyped Tx TN cpp x [] []
  | cons {line text i0 i p0 p ls ps} : Tx i0 line → WMInput cTable TN x p0 i0 → LastLine (cpp line) text → Tx i text → WMInput cTable TN x p i →
      MTyped Tx TN cpp x ls ps → MTyped Tx TN cpp x (line :: ls) (p :: ps)

/-- C100: after the declaration of a structure each line that assigns to a member shows the value assigned, and each
line that names a member shows the value last assigned to that member. -/
def C100_statement : Prop :=
  ∀ (E : Env) (fl : Floats) (F : Str → Nat) (cpp : List String → Str → Str) (r : RSt) (TN : List T → PT → List T → Prop) (tag : Option String)
    (x : Str) (ms : List (String × MTy)) (σ : MVals) (line : Str) (ls outs : List Str) (ps : List MInput),
    Ready r true tag (nameStr x) ms → (ms.map Prod.fst).Nodup →
    CompLine (CText.CText r.ty) (cpp r.st.includes) line true tag (nameStr x) ms → MTyped (CText.CText r.ty) TN (cpp r.st.includes) x ls ps →
    MDialogue (fun _ => CVal fun y u => IntIs r.st y u ∧ y ≠ nameStr x) (fun _ w z => z = w) ms (fun _ => none) ps outs σ →
    ∃ r', Session E fl F cpp r (line :: ls) ((ascii (nameStr x) ++ [newline]) :: outs) none r'

/-- the lines after the declaration -/
theorem members_session {E : Env} {fl : Floats} {F : Str → Nat} {cpp : List String → Str → Str} {r : RSt} {s0 : St}
    {TN : List T → PT → List T → Prop} {x : Str} {ms : List (String × MTy)} {σ σ' : MVals} {ls outs : List Str} {ps : List MInput}
    (hm : r.lx.mode = .initial) (g : Members s0 r.st (nameStr x) ms σ) (hnd : (ms.map Prod.fst).Nodup)
    (ht : MTyped (Text (Reads r.ty) Follows) TN (cpp s0.includes) x ls ps)
    (h : MDialogue (bicVal s0 (nameStr x)) (fun v _ z => z = v) ms σ ps outs σ') :
    (∃ r', Session E fl F cpp r ls outs none r') ∧
    ∀ outs' w r', Session E fl F cpp r ls outs' w r' → outs' = outs ∧ w = none ∧ Members s0 r'.st (nameStr x) ms σ' := by
  induction h generalizing r ls with
  | nil =>
    cases ht
    refine ⟨⟨r, .nil⟩, ?_⟩
    intro os w r' hs
    cases hs
    exact ⟨rfl, rfl, g⟩
  | @cons σ p out σ1 ps outs σ2 h1 h2 ih =>
    cases ht with
    | cons t1 t2 t3 t4 t5 t6 =>
      obtain ⟨q0, d0, n0, c0, -⟩ := minput_der t2
      obtain ⟨q, d, n, -, b⟩ := minput_der t5
      rw [← g.kept.includes] at t3
      obtain ⟨⟨r1, l1⟩, l2⟩ := line_shows (E := E) (fl := fl) (F := F) (cpp := cpp) (out := out) (P := fun s' => Members s0 s' (nameStr x) ms σ1) g.wf hm t1
        d0 n0 c0 t3 t4 d n fun s y e hy => minput_conv fl (g.ext e) hnd (b hy) h1
      have step : ∀ r1 : RSt, r1.lx.mode = .initial ∧ r1.ty = r.ty ∧ Members s0 r1.st (nameStr x) ms σ1 → _ :=
        fun r1 h => ih (r := r1) (ls := _) h.1 h.2.2 (by rw [h.2.1]; exact t6)
      constructor
      · obtain ⟨⟨r', i1⟩, -⟩ := step r1 (l2 _ _ l1).2
        exact ⟨r', .cons l1 i1⟩
      · intro os w r' hs
        cases hs with
        | cons j1 j2 =>
          obtain ⟨e, j3⟩ := l2 _ _ j1
          cases e
          obtain ⟨e1, e2, e3⟩ := (step _ j3).2 _ _ _ j2
          exact ⟨by rw [e1], e2, e3⟩
        | ends j1 => exact absurd (l2 _ _ j1).1 nofun

/-- What bic shows: for an assignment the value before its conversion.  No other session is possible. -/
theorem C100_shown {E : Env} {fl : Floats} {F : Str → Nat} {cpp : List String → Str → Str} {r : RSt}
    {TN : List T → PT → List T → Prop} {tag : Option String} {x : Str} {ms : List (String × MTy)} {σ : MVals} {line : Str} {ls outs : List Str}
    {ps : List MInput} (hr : Ready r true tag (nameStr x) ms) (hnd : (ms.map Prod.fst).Nodup)
    (hl : CompLine (Text (Reads r.ty) Follows) (cpp r.st.includes) line true tag (nameStr x) ms)
    (ht : MTyped (Text (Reads r.ty) Follows) TN (cpp r.st.includes) x ls ps)
    (h : MDialogue (bicVal r.st (nameStr x)) (fun v _ z => z = v) ms (fun _ => none) ps outs σ) :
    (∃ r', Session E fl F cpp r (line :: ls) ((ascii (nameStr x) ++ [newline]) :: outs) none r') ∧
    ∀ outs' w r', Session E fl F cpp r (line :: ls) outs' w r' → outs' = (ascii (nameStr x) ++ [newline]) :: outs ∧ w = none ∧
      Members r.st r'.st (nameStr x) ms σ := by
  have hs := cap_space hr.cap
  have hp := (layoutPure_placed (off := 0) (mx := 0) (ms := ms.map Prod.snd) (by omega)).1
  obtain ⟨⟨r1, l1⟩, l2⟩ := compLine (E := E) (fl := fl) (F := F) (P := fun s' => Members r.st s' (nameStr x) ms fun _ => none) hr hl
    fun s t d c L he hL hd => by
      obtain ⟨s', h1, h2, h3⟩ := laidOut_of (E := E) (isS := true) he hL hd
      obtain ⟨h4, h5⟩ := kept_of he hd h1
      exact ⟨s', h1, h2, members_of h4 h5 h3 hp hnd⟩
  have step : ∀ r1 : RSt, r1.lx.mode = .initial ∧ r1.ty = r.ty ∧ Members r.st r1.st (nameStr x) ms (fun _ => none) → _ :=
    fun r1 j => members_session (E := E) (fl := fl) (F := F) j.1 j.2.2 hnd (by rw [j.2.1]; exact ht) h
  constructor
  · obtain ⟨⟨r', i1⟩, -⟩ := step r1 (l2 _ _ l1).2
    exact ⟨r', .cons l1 i1⟩
  · intro os w r' hs
    cases hs with
    | cons j1 j2 =>
      obtain ⟨e, j3⟩ := l2 _ _ j1
      cases e
      obtain ⟨e1, e2, e3⟩ := (step _ j3).2 _ _ _ j2
      exact ⟨by rw [e1], e2, e3⟩
    | ends j1 => exact absurd (l2 _ _ j1).1 nofun

theorem MDialogue.mono {val val' : CT → Expr → Int → Prop} {sh sh' : Int → Int → Int → Prop} (h1 : ∀ k e v, val k e v → val' k e v)
    (h2 : ∀ v w z, sh v w z → sh' v w z) {ms σ ps outs σ'} (h : MDialogue val sh ms σ ps outs σ') : MDialogue val' sh' ms σ ps outs σ' := by
  induction h with
  | nil => exact .nil
  | cons a _ ih =>
    refine .cons ?_ ih
    cases a with
    | set a b c d e f => exact .set a b (h1 _ _ _ c) d (h2 _ _ _ e) f
    | get a b => exact .get a b

/-- C100 for the texts of `C81_tokens_partial`, the operations of `C34_programs_partial` and values that fit into
the member.  The values assigned are literals or computed, not the names of variables.  No other session is
possible. -/
theorem C100_members_partial {E : Env} {fl : Floats} {F : Str → Nat} {cpp : List String → Str → Str} {r : RSt}
    {TN : List T → PT → List T → Prop} {tag : Option String} {x : Str} {ms : List (String × MTy)} {σ : MVals} {line : Str} {ls outs : List Str}
    {ps : List MInput} (hr : Ready r true tag (nameStr x) ms) (hnd : (ms.map Prod.fst).Nodup)
    (hl : CompLine (Text (Reads r.ty) Follows) (cpp r.st.includes) line true tag (nameStr x) ms)
    (ht : MTyped (Text (Reads r.ty) Follows) TN (cpp r.st.includes) x ls ps)
    (h : MDialogue (bicVal r.st (nameStr x)) (fun v w z => z = w ∧ v = w) ms (fun _ => none) ps outs σ) :
    (∃ r', Session E fl F cpp r (line :: ls) ((ascii (nameStr x) ++ [newline]) :: outs) none r') ∧
    ∀ outs' w r', Session E fl F cpp r (line :: ls) outs' w r' → outs' = (ascii (nameStr x) ++ [newline]) :: outs ∧ w = none :=
  have := C100_shown (E := E) (fl := fl) (F := F) hr hnd hl ht (MDialogue.mono (fun _ _ _ h => h) (fun _ _ _ h => h.1.trans h.2.symm) h)
  ⟨this.1, fun o w r' hs => ⟨(this.2 o w r' hs).1, (this.2 o w r' hs).2.1⟩⟩

/-! ### Examples: `struct t{char a;int b;short c;} s;`, `s.b=x+7;`, `s.c=5;`, `s.a=3;`, `s.b;`, and `s.a=300;` -/

open TextCheck

def body100 : W89 :=
  [kw .lbrace "{", kw .char "char", sp, idn [97] (name1 97), kw .semi ";", kw .int "int", sp, idn [98] (name1 98), kw .semi ";",
   kw .short "short", sp, idn [99] (name1 99), kw .semi ";", kw .rbrace "}", sp, idn [115] (name1 115), kw .semi ";"]
def setB100 : W89 := [idn [115] (name1 115), kw .dot ".", idn [98] (name1 98), kw .assign "=", idn [120] Lexer.name_x, kw .plus "+", num [55], kw .semi ";"]
def setC100 : W89 := [idn [115] (name1 115), kw .dot ".", idn [99] (name1 99), kw .assign "=", num [53], kw .semi ";"]
def setA100 : W89 := [idn [115] (name1 115), kw .dot ".", idn [97] (name1 97), kw .assign "=", num [51], kw .semi ";"]
def getB100 : W89 := [idn [115] (name1 115), kw .dot ".", idn [98] (name1 98), kw .semi ";"]
def bigA100 : W89 := [idn [115] (name1 115), kw .dot ".", idn [97] (name1 97), kw .assign "=", num (ascii "300"), kw .semi ";"]

theorem ok100 : (okW body100 && okW setB100 && okW setC100 && okW setA100 && okW getB100 && okW bigA100) = true := by decide +kernel

def line100 : Str := ascii "struct" ++ [32] ++ [116] ++ textW body100

theorem lines100_eq : line100 = ascii "struct t{char a;int b;short c;} s;" ∧ [setB100, setC100, setA100, getB100, bigA100].map textW =
    ["s.b=x+7;", "s.c=5;", "s.a=3;", "s.b;", "s.a=300;"].map ascii := by decide +kernel

def ms100 : List (String × MTy) := [("a", .val .char), ("b", .val .int), ("c", .val .short)]

theorem wcomp100 : WCompVar true (some "t") "s" ms100 (.p .struct :: .ident [116] :: toksW body100) :=
  .tagged (isStruct := true) (s := [116]) (x := [115]) (.more (ws := [.char]) (k := .char) (ds := [("a", .val .char)]) (.one rfl) ⟨[.char], by decide, by decide⟩
    (.one (.name (s := [97]))) (.more (ws := [.int]) (k := .int) (ds := [("b", .val .int)]) (.one rfl) ⟨[.int], by decide, by decide⟩
    (.one (.name (s := [98]))) (.one (ws := [.short]) (k := .short) (.one rfl) ⟨[.short], by decide, by decide⟩ (.one (.name (s := [99]))))))

theorem compLine100 {Tx : List T → Str → Prop} (h : Tx (.p .struct :: .ident [116] :: toksW body100) line100) :
    CompLine Tx (cpp89 []) line100 true (some "t") "s" ms100 :=
  ⟨⟨_, _, _, _, h, wcomp100⟩, ⟨_, _, lastLine89 (by decide +kernel), h, wcomp100⟩⟩

theorem text100 {S : T → Str → Prop} {X : T → Str → UInt8 → Prop} (h : Text S X (toksW body100) (textW body100)) :
    Text S X (.p .struct :: .ident [116] :: toksW body100) line100 :=
  .tag (k := .struct) (w := "struct") (sp := [32]) (x := [116]) rfl rfl (by simp) (by decide) (name1 116) (by decide +kernel) h

theorem ready100 : Ready r89 true (some "t") "s" ms100 :=
  ⟨rfl, stOf_WF _ _ _, (ready98 true).fresh, (ready98 true).tagFresh, ⟨by decide +kernel, by simp [r89, st89, stOf], memOf_livelt _⟩⟩

theorem mtyped1 {Tx : List T → Str → Prop} {l : W89} {p : MInput} {ls ps} (h : Tx (toksW l) (textW l)) (hn : newline ∉ textW l)
    (hw : WMInput cTable noTN [115] p (toksW l)) (ht : MTyped Tx noTN (cpp89 []) [115] ls ps) :
    MTyped Tx noTN (cpp89 []) [115] (textW l :: ls) (p :: ps) :=
  .cons h hw (lastLine89 hn) h hw ht

example (fl : Floats) (F : Str → Nat) :
    (∃ r', Session E0 fl F cpp89 r89 [line100, textW setB100, textW setC100, textW setA100, textW getB100]
      (["s\n", "7\n", "5\n", "3\n", "7\n"].map ascii) none r') ∧
    ∀ outs a r', Session E0 fl F cpp89 r89 [line100, textW setB100, textW setC100, textW setA100, textW getB100] outs a r' →
      outs = ["s\n", "7\n", "5\n", "3\n", "7\n"].map ascii ∧ a = none := by
  have h := ok100
  simp only [Bool.and_eq_true] at h
  obtain ⟨⟨⟨⟨⟨h0, h1⟩, h2⟩, h3⟩, h4⟩, _⟩ := h
  have e : ["s\n", "7\n", "5\n", "3\n", "7\n"].map ascii = [ascii "s" ++ [newline], [55] ++ [10], [53] ++ [10], [51] ++ [10], [55] ++ [10]] := by decide +kernel
  rw [e]
  refine C100_members_partial (x := [115]) (σ := fun y => if y = "a" then some 3 else if y = "c" then some 5 else if y = "b" then some 7 else none) ready100 (by decide) (compLine100 (text100 (okW_text h0)))
    (mtyped1 (okW_text h1) (by decide +kernel) (.set (m := [98]) ⟨.bin .add (.ident [120]) (.int 7), .bin (o := .add) (by decide) .ident .int,
      .bin (bo := .add) rfl .ident .int⟩)
    (mtyped1 (okW_text h2) (by decide +kernel) (.set (m := [99]) ⟨.int 5, .int, .int⟩)
    (mtyped1 (okW_text h3) (by decide +kernel) (.set (m := [97]) ⟨.int 3, .int, .int⟩)
    (mtyped1 (okW_text h4) (by decide +kernel) (.get (m := [98])) .nil)))) ?_
  have cv : ∀ {k : CT} {v : Int}, InRange k v → Converts k v v := fun h => Converts.self h
  refine .cons (.set (k := .int) (v := 7) (w := 7) (by decide) trivial ⟨.bin (x := 0) (.var ⟨x99, by decide⟩) (.lit _) ⟨rfl, trivial⟩, rfl, .inl (by decide)⟩
    (cv (by decide)) ⟨rfl, rfl⟩ ?_) (.cons (.set (k := .short) (v := 5) (w := 5) (by decide) trivial ⟨.lit _, rfl, .inl (by decide)⟩
    (cv (by decide)) ⟨rfl, rfl⟩ ?_) (.cons (.set (k := .char) (v := 3) (w := 3) (by decide) trivial ⟨.lit _, rfl, .inl (by decide)⟩
    (cv (by decide)) ⟨rfl, rfl⟩ ?_) (.cons (.get (v := 7) (by decide) ?_) .nil)))
  all_goals exact ⟨_, by unfold CText.Digits; decide +kernel, .inr (by decide +kernel), .inl ⟨rfl, by decide +kernel⟩⟩

/-- C100 is false: for `s.a=300;` bic shows 300, and C the value of `s.a`. -/
theorem C100_refuted : ¬ C100_statement := by
  intro h
  have hok := ok100
  simp only [Bool.and_eq_true] at hok
  obtain ⟨⟨h0, _⟩, h1⟩ := hok
  have hw : WMInput cTable noTN [115] (.set "a" (.lit 300)) (toksW bigA100) := .set (m := [97]) ⟨.int 300, .int, .int⟩
  have hc : Converts .char 300 44 := ⟨by decide, 1, by decide⟩
  obtain ⟨r', h3⟩ := h E0 ⟨fun _ => [], fun _ _ => []⟩ (fun _ => 0) cpp89 r89 noTN (some "t") [115] ms100 _ line100 [textW bigA100] [ascii "44" ++ [10]]
    [.set "a" (.lit 300)] ready100 (by decide) (compLine100 (text100 (okW_ctext h0.1.1.1))) (mtyped1 (okW_ctext h1) (by decide +kernel) hw .nil)
    (.cons (.set (k := .char) (v := 300) (w := 44) (by decide) trivial (.lit _) hc rfl
      ⟨ascii "44", by unfold CText.Digits; decide +kernel, .inr (by decide +kernel), .inl ⟨rfl, by decide +kernel⟩⟩) .nil)
  have := ((C100_shown (E := E0) (fl := ⟨fun _ => [], fun _ _ => []⟩) (F := fun _ => 0) (cpp := cpp89) (x := [115]) (outs := [ascii "300" ++ [10]]) ready100 (by decide)
    (compLine100 (text100 (okW_text h0.1.1.1))) (mtyped1 (okW_text h1) (by decide +kernel) hw .nil)
    (.cons (.set (k := .char) (v := 300) (w := 44) (by decide) trivial ⟨.lit _, rfl, .inl (by decide)⟩ hc rfl
      ⟨ascii "300", by unfold CText.Digits; decide +kernel, .inr (by decide +kernel), .inl ⟨rfl, by decide +kernel⟩⟩) .nil)).2 _ _ _ h3).1
  exact absurd this (by decide +kernel)

end Bic.Repl
