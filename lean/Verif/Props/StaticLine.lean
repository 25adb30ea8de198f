import Verif.Proofs.StaticLine
import Verif.Props.Headers
/-!
# C107: variables declared with `static` at the REPL
-/

namespace Bic.Repl
open Spec CSyn
open Lexer (Reads Follows)
open _root_.Bic.Parser (PT T K nameStr)
open Printer (Floats)
open CText (Text ascii)

/-- the lines typed for these inputs, as in C89 -/
inductive VTyped (Tx : List T → Str → Prop) (TN : List T → PT → List T → Prop) (cpp : Str → Str) : List Str → List VInput → Prop
  | nil : VTyped Tx TN cpp [] []
  | cons {line text i0 i p0 p ls ps} : Tx i0 line → WVInput cTable TN p0 i0 → LastLine (cpp line) text → Tx i text → WVInput cTable TN p i →
      VTyped Tx TN cpp ls ps → VTyped Tx TN cpp (line :: ls) (p :: ps)

/-- C107: a line `static T x=e;` declares `x` with the value of `e` and shows its name; without initializer `x` is 0.
The other lines are those of C89. -/
def C107_statement : Prop :=
  ∀ (E : Env) (fl : Floats) (F : Str → Nat) (cpp : List String → Str → Str) (r : RSt) (TN : List T → PT → List T → Prop) (σ σ' : Store)
    (ls outs : List Str) (ps : List VInput) (n : Nat), r.lx.mode = .initial → Good r.st σ n →
    VTyped (CText.CText r.ty) TN (cpp r.st.includes) ls ps → VDialogue cRules cShows (some 0) σ ps outs σ' n →
    ∃ r', Session E fl F cpp r ls outs none r' ∧ Rel r'.st σ'

theorem vline_of {E : Env} {fl : Floats} {F : Str → Nat} {cpp : List String → Str → Str} {r : RSt} {TN : List T → PT → List T → Prop}
    {σ σ' : Store} {line text out : Str} {i0 i : List T} {p0 p : VInput} {n m : Nat} (hm : r.lx.mode = .initial) (g : Good r.st σ (n + m))
    (t1 : Text (Reads r.ty) Follows i0 line) (t2 : WVInput cTable TN p0 i0) (t3 : LastLine (cpp r.st.includes line) text)
    (t4 : Text (Reads r.ty) Follows i text) (t5 : WVInput cTable TN p i) (h : VReply okRules bicShows none σ p out σ' n) :
    (∃ r', Line E fl F cpp r line (.shows out) r') ∧
    ∀ a r', Line E fl F cpp r line a r' → a = .shows out ∧ r'.lx.mode = .initial ∧ r'.ty = r.ty ∧
      Good r'.st σ' m ∧ r'.st.includes = r.st.includes := by
  obtain ⟨q0, d0, n0, c0, -⟩ := vinput_der t2
  obtain ⟨q, d, nn, -, b⟩ := vinput_der t5
  refine line_shows (P := fun s' => Good s' σ' m ∧ s'.includes = r.st.includes) g.wf hm t1 d0 n0 c0 t3 t4 d nn fun s y e hy => ?_
  obtain ⟨s', a1, a2, a3⟩ := vinput_conv (E := E) fl (g.ext e) (b hy) h
  exact ⟨s', a1, a2, by rw [a3, e.includes]⟩

/-- What bic shows: for an assignment the value before its conversion; a variable without initializer has no
particular value.  No other session is possible. -/
theorem C107_shown {E : Env} {fl : Floats} {F : Str → Nat} {cpp : List String → Str → Str} {r : RSt} {TN : List T → PT → List T → Prop}
    {σ σ' : Store} {ls outs : List Str} {ps : List VInput} {n : Nat} (hm : r.lx.mode = .initial) (g : Good r.st σ n)
    (ht : VTyped (Text (Reads r.ty) Follows) TN (cpp r.st.includes) ls ps) (h : VDialogue okRules bicShows none σ ps outs σ' n) :
    (∃ r', Session E fl F cpp r ls outs none r' ∧ Rel r'.st σ') ∧
    ∀ outs' w r', Session E fl F cpp r ls outs' w r' → outs' = outs ∧ w = none ∧ Rel r'.st σ' := by
  induction h generalizing r ls with
  | nil =>
    cases ht
    refine ⟨⟨r, .nil, g.rel⟩, ?_⟩
    intro os w r' hs
    cases hs
    exact ⟨rfl, rfl, g.rel⟩
  | cons h1 h2 ih =>
    cases ht with
    | cons t1 t2 t3 t4 t5 t6 =>
      obtain ⟨⟨r1, l1⟩, l2⟩ := vline_of (E := E) (fl := fl) (F := F) hm g t1 t2 t3 t4 t5 h1
      have step : ∀ r1 : RSt, r1.lx.mode = .initial ∧ r1.ty = r.ty ∧ Good r1.st _ _ ∧ r1.st.includes = r.st.includes → _ :=
        fun r1 h => ih (r := r1) (ls := _) h.1 h.2.2.1 (by rw [h.2.1, h.2.2.2]; exact t6)
      constructor
      · obtain ⟨⟨r', i1, i2⟩, -⟩ := step r1 (l2 _ _ l1).2
        exact ⟨r', .cons l1 i1, i2⟩
      · intro os w r' hs
        cases hs with
        | cons j1 j2 =>
          obtain ⟨e, j3⟩ := l2 _ _ j1
          cases e
          obtain ⟨e1, e2, e3⟩ := (step _ j3).2 _ _ _ j2
          exact ⟨by rw [e1], e2, e3⟩
        | ends j1 => exact absurd (l2 _ _ j1).1 nofun

theorem VDialogue.mono {L : Rules} {S S' : Shows} {z} (h1 : ∀ v w z, S.asg v w z → S'.asg v w z) (h2 : ∀ z, S.step z → S'.step z) {σ ps outs σ' n}
    (h : VDialogue L S z σ ps outs σ' n) : VDialogue L S' z σ ps outs σ' n := by
  induction h with
  | nil => exact .nil
  | cons a _ ih =>
    refine .cons ?_ ih
    cases a with
    | plain a => exact .plain (Reply.mono h1 h2 a)
    | static a b c => exact .static a b c

/-- C107 for the texts of `C81_tokens_partial`, the operations of `C34_programs_partial`, values that fit, and
`static` variables that get a value before it is used.  No other session is possible. -/
theorem C107_static_partial {E : Env} {fl : Floats} {F : Str → Nat} {cpp : List String → Str → Str} {r : RSt} {TN : List T → PT → List T → Prop}
    {σ σ' : Store} {ls outs : List Str} {ps : List VInput} {n : Nat} (hm : r.lx.mode = .initial) (g : Good r.st σ n)
    (ht : VTyped (Text (Reads r.ty) Follows) TN (cpp r.st.includes) ls ps) (h : VDialogue okRules okShows none σ ps outs σ' n) :
    (∃ r', Session E fl F cpp r ls outs none r' ∧ Rel r'.st σ') ∧
    ∀ outs' w r', Session E fl F cpp r ls outs' w r' → outs' = outs ∧ w = none ∧ Rel r'.st σ' :=
  C107_shown hm g ht (VDialogue.mono (S := okShows) (S' := bicShows) (fun _ _ _ h => h.1.trans h.2.symm) (fun _ h => h) h)

theorem frame_last {s : St} {x : String} {c : CT} {v : Int} : ∀ {fr : Frame} {bs as}, FrameRel s (fr ++ [(x, some ⟨c, none⟩)]) bs as →
    (∀ a, v = c.decode (s.mem.load c.size a)) → FrameRel s (fr ++ [(x, some ⟨c, some v⟩)]) bs as
  | [], _, _, h, hv => by
    cases h with
    | var h1 h2 => exact .var ⟨h1.at_, h1.int, h1.wide, fun w hw => by cases hw; exact hv _⟩ h2
  | p :: fr, _, _, h, hv => by
    cases h with
    | var h1 h2 => exact .var h1 (frame_last h2 hv)
    | other h => exact .other (frame_last h hv)

/-- `static T x;` leaves in `x` what its memory held: if all bytes of the memory are `b`, the line `x;` then
shows the number made of such bytes. -/
theorem C107_unset {E : Env} {fl : Floats} {F : Str → Nat} {cpp : List String → Str → Str} {r : RSt} {TN : List T → PT → List T → Prop}
    {fr : Frame} {σ : Store} {line1 text1 line2 text2 : Str} {i0 i j0 j : List T} {p0 q0 : VInput} {c : CT} {x : String} {b : Bic.Byte} {v : Int} {z : Str}
    (hm : r.lx.mode = .initial) (g : Good r.st (fr :: σ) 1) (hc : integral c) (hx : Frame.find x fr = none) (hb : ∀ a, r.st.mem.byte a = b)
    (t1 : Text (Reads r.ty) Follows i0 line1) (w1 : WVInput cTable TN p0 i0) (l1 : LastLine (cpp r.st.includes line1) text1)
    (t2 : Text (Reads r.ty) Follows i text1) (w2 : WVInput cTable TN (.static c [(x, none)]) i)
    (t3 : Text (Reads r.ty) Follows j0 line2) (w3 : WVInput cTable TN q0 j0) (l2 : LastLine (cpp r.st.includes line2) text2)
    (t4 : Text (Reads r.ty) Follows j text2) (w4 : WVInput cTable TN (.plain (.expr (.var x))) j)
    (hv : v = c.decode (Mem.load ⟨fun _ => b, fun _ => true, 0⟩ c.size 0)) (hr : InRange .long v) (hz : Decimal v z) :
    (∃ r', Session E fl F cpp r [line1, line2] [ascii x ++ [newline], z ++ [newline]] none r') ∧
    ∀ outs w r', Session E fl F cpp r [line1, line2] outs w r' → outs = [ascii x ++ [newline], z ++ [newline]] ∧ w = none := by
  have hload : ∀ (m : Mem), (∀ a, m.byte a = b) → ∀ n a, m.load n a = Mem.load ⟨fun _ => b, fun _ => true, 0⟩ n 0 := by
    intro m hm n
    have : ∀ n a a', m.load n a = Mem.load ⟨fun _ => b, fun _ => true, 0⟩ n a' := by
      intro n
      induction n with
      | zero => intros; rfl
      | succ n ih => intro a a'; simp only [Mem.load, hm]; rw [ih (a + 1) (a' + 1)]
    exact fun a => this n a 0
  obtain ⟨y0, d0, n0, c0, -⟩ := vinput_der w1
  obtain ⟨y1, d1, n1, -, b1⟩ := vinput_der w2
  obtain ⟨⟨r1, k1⟩, k2⟩ := line_shows (E := E) (fl := fl) (F := F) (cpp := cpp) (out := ascii x ++ [newline])
    (P := fun s' => Good s' ((fr ++ [(x, some ⟨c, some v⟩)]) :: σ) 0 ∧ s'.includes = r.st.includes) g.wf hm t1 d0 n0 c0 l1 t2 d1 n1
    fun s y e hy => by
      cases b1 hy with
      | static e1 e2 e3 e4 =>
        obtain ⟨q, s', a1, a2, a3, _, a5, a6⟩ := static_conv (E := E) (m := 0) hc e1 e2 e3 e4 (.plain hx .nil) (g.ext e)
        obtain ⟨u, rfl, hu⟩ := a5 x rfl
        refine ⟨s', .inl ⟨u, _, a1, rfl, fun o => prints_ident hu o⟩, ⟨a2.wf, a2.flags, a2.room, ?_⟩, (congrArg Prod.fst a3).trans e.includes⟩
        have hby : ∀ a, s'.mem.byte a = b := by
          intro a
          rw [a6 (by simp), e.mem]
          exact hb a
        obtain ⟨as, r1, r2⟩ := a2.rel
        refine ⟨as, ?_, r2⟩
        generalize hcs : lookups s' = cs at r1
        cases r1 with
        | cons f1 f2 =>
          exact .cons (frame_last f1 fun a => by rw [hv, hload _ hby]) f2
  have step : ∀ r1 : RSt, r1.lx.mode = .initial ∧ r1.ty = r.ty ∧ Good r1.st ((fr ++ [(x, some ⟨c, some v⟩)]) :: σ) 0 ∧ r1.st.includes = r.st.includes →
      (∃ r', Line E fl F cpp r1 line2 (.shows (z ++ [newline])) r') ∧ ∀ a r', Line E fl F cpp r1 line2 a r' → a = .shows (z ++ [newline]) := by
    rintro r1 ⟨j1, j2, j3, j4⟩
    have := vline_of (E := E) (fl := fl) (F := F) (cpp := cpp) (r := r1) (n := 0) (m := 0) (out := z ++ [newline]) j1 j3 (by rw [j2]; exact t3) w3
      (by rw [j4]; exact l2) (by rw [j2]; exact t4) w4
      (.plain (.expr (.var ⟨c, by simp [Store.Has, Store.find, find_last hx], hr⟩) hz))
    exact ⟨this.1, fun a r' h => (this.2 a r' h).1⟩
  constructor
  · obtain ⟨⟨r2, i1⟩, -⟩ := step r1 (k2 _ _ k1).2
    exact ⟨r2, .cons k1 (.cons i1 .nil)⟩
  · intro os w r' hs
    cases hs with
    | cons j1 j2 =>
      obtain ⟨e, j3⟩ := k2 _ _ j1
      cases e
      cases j2 with
      | cons j4 j5 =>
        cases (step _ j3).2 _ _ j4
        cases j5
        exact ⟨rfl, rfl⟩
      | ends j4 => exact absurd ((step _ j3).2 _ _ j4) nofun
    | ends j1 => exact absurd (k2 _ _ j1).1 nofun

/-! ### Examples: `static int y=7;`, `int static z;`, `z=y+2;`, `z;`, and `static int y;` with memory full of ones -/

open TextCheck

def st107 : W89 := [kw .static "static", sp, kw .int "int", sp, idn [121] name_y, kw .assign "=", num [55], kw .semi ";"]
def last107 : W89 := [kw .int "int", sp, kw .static "static", sp, idn [122] (name1 122), kw .semi ";"]
def set107 : W89 := [idn [122] (name1 122), kw .assign "=", idn [121] name_y, kw .plus "+", num [50], kw .semi ";"]
def var107 : W89 := [idn [122] (name1 122), kw .semi ";"]
def plain107 : W89 := [kw .static "static", sp, kw .int "int", sp, idn [121] name_y, kw .semi ";"]
def y107 : W89 := [idn [121] name_y, kw .semi ";"]

theorem ok107 : (okW st107 && okW last107 && okW set107 && okW var107 && okW plain107 && okW y107) = true := by decide +kernel

theorem lines107_eq : [st107, last107, set107, var107, plain107, y107].map textW =
    ["static int y=7;", "int static z;", "z=y+2;", "z;", "static int y;", "y;"].map ascii := by decide +kernel

theorem vtyped1 {Tx : List T → Str → Prop} {l : W89} {p : VInput} {ls ps} (h : Tx (toksW l) (textW l)) (hn : newline ∉ textW l)
    (hw : WVInput cTable noTN p (toksW l)) (ht : VTyped Tx noTN (cpp89 []) ls ps) : VTyped Tx noTN (cpp89 []) (textW l :: ls) (p :: ps) :=
  .cons h hw (lastLine89 hn) h hw ht

def inputs107 : List VInput :=
  [.static .int [("y", some (.lit 7))], .static .int [("z", none)], .plain (.set "z" (.bin .add (.var "y") (.lit 2))), .plain (.expr (.var "z"))]

def store107 : Store := [[("x", some ⟨.int, some 0⟩), ("y", some ⟨.int, some 7⟩), ("z", some ⟨.int, some 9⟩)]]

theorem dialogue107 : VDialogue okRules okShows none (store34 (some 0)) inputs107 [ascii "y" ++ [10], ascii "z" ++ [10], [57] ++ [10], [57] ++ [10]] store107 2 := by
  refine .cons (n := 1) (m := 1) (.static (x := "y") (e := some (.lit 7)) (by decide) (.init rfl (.lit 7) (.inl ⟨rfl, .inl (by decide)⟩)
    (conv_self (by decide)) .nil) rfl) ?_
  refine .cons (n := 1) (m := 0) (.static (x := "z") (e := none) (by decide) (.plain (by decide) .nil) rfl) ?_
  refine .cons (n := 0) (m := 0) (out := [57] ++ [10]) (.plain (.set (c := .int) (u := none) (v := 9) (w := 9) rfl
    (.bin (.var ⟨.int, rfl, show InRange .long _ by decide⟩) (.lit 2) ⟨by simp [cOp], by simp [side]⟩) (.inl ⟨rfl, .inl (by decide)⟩) (conv_self (by decide))
    ⟨rfl, rfl⟩ ⟨[57], by unfold CText.Digits; decide, .inr (by decide), .inl ⟨rfl, by decide⟩⟩)) ?_
  exact .cons (n := 0) (m := 0) (out := [57] ++ [10]) (.plain (.expr (v := 9) (.var ⟨.int, rfl, show InRange .long _ by decide⟩)
    ⟨[57], by unfold CText.Digits; decide, .inr (by decide), .inl ⟨rfl, by decide⟩⟩)) .nil

example (fl : Floats) (F : Str → Nat) :
    (∃ r', Session E0 fl F cpp89 r89 ([st107, last107, set107, var107].map textW) (["y\n", "z\n", "9\n", "9\n"].map ascii) none r' ∧ Rel r'.st store107) ∧
    ∀ outs a r', Session E0 fl F cpp89 r89 ([st107, last107, set107, var107].map textW) outs a r' →
      outs = ["y\n", "z\n", "9\n", "9\n"].map ascii ∧ a = none ∧ Rel r'.st store107 := by
  have h := ok107
  simp only [Bool.and_eq_true] at h
  obtain ⟨⟨⟨⟨⟨h0, h1⟩, h2⟩, h3⟩, _⟩, _⟩ := h
  have e : ["y\n", "z\n", "9\n", "9\n"].map ascii = [ascii "y" ++ [10], ascii "z" ++ [10], [57] ++ [10], [57] ++ [10]] := by decide +kernel
  rw [e]
  exact C107_static_partial (ps := inputs107) rfl (good89 2 (by omega))
    (vtyped1 (okW_text h0) (by decide +kernel) (.static (ws := [.int]) (.first (.one rfl)) ⟨[.int], by decide, by decide⟩
      (.one (.init (s := [121]) ⟨.int 7, .int, .int⟩)))
    (vtyped1 (okW_text h1) (by decide +kernel) (.static (ws := [.int]) (.last rfl) ⟨[.int], by decide, by decide⟩ (.one (.plain (s := [122]))))
    (vtyped1 (okW_text h2) (by decide +kernel) (.plain (.set (s := [122]) ⟨.bin .add (.ident [121]) (.int 2), .bin (o := .add) (by decide) .ident .int,
      .bin (bo := .add) rfl .ident .int⟩))
    (vtyped1 (okW_text h3) (by decide +kernel) (.plain (.expr (e := .var "z") ⟨.ident [122], .ident, .ident⟩)) .nil))))
    dialogue107

/-- memory full of ones -/
def r107 : RSt := { r89 with st := { st89 with mem := { st89.mem with byte := fun _ => 1 } } }

theorem good107 : Good r107.st (store34 none) 1 where
  wf := (good89 1 (by omega)).wf
  flags := (good89 1 (by omega)).flags
  room := ⟨(good89 1 (by omega)).room.brk, (good89 1 (by omega)).room.ctxs, (good89 1 (by omega)).room.livelt⟩
  rel := by
    refine ⟨[4096] ++ [], .cons (.var ⟨⟨0, ⟨⟨false, 0, rfl⟩, ⟨none, rfl⟩, .inl (by decide), ?_⟩⟩, by decide, ?_, nofun⟩ .nil) .nil, by simp [Apart]⟩ <;>
    · show Mem.ok { memOf (List.replicate 8 0) with byte := fun _ => 1 } _ _ = true
      decide +kernel

theorem wplain107 : WVInput cTable noTN (.static .int [("y", none)]) (toksW plain107) :=
  .static (ws := [.int]) (.first (.one rfl)) ⟨[.int], by decide, by decide⟩ (.one (.plain (s := [121])))

theorem wy107 : WVInput cTable noTN (.plain (.expr (.var "y"))) (toksW y107) := .plain (.expr (e := .var "y") ⟨.ident [121], .ident, .ident⟩)

theorem shown107 (fl : Floats) (F : Str → Nat) :
    (∃ r', Session E0 fl F cpp89 r107 [textW plain107, textW y107] [ascii "y" ++ [newline], ascii "16843009" ++ [newline]] none r') ∧
    ∀ outs w r', Session E0 fl F cpp89 r107 [textW plain107, textW y107] outs w r' →
      outs = [ascii "y" ++ [newline], ascii "16843009" ++ [newline]] ∧ w = none := by
  have h := ok107
  simp only [Bool.and_eq_true] at h
  obtain ⟨⟨_, h0⟩, h1⟩ := h
  exact C107_unset (r := r107) (c := .int) (x := "y") (b := 1) (v := 16843009) rfl good107 (by decide) (by decide) (fun _ => rfl)
    (okW_text h0) wplain107 (lastLine89 (by decide +kernel)) (okW_text h0) wplain107
    (okW_text h1) wy107 (lastLine89 (by decide +kernel)) (okW_text h1) wy107 (by decide +kernel) (by decide)
    ⟨ascii "16843009", by unfold CText.Digits; decide +kernel, .inr (by decide +kernel), .inl ⟨by decide +kernel, by decide +kernel⟩⟩

/-- C107 is false: after `static int y;` the line `y;` shows what the memory of `y` held before. -/
theorem C107_refuted : ¬ C107_statement := by
  intro h
  have hok := ok107
  simp only [Bool.and_eq_true] at hok
  obtain ⟨⟨_, h0⟩, h1⟩ := hok
  obtain ⟨r', h2, _⟩ := h E0 ⟨fun _ => [], fun _ _ => []⟩ (fun _ => 0) cpp89 r107 noTN (store34 none)
    [[("x", some ⟨.int, none⟩), ("y", some ⟨.int, some 0⟩)]] [textW plain107, textW y107] [ascii "y" ++ [newline], [48] ++ [newline]]
    [.static .int [("y", none)], .plain (.expr (.var "y"))] 1 rfl good107
    (vtyped1 (okW_ctext h0) (by decide +kernel) wplain107 (vtyped1 (okW_ctext h1) (by decide +kernel) wy107 .nil))
    (.cons (n := 1) (m := 0) (.static (x := "y") (e := none) (by decide) (.plain (by decide) .nil) rfl)
      (.cons (n := 0) (m := 0) (.plain (.expr (v := 0) (.var ⟨.int, rfl, trivial⟩)
        ⟨[48], by unfold CText.Digits; decide, .inl (by decide), .inl ⟨rfl, by decide⟩⟩)) .nil))
  exact absurd ((shown107 _ _).2 _ _ _ h2).1 (by decide +kernel)

end Bic.Repl
