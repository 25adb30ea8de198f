import Verif.Proofs.Startup
import Verif.Props.ScriptProcs
import Verif.Props.PtrDialogue
/-!
# C103: the startup file and the lines after it
-/

namespace Bic.Repl
open Spec CSyn
open Lexer (Reads Follows)
open _root_.Bic.Parser (PT T K nameStr)
open Printer (Floats)
open CText (Text ascii)

/-- the lines typed for these inputs, as in C89 -/
inductive STyped (Tx : List T → Str → Prop) (TN : List T → PT → List T → Prop) (cpp : Str → Str) : List Str → List SInput → Prop
  | nil : STyped Tx TN cpp [] []
  | cons {line text i0 i p0 p ls ps} : Tx i0 line → WSInput cTable TN p0 i0 → LastLine (cpp line) text → Tx i text → WSInput cTable TN p i →
      STyped Tx TN cpp ls ps → STyped Tx TN cpp (line :: ls) (p :: ps)

/-- The startup file, after the preprocessor, defines the procedures `Φ` and leaves the variables `fr` (`n` have been
created); without the file there are none.  `v` and `A` restrict what is written in the file. -/
inductive Begins (L : Rules) (Tx : List T → Str → Prop) (TN : List T → PT → List T → Prop) (v : Prop) (A : Part → Prop) :
    Option (Str × Nat) → (String → Option Proc) → Frame → Nat → Prop
  | none : Begins L Tx TN v A none (fun _ => none) [] 0
  | file {text p us i Φ fr n} : Tx i text → WParts cTable TN v us i [] → (∀ q, Part.proc "main" q ∉ us) → (∀ u ∈ us, A u) →
      RunParts L (fun _ => none) (argFrame 1) us Φ fr n → Begins L Tx TN v A (some (text, p)) Φ fr n

/-- C103: bic, started without a script, evaluates the startup file and then the lines that are typed.  The lines may
use the variables that the file declares and call the procedures that it defines, and bic shows for each of them
what C gives: nothing for the call of a procedure. -/
def C103_statement : Prop :=
  ∀ (E : Env) (fl : Floats) (F : Str → Nat) (cpp : List String → Str → Str) (mem : Mem) (ty : Str → Bool) (TN TN' : List T → PT → List T → Prop)
    (file : Option (Str × Nat)) (Φ : String → Option Proc) (fr fr' : Frame) (ls outs : List Str) (ps : List SInput) (n m : Nat),
    LiveLt mem → mem.brk + 280 + 48 * (n + m) < Mem.limit → Begins cRules (CText.CText ty) TN True (fun _ => True) file Φ fr n →
    STyped (CText.CText ty) TN' (cpp []) ls ps → SDialogue cRules cShows Φ fr ps outs fr' m →
    ∃ r r', Started E F mem ty file r ∧ Session E fl F cpp r ls outs none r' ∧ Rel r'.st [fr']

theorem runParts_separate {L : Rules} {G : String → Prop} {Φ Φ' : String → Option Proc} {fr fr' : Frame} {us n}
    (h : RunParts L Φ fr us Φ' fr' n) : Separate Φ G → (∀ u ∈ us, u.Apart G) → Separate Φ' G := by
  induction h with
  | nil => exact fun h _ => h
  | stmt _ _ ih => exact fun h ha => ih h fun u hu => ha u (List.mem_cons_of_mem _ hu)
  | proc _ _ ih => exact fun h ha => ih (h.add (ha _ List.mem_cons_self)) fun u hu => ha u (List.mem_cons_of_mem _ hu)

/-- the state before the first line -/
theorem started {E : Env} {F : Str → Nat} {mem : Mem} {ty : Str → Bool} {TN : List T → PT → List T → Prop} {G : String → Prop}
    {file : Option (Str × Nat)} {Φ : String → Option Proc} {fr : Frame} {n m : Nat} (hl : LiveLt mem)
    (cap : mem.brk + 280 + 48 * (n + m) < Mem.limit) (h : Begins okStatic (Text (Reads ty) Follows) TN False (·.Apart G) file Φ fr n) :
    (∃ r, Started E F mem ty file r) ∧ ∀ r, Started E F mem ty file r →
      r.lx.mode = .initial ∧ r.ty = ty ∧ r.st.includes = [] ∧ Good r.st [fr] m ∧ FnsAt Φ r.st [fr] ∧ Separate Φ G := by
  cases h with
  | none =>
    refine ⟨⟨_, .none⟩, ?_⟩
    intro r hr
    cases hr
    obtain ⟨g, f⟩ := init_good (n := m) hl (by omega)
    exact ⟨rfl, rfl, rfl, g, f, ⟨nofun, nofun, nofun⟩⟩
  | @file text p us i _ _ _ ht hw hm ha h =>
    obtain ⟨toks, h1, h2⟩ := Lexer.C81_tokens_partial .cscript ty ht
    obtain ⟨ts, h3, -, h4⟩ := Parser.parts_der hw
    obtain ⟨g1, g2⟩ := Parser.der_full h3
    obtain ⟨x, s, b1, b2, b3, b4⟩ := Parser.build_makes (F := F) _ g2 (initSt mem) (initSt_WF mem)
    obtain ⟨x, rfl⟩ := b4 g1
    have hp : StartParses ty text (.chain ts) := ⟨toks, i, ⟨_, h2 []⟩, h1, h3⟩
    have hu : ∀ t, StartParses ty text t → t = .chain ts := by
      rintro t ⟨toks', i', ⟨_, h5⟩, h6, h7⟩
      obtain rfl := (Lexer.Lex.unique (h2 []) h5).1
      obtain rfl := map_some_inj (h1.symm.trans h6)
      exact (C73_script h3 h7).symm
    cases b3 with
    | chain k1 k2 =>
      obtain ⟨s', c1, c2, c3, c4⟩ := script_runs_good (E := E) (ps := [p]) (m := m) b2 hl (by simp) (by simp; omega) k1 (h4 k2) hm ha h
      refine ⟨⟨_, .file hp b1 c1⟩, ?_⟩
      intro r hr
      cases hr with
      | rejected hn => exact absurd ⟨_, hp⟩ hn
      | file q1 q2 q3 =>
        obtain rfl := hu _ q1
        rw [b1] at q2
        cases q2
        cases Conv.unique c1 q3
        exact ⟨rfl, rfl, c4, c2, c3, runParts_separate h ⟨nofun, nofun, nofun⟩ ha⟩

/-- the lines -/
theorem start_session {E : Env} {fl : Floats} {F : Str → Nat} {cpp : List String → Str → Str} {r : RSt} {TN : List T → PT → List T → Prop}
    {G : String → Prop} {Φ : String → Option Proc} {fr fr' : Frame} {ls outs : List Str} {ps : List SInput} {n : Nat} (hs : Separate Φ G)
    (hm : r.lx.mode = .initial) (g : Good r.st [fr] n) (f : FnsAt Φ r.st [fr])
    (ht : STyped (Text (Reads r.ty) Follows) TN (cpp r.st.includes) ls ps) (h : SDialogue okStatic bicShows Φ fr ps outs fr' n) :
    (∃ r', Session E fl F cpp r ls outs none r') ∧
    ∀ outs' w r', Session E fl F cpp r ls outs' w r' → outs' = outs ∧ w = none ∧ Rel r'.st [fr'] := by
  induction h generalizing r ls with
  | nil =>
    cases ht
    refine ⟨⟨r, .nil⟩, ?_⟩
    intro os w r' hs
    cases hs
    exact ⟨rfl, rfl, g.rel⟩
  | @cons fr p out fr1 n ps outs fr2 m h1 h2 ih =>
    cases ht with
    | cons t1 t2 t3 t4 t5 t6 =>
      obtain ⟨q0, d0, n0, c0, -⟩ := sinput_der t2
      obtain ⟨q, d, nn, -, b⟩ := sinput_der t5
      obtain ⟨⟨r1, l1⟩, l2⟩ := line_shows (E := E) (fl := fl) (F := F) (cpp := cpp) (out := out)
        (P := fun s' => Good s' [fr1] m ∧ FnsAt Φ s' [fr1] ∧ s'.includes = r.st.includes) g.wf hm t1 d0 n0 c0 t3 t4 d nn
        fun s y e hy => by
          obtain ⟨s', a1, a2, a3, a4⟩ := sinput_conv (E := E) fl (m := m) hs (g.ext e) (f.step (fun sa => ⟨sa.ext e, by rw [e.ctxs]; exact .refl _⟩) e.nodes rfl) (b hy) h1
          exact ⟨s', a1, a2, a3, by rw [a4, e.includes]⟩
      have step : ∀ r1 : RSt, r1.lx.mode = .initial ∧ r1.ty = r.ty ∧ Good r1.st [fr1] m ∧ FnsAt Φ r1.st [fr1] ∧ r1.st.includes = r.st.includes → _ :=
        fun r1 h => ih (r := r1) (ls := _) h.1 h.2.2.1 h.2.2.2.1 (by rw [h.2.1, h.2.2.2.2]; exact t6)
      constructor
      · obtain ⟨⟨r', i1⟩, -⟩ := step r1 (l2 _ _ l1).2
        exact ⟨r', .cons l1 i1⟩
      · intro os w r' hs
        cases hs with
        | cons j1 j2 =>
          obtain ⟨e, j3⟩ := l2 _ _ j1
          cases e
          obtain ⟨e1, e2, e3⟩ := (step _ j3).2 _ _ _ j2
          exact ⟨by rw [e1], e2, e3⟩
        | ends j1 => exact absurd (l2 _ _ j1).1 nofun

/-- What bic shows: for an assignment the value before its conversion.  No other session is possible. -/
theorem C103_shown {E : Env} {fl : Floats} {F : Str → Nat} {cpp : List String → Str → Str} {mem : Mem} {ty : Str → Bool}
    {TN TN' : List T → PT → List T → Prop} {G : String → Prop} {file : Option (Str × Nat)} {Φ : String → Option Proc} {fr fr' : Frame}
    {ls outs : List Str} {ps : List SInput} {n m : Nat} (hl : LiveLt mem) (cap : mem.brk + 280 + 48 * (n + m) < Mem.limit)
    (hb : Begins okStatic (Text (Reads ty) Follows) TN False (·.Apart G) file Φ fr n) (ht : STyped (Text (Reads ty) Follows) TN' (cpp []) ls ps)
    (h : SDialogue okStatic bicShows Φ fr ps outs fr' m) :
    (∃ r r', Started E F mem ty file r ∧ Session E fl F cpp r ls outs none r') ∧
    ∀ r outs' w r', Started E F mem ty file r → Session E fl F cpp r ls outs' w r' → outs' = outs ∧ w = none ∧ Rel r'.st [fr'] := by
  obtain ⟨⟨r, hr⟩, hu⟩ := started (E := E) (F := F) (m := m) hl cap hb
  have key : ∀ r, Started E F mem ty file r → _ := fun r hr => by
    obtain ⟨h1, h2, h3, h4, h5, h6⟩ := hu r hr
    exact start_session (E := E) (fl := fl) (F := F) (cpp := cpp) (TN := TN') (ls := ls) h6 h1 h4 h5 (by rw [h2, h3]; exact ht) h
  obtain ⟨⟨r', h1⟩, _⟩ := key r hr
  exact ⟨⟨r, r', hr, h1⟩, fun r outs' w r' hr hs => (key r hr).2 _ _ _ hs⟩

theorem SDialogue.mono {L : Rules} {S S' : Shows} (h1 : ∀ v w z, S.asg v w z → S'.asg v w z) (h2 : ∀ z, S.step z → S'.step z) {Φ fr ps outs fr' n}
    (h : SDialogue L S Φ fr ps outs fr' n) : SDialogue L S' Φ fr ps outs fr' n := by
  induction h with
  | nil => exact .nil
  | cons a _ ih =>
    refine .cons ?_ ih
    cases a with
    | plain a => exact .plain (Reply.mono h1 h2 a)
    | call a => exact .call a

/-- C103 for the startup files of `C86_script_partial`, the texts of `C81_tokens_partial`, the operations of
`C34_programs_partial` and values that fit into the variables.  No other session is possible.  Missing: files that
bic does not run as C does, and assignments of values that do not fit. -/
theorem C103_startup_partial {E : Env} {fl : Floats} {F : Str → Nat} {cpp : List String → Str → Str} {mem : Mem} {ty : Str → Bool}
    {TN TN' : List T → PT → List T → Prop} {G : String → Prop} {file : Option (Str × Nat)} {Φ : String → Option Proc} {fr fr' : Frame}
    {ls outs : List Str} {ps : List SInput} {n m : Nat} (hl : LiveLt mem) (cap : mem.brk + 280 + 48 * (n + m) < Mem.limit)
    (hb : Begins okStatic (Text (Reads ty) Follows) TN False (·.Apart G) file Φ fr n) (ht : STyped (Text (Reads ty) Follows) TN' (cpp []) ls ps)
    (h : SDialogue okStatic okShows Φ fr ps outs fr' m) :
    (∃ r r', Started E F mem ty file r ∧ Session E fl F cpp r ls outs none r') ∧
    ∀ r outs' w r', Started E F mem ty file r → Session E fl F cpp r ls outs' w r' → outs' = outs ∧ w = none ∧ Rel r'.st [fr'] :=
  C103_shown hl cap hb ht (SDialogue.mono (S := okShows) (S' := bicShows) (fun _ _ _ h => h.1.trans h.2.symm) (fun _ h => h) h)

/-! ### Examples: the startup file of the example of C86 and the lines `f(3);`, `x;`, `int y=7;`; `y=3000000000;` -/

open TextCheck

def call103 : W89 := [idn [102] name_f, kw .lparen "(", num [51], kw .rparen ")", kw .semi ";"]
def big103 : W89 := [idn [121] name_y, kw .assign "=", num (ascii "3000000000"), kw .semi ";"]

theorem ok103 : (okW call103 && okW var89 && okW decl89 && okW big103) = true := by decide +kernel

theorem lines103_eq : [call103, var89, decl89, big103].map textW = ["f(3);", "x;", "int y=7;", "y=3000000000;"].map ascii := by decide +kernel

theorem styped1 {Tx : List T → Str → Prop} {l : W89} {p : SInput} {ls ps} (h : Tx (toksW l) (textW l)) (hn : newline ∉ textW l)
    (hw : WSInput cTable noTN p (toksW l)) (ht : STyped Tx noTN (cpp89 []) ls ps) :
    STyped Tx noTN (cpp89 []) (textW l :: ls) (p :: ps) :=
  .cons h hw (lastLine89 hn) h hw ht

theorem begins103 (p : Nat) : Begins okStatic (Text (Reads fun _ => false) Follows) noTN False (·.Apart fun x => x = "x" ∨ x = "f")
    (some (textW words86, p)) procs86 (glob86 1 (sum85 900)) 902 := by
  refine .file (okW_text words86_ok) src86 (by simp [parts86]) ?_ (run86 1)
  simp only [parts86, List.mem_cons, List.not_mem_nil, or_false, forall_eq_or_imp, forall_eq]
  refine ⟨by simp [Part.Apart, Stmt.inners], ?_, by simp [Part.Apart, Stmt.inners]⟩
  refine ⟨?_, ?_, ?_⟩
  · intro x hx
    simp [proc86, body85, Stmt.free, Expr.uses, Act.uses, Stmt.binds] at hx ⊢
    rcases hx with rfl | rfl | rfl | rfl | rfl <;> simp
  · simp [proc86]
  · simp [proc86, body85, Stmt.binds, Stmt.inners]

theorem decl103 {L : Rules} {S : Shows} {fr : Frame} (hf : Frame.find "y" fr = none) (ha : ∀ σ, L.asg σ .int (.lit 7) 7)
    (hw : Store.write "y" 7 [fr ++ [("y", some ⟨.int, none⟩)]] = [fr ++ [("y", some ⟨.int, some 7⟩)]])
    (hh : Store.Has [fr ++ [("y", some ⟨.int, none⟩)]] "y" .int none) :
    Reply L S [fr] (.decl .int [("y", some (.lit 7))]) (ascii "y" ++ [10]) [fr ++ [("y", some ⟨.int, some 7⟩)]] 1 := by
  refine .decl (x := "y") (e := some (.lit 7)) (by decide) (.init hf ?_ .nil) rfl
  rw [← hw]
  exact .set (c := .int) (u := none) (v := 7) (w := 7) hh (.lit 7) (ha _) (conv_self (by decide))

theorem dialogue103 : SDialogue okStatic okShows procs86 (glob86 1 (sum85 900)) [.call "f" [.lit 3], .plain (.expr (.var "x")), .plain (.decl .int [("y", some (.lit 7))])]
    [[], ascii "405456" ++ [10], ascii "y" ++ [10]] (glob86 1 405456 ++ [("y", some ⟨.int, some 7⟩)]) (4 + (0 + (1 + 0))) := by
  have e : sum85 900 = 405450 := by decide +kernel
  have hb := body_runs86 1 3 405450 (by omega) (by decide) (by omega)
  have e3 : (405450 : Int) + sum85 3 = 405456 := by decide
  rw [e3] at hb
  rw [e]
  refine .cons (fr1 := glob86 1 405456) (.call ?_) (.cons (.plain (.expr (v := 405456) (.var ⟨.int, rfl, show InRange .long _ by decide⟩) ?_))
    (.cons (.plain (decl103 rfl (fun _ => .inl ⟨rfl, .inl (by decide)⟩) rfl rfl)) .nil))
  · exact Run.call (L := staticRules procs86) (hid := []) (vis := [glob86 1 405450]) (q := proc86) (g := end85 3) (n := 3) rfl (by simp) rfl
      ⟨by simp [Avoid, Expr.uses, proc86], end85_or _⟩
      (.cons (c := .int) (x := "n") (v := 3) (w := 3) (by decide) (.lit _) (.inl ⟨rfl, .inl (by decide)⟩) (conv_self (by decide)) .nil)
      (by simp [Frame.names]) hb
  · exact ⟨_, by unfold CText.Digits; decide +kernel, .inr (by decide +kernel), .inl ⟨rfl, by decide +kernel⟩⟩

/-- after the startup file `x` is 405450; the call shows nothing and makes it 405456 -/
example (E : Env) (fl : Floats) (F : Str → Nat) (mem : Mem) (p : Nat) (hl : LiveLt mem) (cap : mem.brk + 280 + 48 * (902 + (4 + (0 + (1 + 0)))) < Mem.limit) :
    (∃ r r', Started E F mem (fun _ => false) (some (ascii "int x = 0; void f(int n) { if (n) { x = x + n; f(n - 1); return; } } f(900);", p)) r ∧
      Session E fl F cpp89 r (["f(3);", "x;", "int y=7;"].map ascii) (["", "405456\n", "y\n"].map ascii) none r') ∧
    ∀ r outs' w r', Started E F mem (fun _ => false) (some (ascii "int x = 0; void f(int n) { if (n) { x = x + n; f(n - 1); return; } } f(900);", p)) r →
      Session E fl F cpp89 r (["f(3);", "x;", "int y=7;"].map ascii) outs' w r' →
      outs' = ["", "405456\n", "y\n"].map ascii ∧ w = none ∧ Rel r'.st [glob86 1 405456 ++ [("y", some ⟨.int, some 7⟩)]] := by
  have h := ok103
  simp only [Bool.and_eq_true] at h
  obtain ⟨⟨⟨h0, h1⟩, h2⟩, _⟩ := h
  have e1 : ["f(3);", "x;", "int y=7;"].map ascii = [textW call103, textW var89, textW decl89] := by decide +kernel
  have e2 : ["", "405456\n", "y\n"].map ascii = [[], ascii "405456" ++ [10], ascii "y" ++ [10]] := by decide +kernel
  rw [← words86_text, e1, e2]
  exact C103_startup_partial hl cap (begins103 p)
    (styped1 (okW_text h0) (by decide +kernel) (.call (s := [102]) (.one ⟨.int 3, .int, .int⟩))
    (styped1 (okW_text h1) (by decide +kernel) (.plain (.expr (e := .var "x") ⟨.ident [120], .ident, .ident⟩))
    (styped1 (okW_text h2) (by decide +kernel) (.plain (.decl (ws := [.int]) (.one rfl) ⟨[.int], by decide, by decide⟩
      (.one (.init (s := [121]) ⟨.int 7, .int, .int⟩)))) .nil)))
    dialogue103

/-- C103 is false: for `y=3000000000;` with `int y` bic shows 3000000000, and C the value of `y`. -/
theorem C103_refuted : ¬ C103_statement := by
  intro h
  have hok := ok103
  simp only [Bool.and_eq_true] at hok
  obtain ⟨⟨_, h1⟩, h2⟩ := hok
  have w1 : WSInput cTable noTN (.plain (.decl .int [("y", some (.lit 7))])) (toksW decl89) :=
    .plain (.decl (ws := [.int]) (.one rfl) ⟨[.int], by decide, by decide⟩ (.one (.init (s := [121]) ⟨.int 7, .int, .int⟩)))
  have w2 : WSInput cTable noTN (.plain (.set "y" (.lit 3000000000))) (toksW big103) := .plain (.set (s := [121]) ⟨.int 3000000000, .int, .int⟩)
  have hc : Converts .int 3000000000 (-1294967296) := ⟨by decide, 1, by decide⟩
  have cap : (memOf []).brk + 280 + 48 * (0 + (1 + (0 + 0))) < Mem.limit := by simp only [memOf]; decide +kernel
  obtain ⟨r, r', h3, h4, _⟩ := h E0 ⟨fun _ => [], fun _ _ => []⟩ (fun _ => 0) cpp89 (memOf []) (fun _ => false) noTN noTN none (fun _ => none) [] [("y", some ⟨.int, some (-1294967296)⟩)]
    [textW decl89, textW big103] [ascii "y" ++ [10], ascii "-1294967296" ++ [10]] [.plain (.decl .int [("y", some (.lit 7))]), .plain (.set "y" (.lit 3000000000))]
    0 (1 + (0 + 0)) (memOf_livelt _) cap .none
    (styped1 (okW_ctext h1) (by decide +kernel) w1 (styped1 (okW_ctext h2) (by decide +kernel) w2 .nil))
    (.cons (.plain (decl103 rfl (fun _ => trivial) rfl rfl)) (.cons (.plain (.set (c := .int) (u := some 7) (v := 3000000000) (w := -1294967296) rfl (.lit _) trivial hc rfl decimalWrapped)) .nil))
  have := ((C103_shown (E := E0) (fl := ⟨fun _ => [], fun _ _ => []⟩) (F := fun _ => 0) (cpp := cpp89) (G := fun _ => False) (memOf_livelt _) cap (TN := noTN) .none
    (styped1 (okW_text h1) (by decide +kernel) w1 (styped1 (okW_text h2) (by decide +kernel) w2 .nil))
    (.cons (.plain (decl103 rfl (fun _ => .inl ⟨rfl, .inl (by decide)⟩) rfl rfl))
      (.cons (.plain (.set (c := .int) (u := some 7) (v := 3000000000) (w := -1294967296) rfl (.lit _) (.inl ⟨rfl, .inl (by decide)⟩) hc rfl decimalBig)) .nil))).2 _ _ _ _ h3 h4).1
  exact absurd this (by decide +kernel)

end Bic.Repl
