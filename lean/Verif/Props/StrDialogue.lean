import Verif.Proofs.StrDialogue
import Verif.Props.ArrayDialogue
/-!
# C108: dialogues with a string
-/

namespace Bic.Repl
open Spec CSyn
open Lexer (Reads Follows)
open _root_.Bic.Parser (PT T K nameStr)
open Printer (Floats)
open CText (Text ascii)

section
variable (Tx : List T → Str → Prop) (TN : List T → PT → List T → Prop) (cpp : Str → Str)

/-- the line, as it is typed and after the preprocessor, declares the pointer `x` to this string -/
structure StrLine (line : Str) (x bs : Str) : Prop where
  typed : ∃ i0 x0 bs0, Tx i0 line ∧ WStrVar x0 bs0 i0
  meant : ∃ i text, LastLine (cpp line) text ∧ Tx i text ∧ WStrVar x bs i

/-- the lines typed for these inputs, as in C89 -/
inductive ChTyped (x : Str) : List Str → List ChInput → Prop
  | nil : ChTyped x [] []
  | cons {line text i0 i p0 p ls ps} : Tx i0 line → WChInput cTable TN x p0 i0 → LastLine (cpp line) text → Tx i text → WChInput cTable TN x p i →
      ChTyped x ls ps → ChTyped x (line :: ls) (p :: ps)

end

/-- memory for these lines -/
def sCosts (ps : List ChInput) : Nat := (ps.map sCost).sum

/-- C108: after the declaration of a pointer to a string, each line with a string literal shows its characters, each
line `p;` shows where the string is and its characters, each line `p[i];` or `*p;` shows the value of a character, each
line `p[i]=e;` shows the value assigned, which becomes that of the character, and each line `p="…";` shows the new
pointer.  Where the strings are is for bic to decide: if C allows any answers to these lines, then bic gives answers
that C allows. -/
def C108_statement : Prop :=
  ∀ (E : Env) (fl : Floats) (F : Str → Nat) (cpp : List String → Str → Str) (r : RSt) (TN : List T → PT → List T → Prop)
    (x bs line : Str) (ls outs0 : List Str) (ps : List ChInput) (m0 : Nat) (π0 : Nat × Str),
    r.lx.mode = .initial → WF r.st → Fresh r.st (nameStr x) → Cap r.st (strCost bs.length + sCosts ps + 48) → m0 ≠ 0 →
    StrLine (CText.CText r.ty) (cpp r.st.includes) line x bs → ChTyped (CText.CText r.ty) TN (cpp r.st.includes) x ls ps →
    ChDialogue (CVal fun y u => IntIs r.st y u ∧ y ≠ nameStr x) (CVal fun y u => IntIs r.st y u ∧ y ≠ nameStr x) (fun _ w z => z = w) CharPtrText
      (m0, bs ++ [0]) ps outs0 π0 →
    ∃ m π outs r', m ≠ 0 ∧ Session E fl F cpp r (line :: ls) ((ascii (nameStr x) ++ [newline]) :: outs) none r' ∧
      ChDialogue (CVal fun y u => IntIs r.st y u ∧ y ≠ nameStr x) (CVal fun y u => IntIs r.st y u ∧ y ≠ nameStr x) (fun _ w z => z = w) CharPtrText
        (m, bs ++ [0]) ps outs π

/-- the dialogues with the operations bic gets right -/
abbrev BicStr (s0 : St) (x : String) := ChDialogue (Val okOp okTruth fun y v => IntIs s0 y v ∧ y ≠ x) (bicVal s0 x .char)

/-- these are ways of answering assignments that describe bic -/
structure Shows (sh : Int → Int → Int → Prop) (asg : Nat → Str → Str → Prop) : Prop where
  value : ∀ v w z, sh v w z → z = v
  string : ∀ m m' u o, asg m u o → asg m' u o ∧ echo m u o

/-- the lines after the declaration -/
theorem str_session {E : Env} {fl : Floats} {F : Str → Nat} {cpp : List String → Str → Str} {r : RSt} {s0 : St}
    {TN : List T → PT → List T → Prop} {x : Str} {cap : Nat} {π π1 π1' : Nat × Str} {ls outs0 : List Str} {ps : List ChInput}
    {sh : Int → Int → Int → Prop} {asg : Nat → Str → Str → Prop} (hsh : Shows sh asg) (hm : r.lx.mode = .initial) (g : SInv s0 r.st (nameStr x) π (cap + sCosts ps)) (hπ : π.2 = π1.2)
    (ht : ChTyped (Text (Reads r.ty) Follows) TN (cpp s0.includes) x ls ps) (h : BicStr s0 (nameStr x) sh asg π1 ps outs0 π1') :
    (∃ outs r', Session E fl F cpp r ls outs none r') ∧
    ∀ outs w r', Session E fl F cpp r ls outs w r' →
      w = none ∧ ∃ π', BicStr s0 (nameStr x) sh asg π ps outs π' ∧ π'.2 = π1'.2 ∧ SInv s0 r'.st (nameStr x) π' cap := by
  induction h generalizing r ls π with
  | nil =>
    cases ht
    refine ⟨⟨[], r, .nil⟩, ?_⟩
    intro os w r' hs
    cases hs
    exact ⟨rfl, π, .nil, hπ, g⟩
  | @cons π1 p out0 π2 ps outs0 π3 h1 h2 ih =>
    cases ht with
    | cons t1 t2 t3 t4 t5 t6 =>
      obtain ⟨q0, d0, n0, c0, -⟩ := chInput_der t2
      obtain ⟨q, d, nn, -, b⟩ := chInput_der t5
      rw [← g.kept.includes] at t3
      have g' : SInv s0 r.st (nameStr x) π (cap + sCosts ps + sCost p) := by
        have : cap + sCosts (p :: ps) = cap + sCosts ps + sCost p := by simp only [sCosts, List.map_cons, List.sum_cons]; omega
        rw [← this]
        exact g
      obtain ⟨out, hout⟩ := chInput_conv (E := E) fl hsh.value hsh.string hπ h1
      obtain ⟨⟨r1, l1⟩, l2⟩ := line_shows (E := E) (fl := fl) (F := F) (cpp := cpp) (out := out)
        (P := fun s' => ∃ π', SInv s0 s' (nameStr x) π' (cap + sCosts ps) ∧ π'.2 = π2.2 ∧
          ChReply (Val okOp okTruth fun y v => IntIs s0 y v ∧ y ≠ nameStr x) (bicVal s0 (nameStr x) .char) sh asg π p out π')
        g.wf hm t1 d0 n0 c0 t3 t4 d nn
        fun s y e hy => by
          obtain ⟨s', π', a1, a2, a3, a4⟩ := hout s y _ (g'.ext e) (b hy)
          exact ⟨s', a1, π', a2, a3, a4⟩
      constructor
      · obtain ⟨e1, e2, e3, π', e4, e5, e6⟩ := l2 _ _ l1
        obtain ⟨⟨outs, r', i1⟩, -⟩ := ih (r := r1) (ls := _) e2 e4 e5 (by rw [e3]; exact t6)
        exact ⟨out :: outs, r', .cons l1 i1⟩
      · intro os w r' hs
        cases hs with
        | cons j1 j2 =>
          obtain ⟨e1, e2, e3, π', e4, e5, e6⟩ := l2 _ _ j1
          cases e1
          obtain ⟨-, i2⟩ := ih (r := _) (ls := _) e2 e4 e5 (by rw [e3]; exact t6)
          obtain ⟨k1, π'', k2, k3, k4⟩ := i2 _ _ _ j2
          exact ⟨k1, π'', .cons e6 k2, k3, k4⟩
        | ends j1 => exact absurd (l2 _ _ j1).1 nofun

theorem str_shown {E : Env} {fl : Floats} {F : Str → Nat} {cpp : List String → Str → Str} {r : RSt}
    {TN : List T → PT → List T → Prop} {x bs line : Str} {ls outs0 : List Str} {ps : List ChInput} {m0 : Nat} {π0 : Nat × Str}
    {sh : Int → Int → Int → Prop} {asg : Nat → Str → Str → Prop} (hsh : Shows sh asg)
    (hm : r.lx.mode = .initial) (w : WF r.st) (hf : Fresh r.st (nameStr x)) (hc : Cap r.st (strCost bs.length + sCosts ps + 48))
    (hl : StrLine (Text (Reads r.ty) Follows) (cpp r.st.includes) line x bs) (ht : ChTyped (Text (Reads r.ty) Follows) TN (cpp r.st.includes) x ls ps)
    (h : BicStr r.st (nameStr x) sh asg (m0, bs ++ [0]) ps outs0 π0) :
    (∃ outs r', Session E fl F cpp r (line :: ls) outs none r') ∧
    ∀ outs w r', Session E fl F cpp r (line :: ls) outs w r' →
      w = none ∧ ∃ outs1 m π, outs = (ascii (nameStr x) ++ [newline]) :: outs1 ∧ m ≠ 0 ∧ BicStr r.st (nameStr x) sh asg (m, bs ++ [0]) ps outs1 π ∧
        π.2 = π0.2 ∧ SInv r.st r'.st (nameStr x) π 0 := by
  obtain ⟨i0, x0, bs0, t1, w1⟩ := hl.typed
  obtain ⟨i, text, t2, t3, w2⟩ := hl.meant
  obtain ⟨q0, d0, n0, c0, -⟩ := strVar_der w1
  obtain ⟨q, d, nn, -, b⟩ := strVar_der w2
  obtain ⟨⟨r1, l1⟩, l2⟩ := line_shows (E := E) (fl := fl) (F := F) (cpp := cpp) (out := ascii (nameStr x) ++ [newline])
    (P := fun s' => ∃ m, m ≠ 0 ∧ SInv r.st s' (nameStr x) (m, bs ++ [0]) (sCosts ps)) w hm t1 d0 n0 c0 t2 t3 d nn fun s y he hy => by
      obtain ⟨id, s', m, h1, h2, h3, h4⟩ := strDecl_conv (E := E) he w (b hy) hf hc
      exact ⟨s', .inl ⟨id, _, h1, rfl, fun o => prints_ident h2 o⟩, m, h4, h3⟩
  have step : ∀ (r1 : RSt) (m : Nat), r1.lx.mode = .initial → r1.ty = r.ty → SInv r.st r1.st (nameStr x) (m, bs ++ [0]) (sCosts ps) → _ :=
    fun r1 m j1 j2 j3 => str_session (E := E) (fl := fl) (F := F) (cap := 0) (r := r1) (π := (m, bs ++ [0])) (π1 := (m0, bs ++ [0])) hsh j1
      (by rw [Nat.zero_add]; exact j3) rfl
      (by rw [j2]; exact ht) h
  constructor
  · obtain ⟨-, e2, e3, m, e4, e5⟩ := l2 _ _ l1
    obtain ⟨⟨outs, r', i1⟩, -⟩ := step r1 m e2 e3 e5
    exact ⟨_, r', .cons l1 i1⟩
  · intro os w r' hs
    cases hs with
    | cons j1 j2 =>
      obtain ⟨e, e2, e3, m, e4, e5⟩ := l2 _ _ j1
      cases e
      obtain ⟨k1, π, k2, k3, k4⟩ := (step _ m e2 e3 e5).2 _ _ _ j2
      exact ⟨k1, _, m, π, rfl, e4, k2, k3, k4⟩
    | ends j1 => exact absurd (l2 _ _ j1).1 nofun

/-- What bic shows: for an assignment to a character the value before its conversion, and for the assignment of a
literal the literal.  It shows nothing else, and in the end the bytes are those the assignments have left. -/
theorem C108_shown {E : Env} {fl : Floats} {F : Str → Nat} {cpp : List String → Str → Str} {r : RSt}
    {TN : List T → PT → List T → Prop} {x bs line : Str} {ls outs0 : List Str} {ps : List ChInput} {m0 : Nat} {π0 : Nat × Str}
    (hm : r.lx.mode = .initial) (w : WF r.st) (hf : Fresh r.st (nameStr x)) (hc : Cap r.st (strCost bs.length + sCosts ps + 48))
    (hl : StrLine (Text (Reads r.ty) Follows) (cpp r.st.includes) line x bs) (ht : ChTyped (Text (Reads r.ty) Follows) TN (cpp r.st.includes) x ls ps)
    (h : BicStr r.st (nameStr x) (fun v _ z => z = v) echo (m0, bs ++ [0]) ps outs0 π0) :
    (∃ outs r', Session E fl F cpp r (line :: ls) outs none r') ∧
    ∀ outs w r', Session E fl F cpp r (line :: ls) outs w r' →
      w = none ∧ ∃ outs1 m π, outs = (ascii (nameStr x) ++ [newline]) :: outs1 ∧ m ≠ 0 ∧
        BicStr r.st (nameStr x) (fun v _ z => z = v) echo (m, bs ++ [0]) ps outs1 π ∧ π.2 = π0.2 ∧ SInv r.st r'.st (nameStr x) π 0 :=
  str_shown ⟨fun _ _ _ h => h, fun _ _ _ _ h => ⟨h, h⟩⟩ hm w hf hc hl ht h

theorem ChDialogue.mono {idx val : Expr → Int → Prop} {sh sh' : Int → Int → Int → Prop} {asg asg' : Nat → Str → Str → Prop}
    (h1 : ∀ v w z, sh v w z → sh' v w z) (h2 : ∀ m u o, asg m u o → asg' m u o) {π ps outs π'}
    (h : ChDialogue idx val sh asg π ps outs π') : ChDialogue idx val sh' asg' π ps outs π' := by
  induction h with
  | nil => exact .nil
  | cons a _ ih =>
    refine .cons ?_ ih
    cases a with
    | lit a => exact .lit a
    | assign a b c => exact .assign a b (h2 _ _ _ c)
    | value a b => exact .value a b
    | first a b => exact .first a b
    | get a b c => exact .get a b c
    | set a b c d e f g => exact .set a b c d (h1 _ _ _ e) f g

/-- C108 for the texts of `C81_tokens_partial`, the operations of `C34_programs_partial`, characters that get values
that fit and are not the values of variables, and without assignments of literals.  No other session is possible. -/
theorem C108_strings_partial {E : Env} {fl : Floats} {F : Str → Nat} {cpp : List String → Str → Str} {r : RSt}
    {TN : List T → PT → List T → Prop} {x bs line : Str} {ls outs0 : List Str} {ps : List ChInput} {m0 : Nat} {π0 : Nat × Str}
    (hm : r.lx.mode = .initial) (w : WF r.st) (hf : Fresh r.st (nameStr x)) (hc : Cap r.st (strCost bs.length + sCosts ps + 48))
    (hl : StrLine (Text (Reads r.ty) Follows) (cpp r.st.includes) line x bs) (ht : ChTyped (Text (Reads r.ty) Follows) TN (cpp r.st.includes) x ls ps)
    (h : BicStr r.st (nameStr x) (fun v w z => z = w ∧ v = w) (fun _ _ _ => False) (m0, bs ++ [0]) ps outs0 π0) :
    (∃ outs r', Session E fl F cpp r (line :: ls) outs none r') ∧
    ∀ outs w r', Session E fl F cpp r (line :: ls) outs w r' →
      w = none ∧ ∃ outs1 m π, outs = (ascii (nameStr x) ++ [newline]) :: outs1 ∧ m ≠ 0 ∧
        BicStr r.st (nameStr x) (fun _ w z => z = w) CharPtrText (m, bs ++ [0]) ps outs1 π ∧ π.2 = π0.2 := by
  obtain ⟨h1, h2⟩ := str_shown (E := E) (fl := fl) (F := F) ⟨fun _ _ _ h => h.1.trans h.2.symm, fun _ _ _ _ h => h.elim⟩ hm w hf hc hl ht h
  refine ⟨h1, fun outs w r' hs => ?_⟩
  obtain ⟨a, outs1, m, π, b, c, d, e, -⟩ := h2 outs w r' hs
  exact ⟨a, outs1, m, π, b, c, ChDialogue.mono (fun _ _ _ h => h.1) (fun _ _ _ h => h.elim) d, e⟩

/-! ### Examples: `char *a="hi";`, `a[x]=72;`, `"yo";`, `a[1];`, `*a;`, `a;`, and `a="yo";` -/

open TextCheck

/-- a literal of these two characters -/
def pair (a b : UInt8) : List Piece := [.plain a, .plain b]

theorem pair_literal {a b : UInt8} (ha : Piece.Ok 34 (.plain a)) (hb : Piece.Ok 34 (.plain b)) : Literal 34 (pair a b) :=
  ⟨ha, fun _ _ h => h, hb, fun _ _ h => h, trivial⟩

def strW (a b : UInt8) (ha : Piece.Ok 34 (.plain a)) (hb : Piece.Ok 34 (.plain b)) : Option (Wd fun _ => false) :=
  some ⟨.string [a, b], [34, a, b, 34], rfl, .string (ps := pair a b) (pair_literal ha hb)
    (fun p hp => by simp only [pair, List.mem_cons, List.not_mem_nil, or_false] at hp; rcases hp with rfl | rfl <;> exact trivial)
    ⟨nofun, nofun, trivial⟩⟩

def hiW := strW 104 105 (by unfold Piece.Ok; decide) (by unfold Piece.Ok; decide)
def yoW := strW 121 111 (by unfold Piece.Ok; decide) (by unfold Piece.Ok; decide)

def decl108 : W89 := [kw .char "char", sp, kw .star "*", idn [97] (name1 97), kw .assign "=", hiW, kw .semi ";"]
def set108 : W89 := [idn [97] (name1 97), kw .lbrack "[", idn [120] Lexer.name_x, kw .rbrack "]", kw .assign "=", num [55, 50], kw .semi ";"]
def lit108 : W89 := [yoW, kw .semi ";"]
def get108 : W89 := [idn [97] (name1 97), kw .lbrack "[", num [49], kw .rbrack "]", kw .semi ";"]
def first108 : W89 := [kw .star "*", idn [97] (name1 97), kw .semi ";"]
def val108 : W89 := [idn [97] (name1 97), kw .semi ";"]
def asg108 : W89 := [idn [97] (name1 97), kw .assign "=", yoW, kw .semi ";"]

theorem ok108 : (okW decl108 && okW set108 && okW lit108 && okW get108 && okW first108 && okW val108 && okW asg108) = true := by decide +kernel

theorem lines108_eq : [decl108, set108, lit108, get108, first108, val108, asg108].map textW =
    ["char *a=\"hi\";", "a[x]=72;", "\"yo\";", "a[1];", "*a;", "a;", "a=\"yo\";"].map ascii := by decide +kernel

theorem wdecl108 : WStrVar [97] (ascii "hi") (toksW decl108) :=
  .mk (ws := [.char]) (.one rfl) ⟨[.char], by decide, by decide⟩

theorem strLine108 {Tx : List T → Str → Prop} (h : Tx (toksW decl108) (textW decl108)) :
    StrLine Tx (cpp89 []) (textW decl108) [97] (ascii "hi") :=
  ⟨⟨_, _, _, h, wdecl108⟩, ⟨_, _, lastLine89 (by decide +kernel), h, wdecl108⟩⟩

theorem chTyped1 {Tx : List T → Str → Prop} {l : W89} {p : ChInput} {ls ps} (h : Tx (toksW l) (textW l)) (hn : newline ∉ textW l)
    (hw : WChInput cTable noTN [97] p (toksW l)) (ht : ChTyped Tx noTN (cpp89 []) [97] ls ps) :
    ChTyped Tx noTN (cpp89 []) [97] (textW l :: ls) (p :: ps) :=
  .cons h hw (lastLine89 hn) h hw ht

def inputs108 : List ChInput := [.set (.var "x") (.lit 72), .lit (ascii "yo"), .get (.lit 1), .first, .value]

/-- whatever the address -/
theorem dialogue108 (m : Nat) (o : Str) (ho : CharPtrText m (ascii "Hi") o) :
    BicStr r89.st "a" (fun v w z => z = w ∧ v = w) (fun _ _ _ => False) (m, ascii "hi" ++ [0]) inputs108
      [ascii "72" ++ [10], ascii "\"" ++ ascii "yo" ++ ascii "\"" ++ [10], ascii "105" ++ [10], ascii "72" ++ [10], o ++ [10]] (m, ascii "Hi" ++ [0]) := by
  refine .cons (.set (j := 0) (v := 72) (w := 72) (b := 72) (.var ⟨x99, by decide⟩) (by decide) ⟨.lit _, rfl, .inl (by decide)⟩
    (Converts.self (by decide)) ⟨rfl, rfl⟩ ?_ (by decide)) (.cons (.lit ⟨by decide +kernel, [], by decide +kernel⟩)
    (.cons (.get (j := 1) (b := 105) (.lit _) (by decide +kernel) ?_) (.cons (.first (b := 72) (by decide +kernel) ?_)
    (.cons (.value (t := ascii "Hi") ⟨by decide +kernel, [], by decide +kernel⟩ ho) .nil))))
  all_goals exact ⟨_, by unfold CText.Digits; decide +kernel, .inr (by decide +kernel), .inl ⟨rfl, by decide +kernel⟩⟩

/-- `char *a="hi";`, `a[x]=72;`, `"yo";`, `a[1];`, `*a;` and `a;`, which are answered by `a` and as `dialogue108` says -/
example (fl : Floats) (F : Str → Nat) :
    ∃ outs r', Session E0 fl F cpp89 r89 ([decl108, set108, lit108, get108, first108, val108].map textW) outs none r' := by
  have h := ok108
  simp only [Bool.and_eq_true] at h
  obtain ⟨⟨⟨⟨⟨⟨h0, h1⟩, h2⟩, h3⟩, h4⟩, h5⟩, _⟩ := h
  exact (C108_strings_partial (x := [97]) (bs := ascii "hi") (ps := inputs108) (TN := noTN) (m0 := 0) rfl (stOf_WF _ _ _) fresh101
    ⟨by decide +kernel, by simp [r89, st89, stOf], memOf_livelt _⟩ (strLine108 (okW_text h0))
    (chTyped1 (okW_text h1) (by decide +kernel) (.set ⟨.ident [120], .ident, .ident⟩ ⟨.int 72, .int, .int⟩)
    (chTyped1 (okW_text h2) (by decide +kernel) .lit
    (chTyped1 (okW_text h3) (by decide +kernel) (.get ⟨.int 1, .int, .int⟩)
    (chTyped1 (okW_text h4) (by decide +kernel) .first
    (chTyped1 (okW_text h5) (by decide +kernel) .value .nil)))))
    (dialogue108 0 _ (.inl ⟨rfl, rfl⟩))).1

/-- C108 is false: for `a="yo";` bic shows the literal, and not the pointer. -/
theorem C108_refuted : ¬ C108_statement := by
  intro h
  have hok := ok108
  simp only [Bool.and_eq_true] at hok
  obtain ⟨⟨h0, _⟩, h1⟩ := hok
  have hcap : Cap r89.st (strCost (ascii "hi").length + sCosts [.assign (ascii "yo")] + 48) :=
    ⟨by decide +kernel, by simp [r89, st89, stOf], memOf_livelt _⟩
  have hs : CString (ascii "yo" ++ [0]) (ascii "yo") := ⟨by decide +kernel, [], by decide +kernel⟩
  have hx : CharPtrText 1 (ascii "yo") (ascii "0x" ++ _ ++ ascii " (\"" ++ ascii "yo" ++ ascii "\")") :=
    .inr ⟨by decide, _, .inr ⟨by decide, _, (Print.hexDigits_spec 1).1, rfl⟩, rfl⟩
  obtain ⟨m, π, outs, r', hm, h2, h3⟩ := h E0 ⟨fun _ => [], fun _ _ => []⟩ (fun _ => 0) cpp89 r89 noTN [97] (ascii "hi") (textW decl108) [textW asg108] _
    [.assign (ascii "yo")] 1 _ rfl (stOf_WF _ _ _) fresh101 hcap (by decide) (strLine108 (okW_ctext h0.1.1.1.1))
    (chTyped1 (okW_ctext h1) (by decide +kernel) .assign .nil) (.cons (.assign (m := 1) (by decide) hs hx) .nil)
  have := ((C108_shown (E := E0) (fl := ⟨fun _ => [], fun _ _ => []⟩) (F := fun _ => 0) (cpp := cpp89) (x := [97]) (bs := ascii "hi") (m0 := 1)
    rfl (stOf_WF _ _ _) fresh101 hcap (strLine108 (okW_text h0.1.1.1.1)) (chTyped1 (okW_text h1) (by decide +kernel) .assign .nil)
    (.cons (.assign (m := 1) (by decide) hs rfl) .nil)).2 _ _ _ h2).2
  obtain ⟨outs1, m1, π1, e1, e2, e3, -⟩ := this
  cases e1
  cases e3 with
  | cons a b =>
    cases h3 with
    | cons c d =>
      cases a with
      | assign _ _ i3 =>
        have i3' := i3
        cases i3
        generalize ho : ascii "\"" ++ _ ++ ascii "\"" ++ [10] = out at c
        cases c with
        | @assign _ _ _ _ o j1 _ j3 =>
          rcases j3 with ⟨k, _⟩ | ⟨_, u, k1, k2⟩
          · exact absurd k j1
          · rcases k1 with ⟨k, _⟩ | ⟨_, ds, -, k1⟩
            · exact absurd k j1
            · rw [k2, k1] at ho
              have hq : ascii "\"" = [34] := by decide +kernel
              have hz : ascii "0x" = [48, 120] := by decide +kernel
              rw [hq, hz] at ho
              simp at ho

end Bic.Repl
