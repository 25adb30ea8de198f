import Verif.Proofs.Library
import Verif.Props.Startup
/-!
# C104: lines that call library functions
-/

namespace Bic.Repl
open Spec CSyn
open Lexer (Follows)
open _root_.Bic.Parser (PT T K nameStr)
open Printer (Floats)
open CText (Text ascii)

/-- the lines typed for these inputs, as in C89 -/
inductive LTyped (Tx : List T → Str → Prop) (TN : List T → PT → List T → Prop) (cpp : Str → Str) : List Str → List LInput → Prop
  | nil : LTyped Tx TN cpp [] []
  | cons {line text i0 i p0 p ls ps} : Tx i0 line → WLInput cTable TN p0 i0 → LastLine (cpp line) text → Tx i text → WLInput cTable TN p i →
      LTyped Tx TN cpp ls ps → LTyped Tx TN cpp (line :: ls) (p :: ps)

/-- C104: A function of the library can be called as soon as a line has declared it.  The arguments are converted to
the types of the parameters, the functions are called in the order of the lines and nothing else is called; bic shows
what the function returned, and nothing but a newline for the declaration.  The variables keep their values. -/
def C104_statement : Prop :=
  ∀ (E : Env) (fl : Floats) (F : Str → Nat) (cpp : List String → Str → Str) (r : RSt) (TN : List T → PT → List T → Prop)
    (Λ : String → Option LibFn) (fr fr' : Frame) (Δ' : List String) (ls outs : List Str) (ps : List LInput) (calls : List (String × List Int)) (n : Nat),
    r.lx.mode = .initial → Good r.st [fr] n → Sane r.st → r.st.closures = [] → Provides E Λ →
    LTyped (CText.CText r.ty) TN (cpp r.st.includes) ls ps → LDialogue cRules cShows cCalling Λ fr [] ps outs fr' Δ' calls n →
    ∃ r' evs, Session E fl F cpp r ls outs none r' ∧ Rel r'.st [fr'] ∧ r'.st.events = r.st.events ++ evs ∧ List.Forall₂ (CallOf E Λ) evs calls

theorem forall₂_append {R : α → β → Prop} {as as' bs bs'} (h : List.Forall₂ R as bs) (h' : List.Forall₂ R as' bs') :
    List.Forall₂ R (as ++ as') (bs ++ bs') := by
  induction h with
  | nil => exact h'
  | cons a _ ih => exact .cons a ih

theorem lib_session {E : Env} {fl : Floats} {F : Str → Nat} {cpp : List String → Str → Str} {r : RSt} {TN : List T → PT → List T → Prop}
    {Λ : String → Option LibFn} {fr fr' : Frame} {Δ Δ' : List String} {ls outs : List Str} {ps : List LInput} {calls} {n : Nat}
    (hm : r.lx.mode = .initial) (g : Good r.st [fr] n) (f : LibAt Λ Δ r.st) (hs : Provides E Λ)
    (ht : LTyped (Text (Lexer.Reads r.ty) Follows) TN (cpp r.st.includes) ls ps) (h : LDialogue okRules bicShows bicCalling Λ fr Δ ps outs fr' Δ' calls n) :
    (∃ r', Session E fl F cpp r ls outs none r') ∧
    ∀ outs' w r', Session E fl F cpp r ls outs' w r' → outs' = outs ∧ w = none ∧ Rel r'.st [fr'] ∧
      ∃ evs, r'.st.events = r.st.events ++ evs ∧ List.Forall₂ (CallOf E Λ) evs calls := by
  induction h generalizing r ls with
  | nil =>
    cases ht
    refine ⟨⟨r, .nil⟩, ?_⟩
    intro os w r' hs
    cases hs
    exact ⟨rfl, rfl, g.rel, [], by simp, .nil⟩
  | @cons fr Δ p out fr1 Δ1 as n ps outs fr2 Δ2 bs m h1 h2 ih =>
    cases ht with
    | cons t1 t2 t3 t4 t5 t6 =>
      obtain ⟨q0, d0, n0, c0, -⟩ := linput_der t2
      obtain ⟨q, d, nn, -, b⟩ := linput_der t5
      obtain ⟨⟨r1, l1⟩, l2⟩ := line_shows (E := E) (fl := fl) (F := F) (cpp := cpp) (out := out)
        (P := fun s' => Good s' [fr1] m ∧ LibAt Λ Δ1 s' ∧ s'.includes = r.st.includes ∧
          ∃ evs, s'.events = r.st.events ++ evs ∧ List.Forall₂ (CallOf E Λ) evs as) g.wf hm t1 d0 n0 c0 t3 t4 d nn
        fun s y e hy => by
          obtain ⟨s', evs, a1, a2, a3, a4, a5, a6⟩ := linput_conv (E := E) fl (m := m) hs (g.ext e)
            (f.step (fun sa => ⟨sa.ext e, by rw [e.ctxs]; exact .refl _⟩) e.nodes e.closures) (b hy) h1
          exact ⟨s', a1, a2, a3, by rw [a4, e.includes], evs, by rw [a5, e.events], a6⟩
      have step : ∀ r1 : RSt, r1.lx.mode = .initial ∧ r1.ty = r.ty ∧ Good r1.st [fr1] m ∧ LibAt Λ Δ1 r1.st ∧ r1.st.includes = r.st.includes ∧
          (∃ evs, r1.st.events = r.st.events ++ evs ∧ List.Forall₂ (CallOf E Λ) evs as) → _ :=
        fun r1 h => ih (r := r1) (ls := _) h.1 h.2.2.1 h.2.2.2.1 (by rw [h.2.1, h.2.2.2.2.1]; exact t6)
      constructor
      · obtain ⟨⟨r', i1⟩, -⟩ := step r1 (l2 _ _ l1).2
        exact ⟨r', .cons l1 i1⟩
      · intro os w r' hs
        cases hs with
        | cons j1 j2 =>
          obtain ⟨e, j3⟩ := l2 _ _ j1
          cases e
          obtain ⟨e1, e2, e3, evs, e4, e5⟩ := (step _ j3).2 _ _ _ j2
          obtain ⟨evs0, e6, e7⟩ := j3.2.2.2.2.2
          exact ⟨by rw [e1], e2, e3, evs0 ++ evs, by rw [e4, e6, List.append_assoc], forall₂_append e7 e5⟩
        | ends j1 => exact absurd (l2 _ _ j1).1 nofun

/-- What bic shows: the value of an argument that is computed is passed as an `int`, and what is shown for an assignment
is the value before its conversion.  No other session is possible. -/
theorem C104_shown {E : Env} {fl : Floats} {F : Str → Nat} {cpp : List String → Str → Str} {r : RSt} {TN : List T → PT → List T → Prop}
    {Λ : String → Option LibFn} {fr fr' : Frame} {Δ' : List String} {ls outs : List Str} {ps : List LInput} {calls} {n : Nat}
    (hm : r.lx.mode = .initial) (g : Good r.st [fr] n) (sa : Sane r.st) (hc : r.st.closures = []) (hs : Provides E Λ)
    (ht : LTyped (Text (Lexer.Reads r.ty) Follows) TN (cpp r.st.includes) ls ps) (h : LDialogue okRules bicShows bicCalling Λ fr [] ps outs fr' Δ' calls n) :
    (∃ r', Session E fl F cpp r ls outs none r') ∧
    ∀ outs' w r', Session E fl F cpp r ls outs' w r' → outs' = outs ∧ w = none ∧ Rel r'.st [fr'] ∧
      ∃ evs, r'.st.events = r.st.events ++ evs ∧ List.Forall₂ (CallOf E Λ) evs calls := by
  obtain ⟨c, l, e⟩ := List.exists_cons_of_ne_nil g.room.ctxs
  exact lib_session hm g ⟨sa, hc, c, by rw [e]; rfl, fun f hf => by cases hf⟩ hs ht h

theorem LDialogue.ok {E : Env} {Λ : String → Option LibFn} (hs : Provides E Λ) {fr Δ ps outs fr' Δ' calls n}
    (h : LDialogue okRules okShows okCalling Λ fr Δ ps outs fr' Δ' calls n) : LDialogue okRules bicShows bicCalling Λ fr Δ ps outs fr' Δ' calls n := by
  induction h with
  | nil => exact .nil
  | cons a _ ih =>
    refine .cons ?_ ih
    cases a with
    | plain a => exact .plain (Reply.mono (S := okShows) (S' := bicShows) (fun _ _ _ h => h.1.trans h.2.symm) (fun _ h => h) a)
    | proto a b => exact .proto a b
    | again a b => exact .again a b
    | @call f q es ws v z a b c d e g =>
      obtain ⟨_, _, _, hi, _⟩ := hs f q b
      refine .call a b c ?_ e g
      clear c e b g
      generalize q.params = cs at d hi
      induction d with
      | nil => exact .nil
      | cons d1 d2 _ ih =>
        exact .cons d1 (okCalling_bic (hi _ List.mem_cons_self) d2) (ih fun c hc => hi c (List.mem_cons_of_mem _ hc))

/-- C104 for the texts of `C81_tokens_partial`, the operations of `C34_programs_partial`, at most 32 arguments, and
arguments that are variables or have values that fit into an `int` (into a `long`, if the parameter has at most 32
bits).  No other session is possible.  Missing: other arguments, and assignments of values that do not fit. -/
theorem C104_library_partial {E : Env} {fl : Floats} {F : Str → Nat} {cpp : List String → Str → Str} {r : RSt} {TN : List T → PT → List T → Prop}
    {Λ : String → Option LibFn} {fr fr' : Frame} {Δ' : List String} {ls outs : List Str} {ps : List LInput} {calls} {n : Nat}
    (hm : r.lx.mode = .initial) (g : Good r.st [fr] n) (sa : Sane r.st) (hc : r.st.closures = []) (hs : Provides E Λ)
    (ht : LTyped (Text (Lexer.Reads r.ty) Follows) TN (cpp r.st.includes) ls ps) (h : LDialogue okRules okShows okCalling Λ fr [] ps outs fr' Δ' calls n) :
    (∃ r', Session E fl F cpp r ls outs none r') ∧
    ∀ outs' w r', Session E fl F cpp r ls outs' w r' → outs' = outs ∧ w = none ∧ Rel r'.st [fr'] ∧
      ∃ evs, r'.st.events = r.st.events ++ evs ∧ List.Forall₂ (CallOf E Λ) evs calls :=
  C104_shown hm g sa hc hs ht (LDialogue.ok hs h)

/-! ### Examples: `int abs(int);`, `int y=7;`, `abs(3-y);`; `long labs(long);`, `labs(3000000000);` -/

/-- the bytes of `v` -/
def le : Nat → Nat → List Bic.Byte
  | 0, _ => []
  | n + 1, v => ⟨v % 256, by omega⟩ :: le n (v / 256)

theorem le_length (n v : Nat) : (le n v).length = n := by
  induction n generalizing v with
  | zero => rfl
  | succ n ih => simp [le, ih]

theorem le_value (n v : Nat) (h : v < 256 ^ n) : leValue (le n v) = v := by
  induction n generalizing v with
  | zero => simp at h; subst h; rfl
  | succ n ih =>
    rw [Nat.pow_succ] at h
    simp only [le, leValue]
    rw [ih _ (by omega)]
    omega

/-- the absolute value of a number of type `c` -/
def absFn (c : CT) : LibFn := ⟨c, [c], fun | [w] => if InRange c (-w) then some w.natAbs else none | _ => none⟩

def lib104 : String → Option LibFn := fun f => if f = "abs" then some (absFn .int) else if f = "labs" then some (absFn .long) else none

/-- a library with `abs` and `labs` -/
def E104 : Env :=
  { E0 with
    dlsym := fun f => if f = "abs" then some 100 else if f = "labs" then some 200 else none
    extCall := fun fa fs m => (m, match fs with
      | [.int _ reg] => if fa = 100 then le 4 (CT.int.decode (CT.int.encode reg)).natAbs else le 8 (CT.long.decode (CT.long.encode reg)).natAbs
      | _ => []) }

theorem abs_provided {c : CT} {f : String} {fa : Nat} (hc : c = .int ∨ c = .long) (hd : E104.dlsym f = some fa)
    (hx : ∀ c' reg m, (E104.extCall fa [.int c' reg] m).2 = le c.size (c.decode (c.encode reg)).natAbs) : Provided E104 f (absFn c) fa := by
  have hi : integral c := by rcases hc with rfl | rfl <;> decide
  refine ⟨hd, hi, by simpa [absFn] using hi, ?_⟩
  intro fs ws v m hl hf hv
  obtain ⟨a, rfl⟩ : ∃ a, fs = [a] := by
    match fs, hl with
    | [a], _ => exact ⟨a, rfl⟩
  cases hf with
  | @cons _ w _ _ h1 h2 =>
    cases h2
    obtain ⟨c', reg, rfl, h3⟩ := h1
    have h3 : Converts c reg w := h3
    obtain rfl := Converts.unique (.inl hi) h3 (CT.decode_encode_converts (.inl hi) (reg : Int))
    generalize hw : c.decode (c.encode reg) = w at *
    have h4 : (if InRange c (-w) then some (w.natAbs : Int) else none) = some v := hv
    split at h4
    · cases h4
      rename_i h5
      refine ⟨rfl, by rw [hx, le_length]; rcases hc with rfl | rfl <;> decide, ?_⟩
      rw [hx, hw]
      show Represents c ((le c.size _).take c.size) _
      rw [List.take_of_length_le (by rw [le_length])]
      have h6 := h3.1
      have hb : (w.natAbs : Int) < Spec.hi c ∧ w.natAbs < 256 ^ c.size := by
        rcases hc with rfl | rfl <;> simp [InRange, lo, Spec.hi, signed, width, CT.size] at h5 h6 ⊢ <;> omega
      refine ⟨by rw [le_length]; exact width_size (.inl hi), ?_⟩
      rw [le_value _ _ hb.2]
      exact Converts.self ⟨by rcases hc with rfl | rfl <;> simp [lo, signed, width], hb.1⟩
    · cases h4

theorem provides104 : Provides E104 lib104 := by
  intro f q h
  simp only [lib104] at h
  split at h
  · cases h
    rename_i e
    subst e
    exact ⟨100, abs_provided (.inl rfl) rfl fun _ _ _ => rfl⟩
  · split at h
    · cases h
      rename_i e
      subst e
      exact ⟨200, abs_provided (.inr rfl) rfl fun _ _ _ => rfl⟩
    · cases h

open TextCheck

theorem name_word {w : Str} {c : UInt8} {u : Str} (e : w = c :: u) (hc : CText.isLetter c = true) (h95 : c ≠ 95) (hu : ∀ x ∈ u, CText.isWord x = true)
    (hk : w ∉ CText.keywords.map ascii) : CText.IsName w := by
  subst e
  refine ⟨⟨c, u, rfl, hc, hu⟩, hk, ?_, ?_⟩
  · intro v hv
    exact h95 (List.cons.inj hv).1
  · intro d v hv
    exact absurd (List.cons.inj hv).1 h95

theorem name_abs : CText.IsName (ascii "abs") := name_word (c := 97) (u := [98, 115]) (by decide +kernel) (by decide) (by decide) (by decide) (by decide +kernel)
theorem name_labs : CText.IsName (ascii "labs") := name_word (c := 108) (u := [97, 98, 115]) (by decide +kernel) (by decide) (by decide) (by decide) (by decide +kernel)

def proto104 : W89 := [kw .int "int", sp, idn (ascii "abs") name_abs, kw .lparen "(", kw .int "int", kw .rparen ")", kw .semi ";"]
def call104 : W89 := [idn (ascii "abs") name_abs, kw .lparen "(", num [51], kw .minus "-", idn [121] name_y, kw .rparen ")", kw .semi ";"]
def labs104 : W89 := [kw .long "long", sp, idn (ascii "labs") name_labs, kw .lparen "(", kw .long "long", kw .rparen ")", kw .semi ";"]
def big104 : W89 := [idn (ascii "labs") name_labs, kw .lparen "(", num (ascii "3000000000"), kw .rparen ")", kw .semi ";"]

theorem ok104 : (okW proto104 && okW call104 && okW labs104 && okW big104) = true := by decide +kernel

theorem lines104_eq : [proto104, decl89, call104, labs104, big104].map textW =
    ["int abs(int);", "int y=7;", "abs(3-y);", "long labs(long);", "labs(3000000000);"].map ascii := by decide +kernel

theorem ltyped1 {Tx : List T → Str → Prop} {l : W89} {p : LInput} {ls ps} (h : Tx (toksW l) (textW l)) (hn : newline ∉ textW l)
    (hw : WLInput cTable noTN p (toksW l)) (ht : LTyped Tx noTN (cpp89 []) ls ps) :
    LTyped Tx noTN (cpp89 []) (textW l :: ls) (p :: ps) :=
  .cons h hw (lastLine89 hn) h hw ht

theorem wproto104 : WLInput cTable noTN (.proto "abs" .int [.int]) (toksW proto104) :=
  .proto (s := ascii "abs") (ws := [.int]) (.one rfl) ⟨[.int], by decide, by decide⟩ (.one (.bare (ws := [.int]) (.one rfl) ⟨[.int], by decide, by decide⟩))

theorem wlabs104 : WLInput cTable noTN (.proto "labs" .long [.long]) (toksW labs104) :=
  .proto (s := ascii "labs") (ws := [.long]) (.one rfl) ⟨[.long], by decide, by decide⟩ (.one (.bare (ws := [.long]) (.one rfl) ⟨[.long], by decide, by decide⟩))

theorem wcall104 : WLInput cTable noTN (.call "abs" [.bin .sub (.lit 3) (.var "y")]) (toksW call104) :=
  .call (s := ascii "abs") (.one ⟨.bin .sub (.int 3) (.ident [121]), .bin (o := .sub) (by decide) .int .ident, .bin (bo := .sub) rfl .int .ident⟩)

theorem wbig104 : WLInput cTable noTN (.call "labs" [.lit 3000000000]) (toksW big104) :=
  .call (s := ascii "labs") (.one ⟨.int 3000000000, .int, .int⟩)

theorem dialogue104 : LDialogue okRules okShows okCalling lib104 [("x", some ⟨.int, some 0⟩)] []
    [.proto "abs" .int [.int], .plain (.decl .int [("y", some (.lit 7))]), .call "abs" [.bin .sub (.lit 3) (.var "y")]]
    [[10], ascii "y" ++ [10], ascii "4" ++ [10]] [("x", some ⟨.int, some 0⟩), ("abs", none), ("y", some ⟨.int, some 7⟩)] ["abs"] ([] ++ ([] ++ ([("abs", [-4])] ++ [])))
    (0 + (1 + (1 + 0))) := by
  refine .cons (.proto (q := absFn .int) rfl rfl) (.cons (.plain (decl103 rfl (fun _ => .inl ⟨rfl, .inl (by decide)⟩) rfl rfl)) (.cons ?_ .nil))
  refine .call (q := absFn .int) (ws := [-4]) (v := 4) (by simp) rfl (by simp [okCalling]) ?_ (by decide) ?_
  · refine .cons (v := -4) (.bin (.lit 3) (.var ⟨.int, rfl, show InRange .long _ by decide⟩) ⟨by simp [cOp], trivial⟩) ⟨conv_self (by decide), .inl ⟨rfl, .inl (by decide)⟩⟩ .nil
  · exact ⟨_, by unfold CText.Digits; decide +kernel, .inr (by decide +kernel), .inl ⟨rfl, by decide +kernel⟩⟩

/-- `abs(3-y)` shows 4, after a call of `abs` with -4 -/
example (fl : Floats) (F : Str → Nat) :
    (∃ r', Session E104 fl F cpp89 r89 (["int abs(int);", "int y=7;", "abs(3-y);"].map ascii) (["\n", "y\n", "4\n"].map ascii) none r') ∧
    ∀ outs' w r', Session E104 fl F cpp89 r89 (["int abs(int);", "int y=7;", "abs(3-y);"].map ascii) outs' w r' →
      outs' = ["\n", "y\n", "4\n"].map ascii ∧ w = none ∧ Rel r'.st [[("x", some ⟨.int, some 0⟩), ("abs", none), ("y", some ⟨.int, some 7⟩)]] ∧
      ∃ evs, r'.st.events = r89.st.events ++ evs ∧ List.Forall₂ (CallOf E104 lib104) evs [("abs", [-4])] := by
  have h := ok104
  simp only [Bool.and_eq_true] at h
  obtain ⟨⟨⟨h0, h1⟩, _⟩, _⟩ := h
  have h2 := ok103
  simp only [Bool.and_eq_true] at h2
  have e1 : ["int abs(int);", "int y=7;", "abs(3-y);"].map ascii = [textW proto104, textW decl89, textW call104] := by decide +kernel
  have e2 : ["\n", "y\n", "4\n"].map ascii = [[10], ascii "y" ++ [10], ascii "4" ++ [10]] := by decide +kernel
  rw [e1, e2]
  exact C104_library_partial rfl (good89 2 (by omega)) (stOf_Sane _ _ _) rfl provides104
    (ltyped1 (okW_text h0) (by decide +kernel) wproto104
    (ltyped1 (okW_text h2.1.2) (by decide +kernel) (.plain (.decl (ws := [.int]) (.one rfl) ⟨[.int], by decide, by decide⟩
      (.one (.init (s := [121]) ⟨.int 7, .int, .int⟩))))
    (ltyped1 (okW_text h1) (by decide +kernel) wcall104 .nil)))
    dialogue104

/-- C104 is false: for `labs(3000000000)` bic calls `labs` with -1294967296 and shows 1294967296. -/
theorem C104_refuted : ¬ C104_statement := by
  intro h
  have hok := ok104
  simp only [Bool.and_eq_true] at hok
  obtain ⟨⟨_, h1⟩, h2⟩ := hok
  obtain ⟨r', evs, h3, _⟩ := h E104 ⟨fun _ => [], fun _ _ => []⟩ (fun _ => 0) cpp89 r89 noTN lib104 [("x", some ⟨.int, some 0⟩)]
    [("x", some ⟨.int, some 0⟩), ("labs", none)] ["labs"] [textW labs104, textW big104] [[10], ascii "3000000000" ++ [10]]
    [.proto "labs" .long [.long], .call "labs" [.lit 3000000000]] ([] ++ ([("labs", [3000000000])] ++ [])) (0 + (1 + 0))
    rfl (good89 1 (by omega)) (stOf_Sane _ _ _) rfl provides104
    (ltyped1 (okW_ctext h1) (by decide +kernel) wlabs104 (ltyped1 (okW_ctext h2) (by decide +kernel) wbig104 .nil))
    (.cons (.proto (q := absFn .long) rfl rfl) (.cons (.call (q := absFn .long) (ws := [3000000000]) (v := 3000000000) (by simp) rfl trivial
      (.cons (v := 3000000000) (.lit _) (conv_self (by decide)) .nil) (by decide) decimalBig) .nil))
  have := ((C104_shown (E := E104) (fl := ⟨fun _ => [], fun _ _ => []⟩) (F := fun _ => 0) (cpp := cpp89) (r := r89) (Λ := lib104) (fr := [("x", some ⟨.int, some 0⟩)])
    rfl (good89 1 (by omega)) (stOf_Sane _ _ _) rfl provides104
    (ltyped1 (okW_text h1) (by decide +kernel) wlabs104 (ltyped1 (okW_text h2) (by decide +kernel) wbig104 .nil))
    (.cons (P := bicCalling) (.proto (q := absFn .long) rfl rfl) (.cons (P := bicCalling) (.call (P := bicCalling) (q := absFn .long) (ws := [-1294967296]) (v := 1294967296) (z := ascii "1294967296") (by simp) rfl
      (show ([.lit 3000000000] : List Spec.Expr).length ≤ 32 by decide) (.cons (v := 3000000000) (.lit _) (Or.inl ⟨rfl, by decide, -1294967296, ⟨by decide, 1, by decide⟩, conv_self (by decide)⟩) .nil)
      (by decide) ⟨_, by unfold CText.Digits; decide +kernel, .inr (by decide +kernel), .inl ⟨rfl, by decide +kernel⟩⟩) .nil))).2 _ _ _ h3).1
  exact absurd this (by decide +kernel)

end Bic.Repl
