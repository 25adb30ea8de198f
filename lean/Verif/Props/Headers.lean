import Verif.Proofs.Include
import Verif.Props.Library
/-!
# C105, C106: `#include` lines
-/

namespace Bic.Repl
open Spec CSyn
open Lexer (Follows)
open _root_.Bic.Parser (PT T K nameStr)
open Printer (Floats)
open CText (Text HText Marker IncLine ascii)

/-- the lines typed for these inputs after the `#include` lines `hs`; what the preprocessor makes of the headers is `hdr` -/
inductive HTyped (Tx HT : List T → Str → Prop) (IL : Str → Prop) (TN : List T → PT → List T → Prop) (cpp : List String → Str → Str)
    (hdr : List String → Option Str) (D : List String → List HItem) : List String → List Str → List HInput → Prop
  | nil {hs} : HTyped Tx HT IL TN cpp hdr D hs [] []
  | inc {hs line text i ls ps} : IL line → hdr (hs ++ [nameStr line]) = some text → HT i text → WItems (D (hs ++ [nameStr line])) i →
      HTyped Tx HT IL TN cpp hdr D (hs ++ [nameStr line]) ls ps → HTyped Tx HT IL TN cpp hdr D hs (line :: ls) (.inc (nameStr line) :: ps)
  | other {hs line text i0 i p0 p ls ps} : Tx i0 line → WHInput cTable TN p0 i0 → LastLine (cpp hs line) text → Tx i text → WHInput cTable TN p i →
      HTyped Tx HT IL TN cpp hdr D hs ls ps → HTyped Tx HT IL TN cpp hdr D hs (line :: ls) (p :: ps)

/-- the texts of C105 and C106 -/
abbrev CHTyped (ty : Str → Bool) := HTyped (CText.CText ty) (CText.CHText ty) (IncLine CText.headerByte)

/-- the texts the theorems are about -/
abbrev RHTyped (ty : Str → Bool) :=
  HTyped (Text (Lexer.Reads ty) Follows) (HText (Lexer.Reads ty) Follows (Marker fun c => Lexer.markByte c = true)) (IncLine fun c => Lexer.incByte c = true)

/-- C105: After an `#include` line the variables and functions of the header can be used: the variables have the values
the header gives them until a line assigns others, the functions are called with the values of the arguments.  The line shows
nothing, and another `#include` only adds what the header before did not declare. -/
def C105_statement : Prop :=
  ∀ (E : Env) (fl : Floats) (F : Str → Nat) (cpp : List String → Str → Str) (hdr : List String → Option Str) (D : List String → List HItem) (r : RSt)
    (TN : List T → PT → List T → Prop) (Λ : String → Option LibFn) (B : Store) (fr fr' : Frame) (H' : Store) (ls outs : List Str) (ps : List HInput)
    (calls : List (String × List Int)) (n : Nat),
    r.lx.mode = .initial → Good r.st (fr :: (B ++ [])) n → Sane r.st → r.st.closures = [] → r.st.ctxs.length = 1 + B.length → r.st.includeCtx = none →
    r.st.includes = [] → D [] = [] → Provides E Λ →
    CHTyped r.ty TN cpp hdr D [] ls ps → HDialogue cRules cShows cCalling (cIncluding cRules) Λ D B fr [] [] [] ps outs fr' H' calls n →
    ∃ r' evs, SessionI E fl F cpp hdr r ls outs none r' ∧ Rel r'.st (fr' :: (B ++ H')) ∧ r'.st.events = r.st.events ++ evs ∧
      List.Forall₂ (CallOf E Λ) evs calls

theorem header_session {E : Env} {fl : Floats} {F : Str → Nat} {cpp : List String → Str → Str} {hdr : List String → Option Str} {D : List String → List HItem}
    {r : RSt} {TN : List T → PT → List T → Prop} {Λ : String → Option LibFn} {B H H' : Store} {fr fr' : Frame} {Δ hs : List String} {ls outs : List Str}
    {ps : List HInput} {calls} {n : Nat} (hm : r.lx.mode = .initial) (g : Good r.st (fr :: (B ++ H)) n) (f : HdrAt Λ Δ B H r.st) (hi : r.st.includes = hs)
    (hp : Provides E Λ) (ht : RHTyped r.ty TN cpp hdr D hs ls ps)
    (h : HDialogue okRules bicShows bicCalling bicIncluding Λ D B fr H Δ hs ps outs fr' H' calls n) :
    (∃ r', SessionI E fl F cpp hdr r ls outs none r') ∧
    ∀ outs' w r', SessionI E fl F cpp hdr r ls outs' w r' → outs' = outs ∧ w = none ∧ Rel r'.st (fr' :: (B ++ H')) ∧
      ∃ evs, r'.st.events = r.st.events ++ evs ∧ List.Forall₂ (CallOf E Λ) evs calls := by
  induction h generalizing r ls with
  | nil =>
    cases ht
    refine ⟨⟨r, .nil⟩, ?_⟩
    intro os w r' hs
    cases hs
    exact ⟨rfl, rfl, g.rel, [], by simp, .nil⟩
  | @cons fr H Δ hs p out fr1 H1 Δ1 hs1 as n ps outs fr2 H2 bs m h1 h2 ih =>
    have fin : ∀ {line ls'}, ls = line :: ls' → RHTyped r.ty TN cpp hdr D hs1 ls' ps →
        (∃ r', LineI E fl F cpp hdr r line (.shows out) r') →
        (∀ a r', LineI E fl F cpp hdr r line a r' → a = .shows out ∧ r'.lx.mode = .initial ∧ r'.ty = r.ty ∧ Good r'.st (fr1 :: (B ++ H1)) m ∧
          HdrAt Λ Δ1 B H1 r'.st ∧ r'.st.includes = hs1 ∧ ∃ evs, r'.st.events = r.st.events ++ evs ∧ List.Forall₂ (CallOf E Λ) evs as) →
        (∃ r', SessionI E fl F cpp hdr r ls (out :: outs) none r') ∧
        ∀ outs' w r', SessionI E fl F cpp hdr r ls outs' w r' → outs' = out :: outs ∧ w = none ∧ Rel r'.st (fr2 :: (B ++ H2)) ∧
          ∃ evs, r'.st.events = r.st.events ++ evs ∧ List.Forall₂ (CallOf E Λ) evs (as ++ bs) := by
      rintro line ls' rfl t6 ⟨r1, l1⟩ l2
      have step := fun (r1 : RSt) (h : r1.lx.mode = .initial ∧ r1.ty = r.ty ∧ Good r1.st (fr1 :: (B ++ H1)) m ∧
          HdrAt Λ Δ1 B H1 r1.st ∧ r1.st.includes = hs1 ∧ ∃ evs, r1.st.events = r.st.events ++ evs ∧ List.Forall₂ (CallOf E Λ) evs as) =>
        ih (r := r1) (ls := ls') h.1 h.2.2.1 h.2.2.2.1 h.2.2.2.2.1 (by rw [h.2.1]; exact t6)
      constructor
      · obtain ⟨⟨r', i1⟩, -⟩ := step r1 (l2 _ _ l1).2
        exact ⟨r', .cons l1 i1⟩
      · intro os w r' hs
        cases hs with
        | cons j1 j2 =>
          obtain ⟨e, j3⟩ := l2 _ _ j1
          cases e
          obtain ⟨e1, e2, e3, evs, e4, e5⟩ := (step _ j3).2 _ _ _ j2
          obtain ⟨evs0, e6, e7⟩ := j3.2.2.2.2.2
          exact ⟨by rw [e1], e2, e3, evs0 ++ evs, by rw [e4, e6, List.append_assoc], forall₂_append e7 e5⟩
        | ends j1 => exact absurd (l2 _ _ j1).1 nofun
    subst hi
    cases ht with
    | inc t1 t2 t3 t4 t5 =>
      cases h1 with
      | inc h1 _ =>
        obtain ⟨l1, l2⟩ := include_shows (E := E) (fl := fl) (F := F) (cpp := cpp) (hdr := hdr) (m := m) hm t1 t2 t3 t4 h1.1 h1.2 g f
        refine fin rfl t5 l1 fun a r' h => ?_
        obtain ⟨a1, a2, a3, a4, a5, a6, a7⟩ := l2 a r' h
        exact ⟨a1, a2, a3, a4, a5, a6, [], by simp [a7], .nil⟩
    | other t1 t2 t3 t4 t5 t6 =>
      obtain ⟨q0, d0, n0, c0, -⟩ := hinput_der t2
      obtain ⟨q, d, nn, c1, b⟩ := hinput_der t5
      have hh : hs1 = r.st.includes := by
        cases h1 with
        | plain | call => rfl
        | inc => cases t5
      obtain ⟨l1, l2⟩ := lineI_shows (E := E) (fl := fl) (F := F) (cpp := cpp) (hdr := hdr) (out := out)
        (P := fun s' => Good s' (fr1 :: (B ++ H1)) m ∧ HdrAt Λ Δ1 B H1 s' ∧ s'.includes = hs1 ∧
          ∃ evs, s'.events = r.st.events ++ evs ∧ List.Forall₂ (CallOf E Λ) evs as) g.wf hm t1 d0 n0 c0 t3 t4 d nn c1
        fun s y e hy => by
          obtain ⟨s', evs, a1, a2, a3, a4, a5, a6, a7⟩ := hinput_conv (E := E) fl (m := m) hp (g.ext e)
            (f.step (f.sane.ext e) e.nodes e.closures (by rw [e.ctxs]) e.includeCtx rfl) (b hy) h1
          exact ⟨s', a1, a2, a3, by rw [a5, e.includes, hh], evs, by rw [a6, e.events], a7⟩
      exact fin rfl (by rw [hh]; exact t6) l1 l2

/-- What bic does: as for C104, and every `#include` evaluates the declarations of all headers so far once more, so that the variables
get back the values the headers give them.  There must be a declaration.  No other session is possible. -/
theorem C105_shown {E : Env} {fl : Floats} {F : Str → Nat} {cpp : List String → Str → Str} {hdr : List String → Option Str} {D : List String → List HItem}
    {r : RSt} {TN : List T → PT → List T → Prop} {Λ : String → Option LibFn} {B H' : Store} {fr fr' : Frame} {ls outs : List Str}
    {ps : List HInput} {calls} {n : Nat} (hm : r.lx.mode = .initial) (g : Good r.st (fr :: (B ++ [])) n) (sa : Sane r.st) (hc : r.st.closures = [])
    (hd : r.st.ctxs.length = 1 + B.length) (hn : r.st.includeCtx = none) (hi : r.st.includes = [])
    (hp : Provides E Λ) (ht : RHTyped r.ty TN cpp hdr D [] ls ps)
    (h : HDialogue okRules bicShows bicCalling bicIncluding Λ D B fr [] [] [] ps outs fr' H' calls n) :
    (∃ r', SessionI E fl F cpp hdr r ls outs none r') ∧
    ∀ outs' w r', SessionI E fl F cpp hdr r ls outs' w r' → outs' = outs ∧ w = none ∧ Rel r'.st (fr' :: (B ++ H')) ∧
      ∃ evs, r'.st.events = r.st.events ++ evs ∧ List.Forall₂ (CallOf E Λ) evs calls :=
  header_session hm g ⟨sa, hc, hd, by rw [hn]; rfl, fun _ hf => absurd hf (List.not_mem_nil)⟩ hi hp ht h

/-- the `#include` lines bic gets right: the new header makes declarations, and starting again from the beginning gives
the values that the variables of the headers have anyway -/
def okIncluding : Including where
  inc Λ D hs h H Δ hf Δ' := (cIncluding okRules).inc Λ D hs h H Δ hf Δ' ∧ bicIncluding.inc Λ D hs h H Δ hf Δ'
  clean := (cIncluding okRules).clean

theorem Args.ok {σ : Store} {cs es ws} (h : Args okRules okCalling σ cs es ws) (hi : ∀ c ∈ cs, integral c) : Args okRules bicCalling σ cs es ws := by
  induction h with
  | nil => exact .nil
  | cons d1 d2 _ ih => exact .cons d1 (okCalling_bic (hi _ List.mem_cons_self) d2) (ih fun c hc => hi c (List.mem_cons_of_mem _ hc))

theorem HDialogue.ok {E : Env} {Λ : String → Option LibFn} (hs : Provides E Λ) {D B fr H Δ hss ps outs fr' H' calls n}
    (h : HDialogue okRules okShows okCalling okIncluding Λ D B fr H Δ hss ps outs fr' H' calls n) :
    HDialogue okRules bicShows bicCalling bicIncluding Λ D B fr H Δ hss ps outs fr' H' calls n := by
  induction h with
  | nil => exact .nil
  | cons a _ ih =>
    refine .cons ?_ ih
    cases a with
    | plain a _ => exact .plain (Reply.mono (S := okShows) (S' := bicShows) (fun _ _ _ h => h.1.trans h.2.symm) (fun _ h => h) a) trivial
    | inc a _ => exact .inc a.2 trivial
    | @call f q es ws v z a b c d e g k l =>
      obtain ⟨_, _, _, hi, _⟩ := hs f q d
      exact .call a b c d e (Args.ok g hi) k l

/-- C105 for the texts of `C81_tokens_partial`, names of headers of letters, digits, `_`, `.` and `/`, line markers whose
names of files have no other bytes than these, `-`, `<`, `>` and blanks, the lines of `C104_library_partial`, and `#include` lines as in `okIncluding`.
No other session is possible.  Missing: other names, headers with other declarations, and `#include` lines after which a variable of
a header gets back its first value. -/
theorem C105_headers_partial {E : Env} {fl : Floats} {F : Str → Nat} {cpp : List String → Str → Str} {hdr : List String → Option Str} {D : List String → List HItem}
    {r : RSt} {TN : List T → PT → List T → Prop} {Λ : String → Option LibFn} {B H' : Store} {fr fr' : Frame} {ls outs : List Str}
    {ps : List HInput} {calls} {n : Nat} (hm : r.lx.mode = .initial) (g : Good r.st (fr :: (B ++ [])) n) (sa : Sane r.st) (hc : r.st.closures = [])
    (hd : r.st.ctxs.length = 1 + B.length) (hn : r.st.includeCtx = none) (hi : r.st.includes = [])
    (hp : Provides E Λ) (ht : RHTyped r.ty TN cpp hdr D [] ls ps)
    (h : HDialogue okRules okShows okCalling okIncluding Λ D B fr [] [] [] ps outs fr' H' calls n) :
    (∃ r', SessionI E fl F cpp hdr r ls outs none r') ∧
    ∀ outs' w r', SessionI E fl F cpp hdr r ls outs' w r' → outs' = outs ∧ w = none ∧ Rel r'.st (fr' :: (B ++ H')) ∧
      ∃ evs, r'.st.events = r.st.events ++ evs ∧ List.Forall₂ (CallOf E Λ) evs calls :=
  C105_shown hm g sa hc hd hn hi hp ht (HDialogue.ok hp h)

/-- C106: An `#include` line does not end the session: it shows nothing, and afterwards there are the variables of the headers, if
they declare any, and those of the lines. -/
def C106_statement : Prop :=
  ∀ (E : Env) (fl : Floats) (F : Str → Nat) (cpp : List String → Str → Str) (hdr : List String → Option Str) (r : RSt)
    (Λ : String → Option LibFn) (B : Store) (fr hf : Frame) (Δ : List String) (is : List HItem) (line text : Str) (i : List T) (m : Nat),
    r.lx.mode = .initial → Good r.st (fr :: (B ++ [])) (objects is + m) → Sane r.st → r.st.closures = [] → r.st.ctxs.length = 1 + B.length →
    r.st.includeCtx = none → r.st.includes = [] →
    IncLine CText.headerByte line → hdr [nameStr line] = some text → CText.CHText r.ty i text → WItems is i → HDecl cRules Λ [] [] is hf Δ →
    ∃ r', LineI E fl F cpp hdr r line (.shows []) r' ∧ Rel r'.st (fr :: (B ++ [hf]))

/-- C106 for headers with at least one declaration, for the texts of `C105_headers_partial`.  Nothing else can happen. -/
theorem C106_include_partial {E : Env} {fl : Floats} {F : Str → Nat} {cpp : List String → Str → Str} {hdr : List String → Option Str} {r : RSt}
    {Λ : String → Option LibFn} {B : Store} {fr hf : Frame} {Δ : List String} {is : List HItem} {line text : Str} {i : List T} {m : Nat}
    (hm : r.lx.mode = .initial) (g : Good r.st (fr :: (B ++ [])) (objects is + m)) (sa : Sane r.st) (hc : r.st.closures = [])
    (hd : r.st.ctxs.length = 1 + B.length) (hn : r.st.includeCtx = none) (hi : r.st.includes = [])
    (hl : IncLine (fun c => Lexer.incByte c = true) line) (hh : hdr [nameStr line] = some text)
    (ht : HText (Lexer.Reads r.ty) Follows (Marker fun c => Lexer.markByte c = true) i text) (hw : WItems is i) (hne : is ≠ [])
    (h : HDecl okRules Λ [] [] is hf Δ) :
    (∃ r', LineI E fl F cpp hdr r line (.shows []) r') ∧
    ∀ a r', LineI E fl F cpp hdr r line a r' → a = .shows [] ∧ Rel r'.st (fr :: (B ++ [hf])) := by
  obtain ⟨l1, l2⟩ := include_shows (E := E) (fl := fl) (F := F) (cpp := cpp) (hdr := hdr) (m := m) (H := []) (Δ := []) hm hl (by rw [hi]; exact hh) ht hw hne h g
    ⟨sa, hc, hd, by rw [hn]; rfl, nofun⟩
  refine ⟨l1, fun a r' k => ?_⟩
  obtain ⟨a1, _, _, a4, _⟩ := l2 a r' k
  exact ⟨a1, a4.rel⟩

/-- An `#include` line whose headers have no declarations ends bic, whatever the session before. -/
theorem C106_no_declarations {E : Env} {fl : Floats} {F : Str → Nat} {cpp : List String → Str → Str} {hdr : List String → Option Str} {r : RSt} {line text : Str}
    (w : WF r.st) (hm : r.lx.mode = .initial) (hl : IncLine (fun c => Lexer.incByte c = true) line) (hh : hdr (r.st.includes ++ [nameStr line]) = some text)
    (ht : HText (Lexer.Reads r.ty) Follows (Marker fun c => Lexer.markByte c = true) [] text) :
    (∃ r', LineI E fl F cpp hdr r line (.ends (.die "Parsing of preprocessor output failed\n")) r') ∧
    ∀ a r', LineI E fl F cpp hdr r line a r' → a = .ends (.die "Parsing of preprocessor output failed\n") :=
  include_empty w hm hl hh ht

/-! ### Examples: `#include <a.h>` with `int y=7;int abs(int);`, `#include <b.h>` with `int n;` -/

open TextCheck

instance : DecidablePred CText.fileByte := fun c => by unfold CText.fileByte; infer_instance
instance : DecidablePred CText.headerByte := fun c => by unfold CText.headerByte; infer_instance

def line105 (c : UInt8) : Str := ascii "#include <" ++ c :: ascii ".h>"

def textA : W89 := [kw .int "int", sp, idn [121] name_y, kw .assign "=", num [55], kw .semi ";", kw .int "int", sp, idn (ascii "abs") name_abs,
  kw .lparen "(", kw .int "int", kw .rparen ")", kw .semi ";"]
def textB : W89 := [kw .int "int", sp, idn [110] name_n, kw .semi ";"]
def y105 : W89 := [idn [121] name_y, kw .semi ";"]
def set105 : W89 := [idn [121] name_y, kw .assign "=", num [53], kw .semi ";"]

def mark105 (c : UInt8) : Str := ascii "# 1 \"" ++ c :: ascii ".h\" 1"

/-- what the preprocessor makes of `<a.h>`, of both, and of `<c.h>` with nothing but macros -/
def hdr105 : List String → Option Str
  | [_] => some (mark105 97 ++ 10 :: textW textA)
  | [_, _] => some (mark105 97 ++ 10 :: (textW textA ++ 10 :: (mark105 98 ++ 10 :: textW textB)))
  | _ => none

def items105 : List String → List HItem
  | [_] => [.var .int "y" (some 7), .proto "abs" .int [.int]]
  | [_, _] => [.var .int "y" (some 7), .proto "abs" .int [.int], .var .int "n" none]
  | _ => []

theorem ok105 : (okW textA && okW textB && okW y105 && okW set105) = true := by decide +kernel

theorem inc105 {P : UInt8 → Prop} (c : UInt8) (h1 : P c) (h2 : P 46) (h3 : P 104) : IncLine P (line105 c) :=
  ⟨[32], [c, 46, 104], by simp [line105, ascii], by simp, by simp, by simp [h1, h2, h3]⟩

theorem mark105_ok {P : UInt8 → Prop} (c : UInt8) (h1 : P c) (h2 : P 46) (h3 : P 104) : Marker P (mark105 c) :=
  ⟨[49], [c, 46, 104], [32, 49], by simp [mark105, ascii], by unfold CText.Digits; decide, by simp, by simp [h1, h2, h3], .cons (by simp) .nil⟩

theorem witemsA {r : List T} {ds} (h : WItems ds r) : WItems (.var .int "y" (some 7) :: .proto "abs" .int [.int] :: ds) (toksW textA ++ r) :=
  .cons (.init (ws := [.int]) (s := [121]) (.one rfl) ⟨[.int], by decide, by decide⟩)
    (.cons (.proto (ws := [.int]) (s := ascii "abs") (.one rfl) ⟨[.int], by decide, by decide⟩ (.one (.bare (ws := [.int]) (.one rfl) ⟨[.int], by decide, by decide⟩))) h)

theorem witemB : WItems [.var .int "n" none] (toksW textB) :=
  .cons (.var (ws := [.int]) (s := [110]) (.one rfl) ⟨[.int], by decide, by decide⟩) .nil

section
variable {Tx HT : List T → Str → Prop} {IL : Str → Prop}

theorem htyped105 {l l' : W89} {p p' : HInput} (hA : IL (line105 97)) (hB : IL (line105 98)) (tA : HT (toksW textA) (mark105 97 ++ 10 :: textW textA))
    (tB : HT (toksW textA ++ toksW textB) (mark105 97 ++ 10 :: (textW textA ++ 10 :: (mark105 98 ++ 10 :: textW textB))))
    (h : Tx (toksW l) (textW l)) (hn : newline ∉ textW l) (hw : WHInput cTable noTN p (toksW l))
    (h' : Tx (toksW l') (textW l')) (hn' : newline ∉ textW l') (hw' : WHInput cTable noTN p' (toksW l')) :
    HTyped Tx HT IL noTN cpp89 hdr105 items105 [] [line105 97, textW l, line105 98, textW l'] [.inc (nameStr (line105 97)), p, .inc (nameStr (line105 98)), p'] := by
  refine .inc hA rfl tA ?_ (.other h hw (lastLine89 hn) h hw (.inc hB rfl tB (witemsA witemB) (.other h' hw' (lastLine89 hn') h' hw' .nil)))
  have := witemsA .nil
  rwa [List.append_nil] at this

end

theorem rtextA : HText (Lexer.Reads fun _ => false) Follows (Marker fun c => Lexer.markByte c = true) (toksW textA) (mark105 97 ++ 10 :: textW textA) := by
  have h := ok105
  simp only [Bool.and_eq_true] at h
  exact .marker (mark105_ok 97 (by decide) (by decide) (by decide)) (.text (okW_text h.1.1.1))

theorem rtextB : HText (Lexer.Reads fun _ => false) Follows (Marker fun c => Lexer.markByte c = true) (toksW textA ++ toksW textB)
    (mark105 97 ++ 10 :: (textW textA ++ 10 :: (mark105 98 ++ 10 :: textW textB))) := by
  have h := ok105
  simp only [Bool.and_eq_true] at h
  exact .marker (mark105_ok 97 (by decide) (by decide) (by decide)) (.after (okW_text h.1.1.1) (mark105_ok 98 (by decide) (by decide) (by decide)) (.text (okW_text h.1.1.2)))

theorem ctextA : CText.CHText (fun _ => false) (toksW textA) (mark105 97 ++ 10 :: textW textA) := by
  have h := ok105
  simp only [Bool.and_eq_true] at h
  exact .marker (mark105_ok 97 (by decide) (by decide) (by decide)) (.text (okW_ctext h.1.1.1))

theorem ctextB : CText.CHText (fun _ => false) (toksW textA ++ toksW textB)
    (mark105 97 ++ 10 :: (textW textA ++ 10 :: (mark105 98 ++ 10 :: textW textB))) := by
  have h := ok105
  simp only [Bool.and_eq_true] at h
  exact .marker (mark105_ok 97 (by decide) (by decide) (by decide)) (.after (okW_ctext h.1.1.1) (mark105_ok 98 (by decide) (by decide) (by decide)) (.text (okW_ctext h.1.1.2)))

abbrev fr105 : Frame := [("x", some ⟨.int, some 0⟩)]
abbrev hA105 (v : Int) : Frame := [("y", some ⟨.int, some v⟩), ("abs", none)]
abbrev hB105 (v : Int) : Frame := [("y", some ⟨.int, some v⟩), ("abs", none), ("n", some ⟨.int, none⟩)]

theorem hdeclA {L : Rules} (h : L.asg [] .int (.lit 7) 7) {ds hf Δ} (hd : HDecl L lib104 (hA105 7) ["abs"] ds hf Δ) :
    HDecl L lib104 [] [] (.var .int "y" (some 7) :: .proto "abs" .int [.int] :: ds) hf Δ :=
  .init (w := 7) (by decide) rfl h (conv_self (by decide)) (.proto (q := absFn .int) rfl rfl hd)

theorem hdeclB {L : Rules} {v : Int} : HDecl L lib104 (hA105 v) ["abs"] [.var .int "n" none] (hB105 v) ["abs"] :=
  .plain (by decide) rfl .nil

theorem clean105 {hf : Frame} (h : "x" ∉ hf.names) : (cIncluding okRules).clean fr105 [hf] := by
  intro x hx f hf
  simp only [Frame.names, List.map_cons, List.map_nil, List.mem_singleton] at hx hf
  subst hx hf
  exact h

theorem dialogue105 : HDialogue okRules okShows okCalling okIncluding lib104 items105 [] fr105 [] [] []
    [.inc (nameStr (line105 97)), .call "abs" [.bin .sub (.lit 3) (.var "y")], .inc (nameStr (line105 98)), .plain (.expr (.var "y"))]
    [[], ascii "4" ++ [10], [], ascii "7" ++ [10]] fr105 [hB105 7] ([] ++ ([("abs", [-4])] ++ ([] ++ ([] ++ [])))) (1 + (1 + (2 + (0 + 0)))) := by
  have ha : okRules.asg [] .int (.lit 7) 7 := .inl ⟨rfl, .inl (by decide)⟩
  refine .cons (.inc (hf := hA105 7) (Δ' := ["abs"]) ⟨⟨_, rfl, hdeclA ha .nil⟩, by simp [items105], hdeclA ha .nil⟩ (clean105 (by decide)))
    (.cons (.call (q := absFn .int) (ws := [-4]) (v := 4) (by simp) rfl (by simp) rfl (by simp [okCalling]) ?_ (by decide) ?_)
    (.cons (.inc (hf := hB105 7) (Δ' := ["abs"]) ⟨⟨_, rfl, hdeclB⟩, by simp [items105], hdeclA ha hdeclB⟩ (clean105 (by decide)))
    (.cons (.plain (.expr (.var ⟨.int, rfl, show InRange .long _ by decide⟩) ?_) (clean105 (by decide))) .nil)))
  · refine .cons (v := -4) (.bin (.lit 3) (.var ⟨.int, rfl, show InRange .long _ by decide⟩) ⟨by simp [cOp], trivial⟩) ⟨conv_self (by decide), .inl ⟨rfl, .inl (by decide)⟩⟩ .nil
  · exact ⟨_, by unfold CText.Digits; decide +kernel, .inr (by decide +kernel), .inl ⟨rfl, by decide +kernel⟩⟩
  · exact ⟨_, by unfold CText.Digits; decide +kernel, .inr (by decide +kernel), .inl ⟨rfl, by decide +kernel⟩⟩

theorem wcall105 : WHInput cTable noTN (.call "abs" [.bin .sub (.lit 3) (.var "y")]) (toksW call104) :=
  .call (s := ascii "abs") (.one ⟨.bin .sub (.int 3) (.ident [121]), .bin (o := .sub) (by decide) .int .ident, .bin (bo := .sub) rfl .int .ident⟩)

theorem wy105 : WHInput cTable noTN (.plain (.expr (.var "y"))) (toksW y105) := .plain (.expr ⟨.ident [121], .ident, .ident⟩)
theorem wset105 : WHInput cTable noTN (.plain (.set "y" (.lit 5))) (toksW set105) := .plain (.set (s := [121]) ⟨.int 5, .int, .int⟩)

theorem good105 (n : Nat) (hn : n ≤ 1000) : Good r89.st (fr105 :: ([] ++ [])) n := good89 n hn

/-- `abs(3-y)` shows 4 after the first line, and `y` shows 7 after the second `#include` -/
example (fl : Floats) (F : Str → Nat) :
    (∃ r', SessionI E104 fl F cpp89 hdr105 r89 (["#include <a.h>", "abs(3-y);", "#include <b.h>", "y;"].map ascii) (["", "4\n", "", "7\n"].map ascii) none r') ∧
    ∀ outs' w r', SessionI E104 fl F cpp89 hdr105 r89 (["#include <a.h>", "abs(3-y);", "#include <b.h>", "y;"].map ascii) outs' w r' →
      outs' = ["", "4\n", "", "7\n"].map ascii ∧ w = none ∧ Rel r'.st (fr105 :: ([] ++ [hB105 7])) ∧
      ∃ evs, r'.st.events = r89.st.events ++ evs ∧ List.Forall₂ (CallOf E104 lib104) evs [("abs", [-4])] := by
  have h := ok105
  simp only [Bool.and_eq_true] at h
  have h0 := ok104
  simp only [Bool.and_eq_true] at h0
  have e1 : ["#include <a.h>", "abs(3-y);", "#include <b.h>", "y;"].map ascii = [line105 97, textW call104, line105 98, textW y105] := by decide +kernel
  have e2 : ["", "4\n", "", "7\n"].map ascii = [[], ascii "4" ++ [10], [], ascii "7" ++ [10]] := by decide +kernel
  rw [e1, e2]
  exact C105_headers_partial (B := []) rfl (good105 4 (by omega)) (stOf_Sane _ _ _) rfl rfl rfl rfl provides104
    (htyped105 (inc105 97 (by decide) (by decide) (by decide)) (inc105 98 (by decide) (by decide) (by decide)) rtextA rtextB
      (okW_text h0.1.1.2) (by decide +kernel) wcall105 (okW_text h.1.2) (by decide +kernel) wy105)
    dialogue105

theorem d5 : Decimal 5 (ascii "5") := ⟨_, by unfold CText.Digits; decide +kernel, .inr (by decide +kernel), .inl ⟨rfl, by decide +kernel⟩⟩
theorem d7 : Decimal 7 (ascii "7") := ⟨_, by unfold CText.Digits; decide +kernel, .inr (by decide +kernel), .inl ⟨rfl, by decide +kernel⟩⟩

theorem dialogueAgain : HDialogue okRules bicShows bicCalling bicIncluding lib104 items105 [] fr105 [] [] []
    [.inc (nameStr (line105 97)), .plain (.set "y" (.lit 5)), .inc (nameStr (line105 98)), .plain (.expr (.var "y"))]
    [[], ascii "5" ++ [10], [], ascii "7" ++ [10]] fr105 [hB105 7] ([] ++ ([] ++ ([] ++ ([] ++ [])))) (1 + (0 + (2 + (0 + 0)))) := by
  have ha : okRules.asg [] .int (.lit 7) 7 := .inl ⟨rfl, .inl (by decide)⟩
  exact .cons (.inc (hf := hA105 7) (Δ' := ["abs"]) ⟨by simp [items105], hdeclA ha .nil⟩ trivial)
    (.cons (H1 := [hA105 5]) (.plain (.set (c := .int) (u := some 7) (v := 5) (w := 5) rfl (.lit 5) (.inl ⟨rfl, .inl (by decide)⟩) (conv_self (by decide)) rfl d5) trivial)
    (.cons (.inc (hf := hB105 7) (Δ' := ["abs"]) ⟨by simp [items105], hdeclA ha hdeclB⟩ trivial)
    (.cons (.plain (.expr (.var ⟨.int, rfl, show InRange .long _ by decide⟩) d7) trivial) .nil)))

/-- C105 is false: after `y=5;` and `#include <b.h>`, `y` is 7 again. -/
theorem C105_refuted : ¬ C105_statement := by
  intro h
  have hok := ok105
  simp only [Bool.and_eq_true] at hok
  obtain ⟨r', evs, h3, _⟩ := h E104 ⟨fun _ => [], fun _ _ => []⟩ (fun _ => 0) cpp89 hdr105 items105 r89 noTN lib104 [] fr105 fr105 [hB105 5]
    [line105 97, textW set105, line105 98, textW y105] [[], ascii "5" ++ [10], [], ascii "5" ++ [10]]
    [.inc (nameStr (line105 97)), .plain (.set "y" (.lit 5)), .inc (nameStr (line105 98)), .plain (.expr (.var "y"))]
    ([] ++ ([] ++ ([] ++ ([] ++ [])))) (1 + (0 + (2 + (0 + 0))))
    rfl (good105 3 (by omega)) (stOf_Sane _ _ _) rfl rfl rfl rfl rfl provides104
    (htyped105 (inc105 97 (by decide) (by decide) (by decide)) (inc105 98 (by decide) (by decide) (by decide)) ctextA ctextB
      (okW_ctext hok.2) (by decide +kernel) wset105 (okW_ctext hok.1.2) (by decide +kernel) wy105)
    (.cons (.inc (hf := hA105 7) (Δ' := ["abs"]) ⟨_, rfl, hdeclA trivial .nil⟩ (clean105 (by decide)))
    (.cons (H1 := [hA105 5]) (.plain (.set (c := .int) (u := some 7) (v := 5) (w := 5) rfl (.lit 5) trivial (conv_self (by decide)) rfl d5) (clean105 (by decide)))
    (.cons (.inc (hf := hB105 5) (Δ' := ["abs"]) ⟨_, rfl, hdeclB⟩ (clean105 (by decide)))
    (.cons (.plain (.expr (.var ⟨.int, rfl, trivial⟩) d5) (clean105 (by decide))) .nil))))
  have := ((C105_shown (E := E104) (fl := ⟨fun _ => [], fun _ _ => []⟩) (F := fun _ => 0) (cpp := cpp89) (hdr := hdr105) (r := r89) (B := []) (fr := fr105)
    rfl (good105 3 (by omega)) (stOf_Sane _ _ _) rfl rfl rfl rfl provides104
    (htyped105 (inc105 97 (by decide) (by decide) (by decide)) (inc105 98 (by decide) (by decide) (by decide)) rtextA rtextB
      (okW_text hok.2) (by decide +kernel) wset105 (okW_text hok.1.2) (by decide +kernel) wy105)
    dialogueAgain).2 _ _ _ h3).1
  exact absurd this (by decide +kernel)

/-- `int y=7;int abs(int);` as for C105 -/
example (fl : Floats) (F : Str → Nat) :
    (∃ r', LineI E104 fl F cpp89 hdr105 r89 (line105 97) (.shows []) r') ∧
    ∀ a r', LineI E104 fl F cpp89 hdr105 r89 (line105 97) a r' → a = .shows [] ∧ Rel r'.st (fr105 :: ([] ++ [hA105 7])) := by
  refine C106_include_partial (B := []) (Λ := lib104) (Δ := ["abs"]) (is := [.var .int "y" (some 7), .proto "abs" .int [.int]]) (m := 0) rfl (good105 1 (by omega))
    (stOf_Sane _ _ _) rfl rfl rfl rfl (inc105 97 (by decide) (by decide) (by decide)) rfl rtextA ?_ (by simp) (hdeclA (L := okRules) (.inl ⟨rfl, .inl (by decide)⟩) .nil)
  have := witemsA .nil
  rwa [List.append_nil] at this

def hdr106 : List String → Option Str := fun _ => some (mark105 97 ++ 10 :: [])

/-- a header with nothing but macros -/
example (E : Env) (fl : Floats) (F : Str → Nat) :
    (∃ r', LineI E fl F cpp89 hdr106 r89 (line105 97) (.ends (.die "Parsing of preprocessor output failed\n")) r') ∧
    ∀ a r', LineI E fl F cpp89 hdr106 r89 (line105 97) a r' → a = .ends (.die "Parsing of preprocessor output failed\n") :=
  C106_no_declarations (good105 0 (by omega)).wf rfl (inc105 97 (by decide) (by decide) (by decide)) rfl
    (.marker (mark105_ok 97 (by decide) (by decide) (by decide)) (.text .nil))

/-- C106 is false: a header with nothing but macros ends bic. -/
theorem C106_refuted : ¬ C106_statement := by
  intro h
  obtain ⟨r', h1, -⟩ := h E104 ⟨fun _ => [], fun _ _ => []⟩ (fun _ => 0) cpp89 hdr106 r89 lib104 [] fr105 [] [] [] (line105 97) _ [] 0
    rfl (good105 0 (by omega)) (stOf_Sane _ _ _) rfl rfl rfl rfl (inc105 97 (by decide) (by decide) (by decide)) rfl
    (.marker (mark105_ok 97 (by decide) (by decide) (by decide)) (.text .nil)) .nil .nil
  exact absurd ((C106_no_declarations (good105 0 (by omega)).wf rfl (inc105 97 (by decide) (by decide) (by decide)) rfl
    (.marker (mark105_ok 97 (by decide) (by decide) (by decide)) (.text .nil))).2 _ _ h1) nofun

end Bic.Repl
