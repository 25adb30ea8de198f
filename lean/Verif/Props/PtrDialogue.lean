import Verif.Proofs.PtrDialogue
import Verif.Props.ArrayDialogue
/-!
# C102: dialogues with a pointer
-/

namespace Bic.Repl
open Spec CSyn
open Lexer (Reads Follows)
open _root_.Bic.Parser (PT T K nameStr)
open Printer (Floats)
open CText (Text ascii)

section
variable (Tx : List T → Str → Prop) (TN : List T → PT → List T → Prop) (cpp : Str → Str)

/-- the line, as it is typed and after the preprocessor, declares the pointer `x` -/
structure PtrLine (line : Str) (k : CT) (x : Str) : Prop where
  typed : ∃ i0 k0 x0, Tx i0 line ∧ WPtrVar k0 x0 i0
  meant : ∃ i text, LastLine (cpp line) text ∧ Tx i text ∧ WPtrVar k x i

/-- the lines typed for these inputs, as in C89 -/
inductive PTyped (x : Str) : List Str → List PInput → Prop
  | nil : PTyped x [] []
  | cons {line text i0 i p0 p ls ps} : Tx i0 line → WPInput cTable TN x p0 i0 → LastLine (cpp line) text → Tx i text → WPInput cTable TN x p i →
      PTyped x ls ps → PTyped x (line :: ls) (p :: ps)

end

/-- C102: the variables have addresses, all different, such that after the declaration of a pointer each line
`p=&y;` or `p;` shows the address of the variable pointed to, each line `*p=e;` shows the value assigned and gives
it to that variable, and each line `*p;` shows the value of that variable, whoever has given it this value. -/
def C102_statement : Prop :=
  ∀ (E : Env) (fl : Floats) (F : Str → Nat) (cpp : List String → Str → Str) (r : RSt) (TN : List T → PT → List T → Prop) (fr : Frame)
    (σ : Store) (N : Nat), r.lx.mode = .initial → Good r.st (fr :: σ) (1 + N) → NoArrays r.st (fr :: σ) →
    ∃ addr : String → Nat, (∀ y z c v d u, Store.Has (fr :: σ) y c v → Store.Has (fr :: σ) z d u → y ≠ z → addr y ≠ addr z) ∧
      ∀ (k : CT) (x : Str) (line : Str) (ls outs : List Str) (ps : List PInput) (σ' : Store) (π : Option String),
        integral k → k ≠ .char → Frame.find (nameStr x) fr = none → ps.length ≤ N →
        PtrLine (CText.CText r.ty) (cpp r.st.includes) line k x → PTyped (CText.CText r.ty) TN (cpp r.st.includes) x ls ps →
        PDialogue cRules cShows addr k ((fr ++ [(nameStr x, none)]) :: σ) none ps outs σ' π →
        ∃ r', Session E fl F cpp r (line :: ls) ((ascii (nameStr x) ++ [newline]) :: outs) none r' ∧ Rel r'.st σ'

/-- the lines after the declaration -/
theorem ptr_session {E : Env} {fl : Floats} {F : Str → Nat} {cpp : List String → Str → Str} {r : RSt}
    {TN : List T → PT → List T → Prop} {x : Str} {k : CT} {σ σ' : Store} {addr : String → Nat} {π π' : Option String} {incs : List String}
    {ls outs : List Str} {ps : List PInput} (hk : k ≠ .char) (hm : r.lx.mode = .initial) (hi : r.st.includes = incs)
    (g : PInv r.st σ k (nameStr x) addr π ps.length)
    (ht : PTyped (Text (Reads r.ty) Follows) TN (cpp incs) x ls ps) (h : PDialogue okRules bicShows addr k σ π ps outs σ' π') :
    (∃ r', Session E fl F cpp r ls outs none r') ∧
    ∀ outs' w r', Session E fl F cpp r ls outs' w r' → outs' = outs ∧ w = none ∧ PInv r'.st σ' k (nameStr x) addr π' 0 := by
  induction h generalizing r ls with
  | nil =>
    cases ht
    refine ⟨⟨r, .nil⟩, ?_⟩
    intro os w r' hs
    cases hs
    exact ⟨rfl, rfl, g⟩
  | @cons σ π p out σ1 π1 ps outs σ2 π2 h1 h2 ih =>
    cases ht with
    | cons t1 t2 t3 t4 t5 t6 =>
      obtain ⟨q0, d0, n0, c0, -⟩ := pinput_der t2
      obtain ⟨q, d, nn, -, b⟩ := pinput_der t5
      rw [← hi] at t3
      obtain ⟨⟨r1, l1⟩, l2⟩ := line_shows (E := E) (fl := fl) (F := F) (cpp := cpp) (out := out)
        (P := fun s' => PInv s' σ1 k (nameStr x) addr π1 ps.length ∧ s'.includes = incs) g.good.wf hm t1 d0 n0 c0 t3 t4 d nn
        fun s y e hy => by
          obtain ⟨s', a1, a2, a3⟩ := pinput_conv (E := E) fl (n := ps.length) hk (g.ext e) (b hy) h1
          exact ⟨s', a1, a2, by rw [a3, e.includes, hi]⟩
      have step : ∀ r1 : RSt, r1.lx.mode = .initial ∧ r1.ty = r.ty ∧ PInv r1.st σ1 k (nameStr x) addr π1 ps.length ∧ r1.st.includes = incs → _ :=
        fun r1 h => ih (r := r1) (ls := _) h.1 h.2.2.2 h.2.2.1 (by rw [h.2.1]; exact t6)
      constructor
      · obtain ⟨⟨r', i1⟩, -⟩ := step r1 (l2 _ _ l1).2
        exact ⟨r', .cons l1 i1⟩
      · intro os w r' hs
        cases hs with
        | cons j1 j2 =>
          obtain ⟨e, j3⟩ := l2 _ _ j1
          cases e
          obtain ⟨e1, e2, e3⟩ := (step _ j3).2 _ _ _ j2
          exact ⟨by rw [e1], e2, e3⟩
        | ends j1 => exact absurd (l2 _ _ j1).1 nofun

/-- What bic shows: for an assignment the value before its conversion.  No other session is possible. -/
theorem C102_shown {E : Env} {fl : Floats} {F : Str → Nat} {cpp : List String → Str → Str} {r : RSt}
    {TN : List T → PT → List T → Prop} {k : CT} {x : Str} {fr : Frame} {σ σ' : Store} {π : Option String} {line : Str} {ls outs : List Str}
    {ps : List PInput} (hm : r.lx.mode = .initial) (g : Good r.st (fr :: σ) (1 + ps.length)) (ha : NoArrays r.st (fr :: σ))
    (hk : k ≠ .char) (hx : Frame.find (nameStr x) fr = none)
    (hl : PtrLine (Text (Reads r.ty) Follows) (cpp r.st.includes) line k x)
    (ht : PTyped (Text (Reads r.ty) Follows) TN (cpp r.st.includes) x ls ps)
    (h : PDialogue okRules bicShows (addrOf r.st) k ((fr ++ [(nameStr x, none)]) :: σ) none ps outs σ' π) :
    (∃ r', Session E fl F cpp r (line :: ls) ((ascii (nameStr x) ++ [newline]) :: outs) none r') ∧
    ∀ outs' w r', Session E fl F cpp r (line :: ls) outs' w r' → outs' = (ascii (nameStr x) ++ [newline]) :: outs ∧ w = none ∧ Rel r'.st σ' := by
  obtain ⟨i0, k0, x0, t1, w1⟩ := hl.typed
  obtain ⟨i, text, t2, t3, w2⟩ := hl.meant
  obtain ⟨q0, d0, n0, c0, -⟩ := ptrVar_der w1
  obtain ⟨q, d, nn, -, b⟩ := ptrVar_der w2
  obtain ⟨⟨r1, l1⟩, l2⟩ := line_shows (E := E) (fl := fl) (F := F) (cpp := cpp) (out := ascii (nameStr x) ++ [newline])
    (P := fun s' => PInv s' ((fr ++ [(nameStr x, none)]) :: σ) k (nameStr x) (addrOf r.st) none ps.length ∧ s'.includes = r.st.includes)
    g.wf hm t1 d0 n0 c0 t2 t3 d nn fun s y he hy => by
      obtain ⟨id, s', h1, h2, h3, h4⟩ := ptrDecl_conv (E := E) he (by rw [Nat.add_comm]; exact g) (b hy) hx ha
      exact ⟨s', .inl ⟨id, _, h1, rfl, fun o => prints_ident h2 o⟩, h3, h4⟩
  have step : ∀ r1 : RSt, r1.lx.mode = .initial ∧ r1.ty = r.ty ∧ PInv r1.st ((fr ++ [(nameStr x, none)]) :: σ) k (nameStr x) (addrOf r.st) none ps.length ∧
      r1.st.includes = r.st.includes → _ :=
    fun r1 j => ptr_session (E := E) (fl := fl) (F := F) hk j.1 j.2.2.2 j.2.2.1 (by rw [j.2.1]; exact ht) h
  constructor
  · obtain ⟨⟨r', i1⟩, -⟩ := step r1 (l2 _ _ l1).2
    exact ⟨r', .cons l1 i1⟩
  · intro os w r' hs
    cases hs with
    | cons j1 j2 =>
      obtain ⟨e, j3⟩ := l2 _ _ j1
      cases e
      obtain ⟨e1, e2, e3⟩ := (step _ j3).2 _ _ _ j2
      exact ⟨by rw [e1], e2, e3.good.rel⟩
    | ends j1 => exact absurd (l2 _ _ j1).1 nofun

theorem PDialogue.mono {L : Rules} {S S' : Shows} (h1 : ∀ v w z, S.asg v w z → S'.asg v w z) (h2 : ∀ z, S.step z → S'.step z) {addr k σ π ps outs σ' π'}
    (h : PDialogue L S addr k σ π ps outs σ' π') : PDialogue L S' addr k σ π ps outs σ' π' := by
  induction h with
  | nil => exact .nil
  | cons a _ ih =>
    refine .cons ?_ ih
    cases a with
    | plain a => exact .plain (Reply.mono h1 h2 a)
    | point a b => exact .point a b
    | value a => exact .value a
    | store a b c d e f => exact .store a b c d (h1 _ _ _ e) f
    | load a b => exact .load a b

/-- C102 for the texts of `C81_tokens_partial`, the operations of `C34_programs_partial` and values that fit into
the variable.  No other session is possible. -/
theorem C102_pointer_partial {r : RSt} {fr : Frame} {σ : Store} {N : Nat} (hm : r.lx.mode = .initial) (g : Good r.st (fr :: σ) (1 + N))
    (ha : NoArrays r.st (fr :: σ)) :
    ∃ addr : String → Nat, (∀ y z c v d u, Store.Has (fr :: σ) y c v → Store.Has (fr :: σ) z d u → y ≠ z → addr y ≠ addr z) ∧
      ∀ (E : Env) (fl : Floats) (F : Str → Nat) (cpp : List String → Str → Str) (TN : List T → PT → List T → Prop) (k : CT) (x : Str) (line : Str)
        (ls outs : List Str) (ps : List PInput) (σ' : Store) (π : Option String),
        k ≠ .char → Frame.find (nameStr x) fr = none → ps.length ≤ N →
        PtrLine (Text (Reads r.ty) Follows) (cpp r.st.includes) line k x → PTyped (Text (Reads r.ty) Follows) TN (cpp r.st.includes) x ls ps →
        PDialogue okRules okShows addr k ((fr ++ [(nameStr x, none)]) :: σ) none ps outs σ' π →
        (∃ r', Session E fl F cpp r (line :: ls) ((ascii (nameStr x) ++ [newline]) :: outs) none r') ∧
        ∀ outs' w r', Session E fl F cpp r (line :: ls) outs' w r' →
          outs' = (ascii (nameStr x) ++ [newline]) :: outs ∧ w = none ∧ Rel r'.st σ' :=
  ⟨addrOf r.st, fun _ _ _ _ _ _ h1 h2 h3 => addrOf_apart g.rel ha h1 h2 h3,
    fun E fl F cpp TN _ x line ls outs ps σ' π hk hx hn hl ht h => C102_shown hm (g.mono (by omega)) ha hk hx hl ht
      (PDialogue.mono (S := okShows) (S' := bicShows) (fun _ _ _ h => h.1.trans h.2.symm) (fun _ h => h) h)⟩

/-! ### Examples: `int *p;`, `p=&x;`, `*p=x+7;`, `x;`, `x++;`, `*p;`, and `*p=3000000000;` -/

open TextCheck

def decl102 : W89 := [kw .int "int", sp, kw .star "*", idn [112] (name1 112), kw .semi ";"]
def point102 : W89 := [idn [112] (name1 112), kw .assign "=", kw .amp "&", idn [120] Lexer.name_x, kw .semi ";"]
def store102 : W89 := [kw .star "*", idn [112] (name1 112), kw .assign "=", idn [120] Lexer.name_x, kw .plus "+", num [55], kw .semi ";"]
def load102 : W89 := [kw .star "*", idn [112] (name1 112), kw .semi ";"]
def big102 : W89 := [kw .star "*", idn [112] (name1 112), kw .assign "=", num (ascii "3000000000"), kw .semi ";"]

theorem ok102 : (okW decl102 && okW point102 && okW store102 && okW var89 && okW inc89 && okW load102 && okW big102) = true := by decide +kernel

theorem lines102_eq : [decl102, point102, store102, var89, inc89, load102, big102].map textW =
    ["int *p;", "p=&x;", "*p=x+7;", "x;", "x++;", "*p;", "*p=3000000000;"].map ascii := by decide +kernel

theorem wdecl102 : WPtrVar .int [112] (toksW decl102) := .mk (ws := [.int]) (.one rfl) ⟨[.int], by decide, by decide⟩

theorem ptrLine102 {Tx : List T → Str → Prop} (h : Tx (toksW decl102) (textW decl102)) : PtrLine Tx (cpp89 []) (textW decl102) .int [112] :=
  ⟨⟨_, _, _, h, wdecl102⟩, ⟨_, _, lastLine89 (by decide +kernel), h, wdecl102⟩⟩

theorem ptyped1 {Tx : List T → Str → Prop} {l : W89} {p : PInput} {ls ps} (h : Tx (toksW l) (textW l)) (hn : newline ∉ textW l)
    (hw : WPInput cTable noTN [112] p (toksW l)) (ht : PTyped Tx noTN (cpp89 []) [112] ls ps) :
    PTyped Tx noTN (cpp89 []) [112] (textW l :: ls) (p :: ps) :=
  .cons h hw (lastLine89 hn) h hw ht

theorem noArrays102 : NoArrays r89.st (store34 (some 0)) := by
  intro y c v t hy ht
  unfold Store.Has store34 at hy
  simp only [Store.find, Frame.find] at hy
  by_cases e : "x" = y
  · subst e
    have : resolveGlobal "x" .normal r89.st = some 1 := by decide +kernel
    rw [this] at ht
    cases ht
    exact ⟨some 0, 4096, 0, rfl⟩
  · simp [e] at hy

theorem addr102 : addrOf r89.st "x" = 4096 := by decide +kernel

theorem address102 : AddressText (addrOf r89.st "x") (ascii "0x1000") := by
  rw [addr102]
  exact .inr ⟨by decide, ascii "1000", ⟨by decide +kernel, by decide +kernel, .inr (by decide +kernel), by decide +kernel⟩, by decide +kernel⟩

/-- the store of the examples after the declaration -/
def vars102 (v : Int) : Store := [[("x", some ⟨.int, some v⟩), ("p", none)]]

theorem dialogue102 : PDialogue okRules okShows (addrOf r89.st) .int (vars102 0) none
    [.point "x", .store (.bin .add (.var "x") (.lit 7)), .plain (.expr (.var "x")), .plain (.post "x" 1), .load]
    [ascii "0x1000" ++ [10], [55] ++ [10], [55] ++ [10], [55] ++ [10], [56] ++ [10]] (vars102 8) (some "x") := by
  refine .cons (.point (u := some 0) rfl address102) ?_
  refine .cons (σ1 := vars102 7) (.store (y := "x") (u := some 0) (v := 7) (w := 7) rfl (.bin (.var ⟨.int, rfl, show InRange .long _ by decide⟩) (.lit 7) ⟨by simp [cOp], by simp [side]⟩)
    (.inl ⟨rfl, .inl (by decide)⟩) (Converts.self (by decide)) ⟨rfl, rfl⟩ ?_) ?_
  rotate_left
  · refine .cons (.plain (.expr (v := 7) (.var ⟨.int, rfl, show InRange .long _ by decide⟩) ?_)) ?_
    rotate_left
    · refine .cons (σ1 := vars102 8) (.plain (.post (c := .int) (v := 7) (w := 8) rfl (Converts.self (by decide)) (show InRange .long _ by decide) ?_)) ?_
      rotate_left
      · refine .cons (.load (v := 8) rfl ?_) .nil
        exact ⟨_, by unfold CText.Digits; decide +kernel, .inr (by decide +kernel), .inl ⟨rfl, by decide +kernel⟩⟩
      exact ⟨_, by unfold CText.Digits; decide +kernel, .inr (by decide +kernel), .inl ⟨rfl, by decide +kernel⟩⟩
    exact ⟨_, by unfold CText.Digits; decide +kernel, .inr (by decide +kernel), .inl ⟨rfl, by decide +kernel⟩⟩
  exact ⟨_, by unfold CText.Digits; decide +kernel, .inr (by decide +kernel), .inl ⟨rfl, by decide +kernel⟩⟩

example (fl : Floats) (F : Str → Nat) :
    (∃ r', Session E0 fl F cpp89 r89 ([decl102, point102, store102, var89, inc89, load102].map textW)
      (["p\n", "0x1000\n", "7\n", "7\n", "7\n", "8\n"].map ascii) none r') ∧
    ∀ outs a r', Session E0 fl F cpp89 r89 ([decl102, point102, store102, var89, inc89, load102].map textW) outs a r' →
      outs = ["p\n", "0x1000\n", "7\n", "7\n", "7\n", "8\n"].map ascii ∧ a = none ∧ Rel r'.st (vars102 8) := by
  have h := ok102
  simp only [Bool.and_eq_true] at h
  obtain ⟨⟨⟨⟨⟨⟨h0, h1⟩, h2⟩, h3⟩, h4⟩, h5⟩, _⟩ := h
  have e : ["p\n", "0x1000\n", "7\n", "7\n", "7\n", "8\n"].map ascii =
    [ascii "p" ++ [newline], ascii "0x1000" ++ [10], [55] ++ [10], [55] ++ [10], [55] ++ [10], [56] ++ [10]] := by decide +kernel
  rw [e]
  exact C102_shown (x := [112]) (k := .int) (ps := [.point "x", .store (.bin .add (.var "x") (.lit 7)), .plain (.expr (.var "x")), .plain (.post "x" 1), .load])
    (fr := [("x", some ⟨.int, some 0⟩)]) (σ := []) rfl (good89 6 (by omega)) noArrays102 (by decide) rfl
    (ptrLine102 (okW_text h0))
    (ptyped1 (okW_text h1) (by decide +kernel) (.point (y := [120]))
    (ptyped1 (okW_text h2) (by decide +kernel) (.store ⟨.bin .add (.ident [120]) (.int 7), .bin (o := .add) (by decide) .ident .int,
      .bin (bo := .add) rfl .ident .int⟩)
    (ptyped1 (okW_text h3) (by decide +kernel) (.plain (.expr ⟨.ident [120], .ident, .ident⟩))
    (ptyped1 (okW_text h4) (by decide +kernel) (.plain (.pInc (s := [120])))
    (ptyped1 (okW_text h5) (by decide +kernel) .load .nil)))))
    (PDialogue.mono (S := okShows) (S' := bicShows) (fun _ _ _ h => h.1.trans h.2.symm) (fun _ h => h) dialogue102)

/-- C102 is false: for `*p=3000000000;` with `int *p` bic shows 3000000000, and C the value of `*p`. -/
theorem C102_refuted : ¬ C102_statement := by
  intro h
  have hok := ok102
  simp only [Bool.and_eq_true] at hok
  obtain ⟨⟨⟨⟨⟨⟨h0, h1⟩, _⟩, _⟩, _⟩, _⟩, h2⟩ := hok
  have hw : WPInput cTable noTN [112] (.store (.lit 3000000000)) (toksW big102) := .store ⟨.int 3000000000, .int, .int⟩
  have hc : Converts .int 3000000000 (-1294967296) := ⟨by decide, 1, by decide⟩
  obtain ⟨addr, _, h⟩ := h E0 ⟨fun _ => [], fun _ _ => []⟩ (fun _ => 0) cpp89 r89 noTN [("x", some ⟨.int, some 0⟩)] [] 2 rfl (good89 3 (by omega)) noArrays102
  have hex : ∀ a, ∃ t, AddressText a t := fun a => by
    by_cases e : a = 0
    · exact ⟨_, .inl ⟨e, rfl⟩⟩
    · exact ⟨_, .inr ⟨e, _, (Print.hexDigits_spec a).1, rfl⟩⟩
  obtain ⟨t, ht⟩ := hex (addr "x")
  obtain ⟨r', h3, _⟩ := h .int [112] (textW decl102) [textW point102, textW big102] [t ++ [10], ascii "-1294967296" ++ [10]]
    [.point "x", .store (.lit 3000000000)] (vars102 (-1294967296)) (some "x") (by decide) (by decide) rfl (by decide) (ptrLine102 (okW_ctext h0))
    (ptyped1 (okW_ctext h1) (by decide +kernel) (.point (y := [120])) (ptyped1 (okW_ctext h2) (by decide +kernel) hw .nil))
    (.cons (.point (u := some 0) rfl ht) (.cons (.store (u := some 0) (v := 3000000000) (w := -1294967296) rfl (.lit _) trivial hc rfl decimalWrapped) .nil))
  have := (((C102_shown (E := E0) (fl := ⟨fun _ => [], fun _ _ => []⟩) (F := fun _ => 0) (cpp := cpp89) (x := [112]) (k := .int)
    (fr := [("x", some ⟨.int, some 0⟩)]) (σ := []) (outs := [ascii "0x1000" ++ [10], ascii "3000000000" ++ [10]]) (σ' := vars102 (-1294967296)) (π := some "x")
    rfl (good89 3 (by omega)) noArrays102 (by decide) rfl (ptrLine102 (okW_text h0))
    (ptyped1 (okW_text h1) (by decide +kernel) (.point (y := [120])) (ptyped1 (okW_text h2) (by decide +kernel) hw .nil))
    (.cons (.point (u := some 0) rfl address102) (.cons (.store (u := some 0) (v := 3000000000) (w := -1294967296) rfl (.lit _)
      (.inl ⟨rfl, .inl (by decide)⟩) hc rfl decimalBig) .nil)))).2 _ _ _ h3).1
  injection this with _ this
  injection this with _ this
  exact absurd this (by decide +kernel)

end Bic.Repl
