import Verif.Proofs.EnumText
import Verif.Proofs.TextCheck
import Verif.Props.Dialogue
/-!
# C99: enumerations declared by a line
-/

namespace Bic.Repl
open Spec CSyn
open Lexer (Reads Follows)
open _root_.Bic.Parser (PT T K Der Rep enum_der EnumDecl)
open Printer (Floats)
open CText (Text ascii)

section
variable (Tx : List T → Str → Prop) (TN : List T → PT → List T → Prop) (cpp : Str → Str)

/-- the line, as it is typed and after the preprocessor, declares an enumeration -/
structure EnumLine (line : Str) (tag : Option String) (es : List (String × Option Expr)) : Prop where
  typed : ∃ i0 tag0 es0, Tx i0 line ∧ WEnum cTable TN tag0 es0 i0
  meant : ∃ i text, LastLine (cpp line) text ∧ Tx i text ∧ WEnum cTable TN tag es i

/-- the line is the expression `e` -/
structure ExprLine (line : Str) (e : Expr) : Prop where
  typed : ∃ i0 e0, Tx i0 line ∧ WInput cTable TN (.expr e0) i0
  meant : ∃ i text, LastLine (cpp line) text ∧ Tx i text ∧ WInput cTable TN (.expr e) i

end

/-- the constant or integer variable `x` has the value `v`; unsigned long variables above 2^63 are
excluded, bic reads them as negative -/
def IntIs (s : St) (x : String) (v : Int) : Prop :=
  ∃ t, resolveGlobal x .normal s = some t ∧ (s.nodes t = some (.integer v) ∨ ∃ c, integral c ∧ Holds s t c v ∧ InRange .long v)

theorem IntIs.varIs {s : St} {x : String} {v : Int} (h : IntIs s x v) : VarIs s x v := by
  obtain ⟨t, h1, h2 | ⟨c, _, h2, h3⟩⟩ := h
  · exact ⟨t, h1, .inl h2⟩
  · exact ⟨t, h1, .inr ⟨c, h2, h3⟩⟩

theorem IntIs.keep {s s' : St} {x : String} {v : Int} (h : IntIs s x v) (hr : resolveGlobal x .normal s' = resolveGlobal x .normal s)
    (hn : ∀ t n, s.nodes t = some n → s'.nodes t = some n) (hm : s'.mem = s.mem) : IntIs s' x v := by
  obtain ⟨t, h1, h2⟩ := h
  refine ⟨t, hr.trans h1, ?_⟩
  rcases h2 with h2 | ⟨c, hc, ⟨τ, a, ⟨⟨b, m, k1⟩, ⟨e, k2⟩, k3, k4⟩, g3⟩, g4⟩
  · exact .inl (hn _ _ h2)
  · exact .inr ⟨c, hc, ⟨τ, a, ⟨⟨b, m, hn _ _ k1⟩, ⟨e, hn _ _ k2⟩, k3, by rw [hm]; exact k4⟩, by rw [hm]; exact g3⟩, g4⟩

theorem IntIs.ext {s s' : St} {x : String} {v : Int} (h : IntIs s x v) (e : Ext s s') : IntIs s' x v :=
  h.keep (e.resolveGlobal x _) e.nodes e.mem

/-- C99: for the declaration of an enumeration bic shows nothing, and for an expression over its
enumerators in the next line the value C gives it. -/
def C99_statement : Prop :=
  ∀ (E : Env) (fl : Floats) (F : Str → Nat) (cpp : List String → Str → Str) (r : RSt) (TN : List T → PT → List T → Prop) (tag : Option String)
    (es : List (String × Option Expr)) (vs : List (String × Int)) (line next z : Str) (e : Expr) (v : Int),
    r.lx.mode = .initial → WF r.st → r.st.ctxs ≠ [] →
    EnumLine (CText.CText r.ty) TN (cpp r.st.includes) line tag es → ExprLine (CText.CText r.ty) TN (cpp r.st.includes) next e →
    (∀ x ∈ tag.toList ++ es.map Prod.fst, ¬ DeclaredHere r.st x) → (tag.toList ++ es.map Prod.fst).Nodup →
    Enumerate CVal (InRange .int) (IntIs r.st) 0 es vs → CVal (fun y w => (y, w) ∈ vs) e v → Decimal v z →
    ∃ r', Session E fl F cpp r [line, next] [[], z ++ [newline]] none r'

/-- the declaration of the enumeration -/
theorem C99_declares_partial {E : Env} {fl : Floats} {F : Str → Nat} {cpp : List String → Str → Str} {r : RSt}
    {TN : List T → PT → List T → Prop} {tag : Option String} {es : List (String × Option Expr)} {vs : List (String × Int)} {line : Str}
    (hm : r.lx.mode = .initial) (w : WF r.st) (hc : r.st.ctxs ≠ [])
    (hl : EnumLine (Text (Reads r.ty) Follows) TN (cpp r.st.includes) line tag es)
    (hx : ∀ x ∈ tag.toList ++ es.map Prod.fst, ¬ DeclaredHere r.st x) (hd : (tag.toList ++ es.map Prod.fst).Nodup)
    (h : Enumerate (Val okOp okTruth) (InRange .uint) (fun y v => IntIs r.st y v ∧ y ∉ tag) 0 es vs) :
    (∃ r', Line E fl F cpp r line (.shows []) r') ∧
    ∀ a r', Line E fl F cpp r line a r' → a = .shows [] ∧ r'.lx.mode = .initial ∧ r'.ty = r.ty ∧ WF r'.st ∧
      r'.st.includes = r.st.includes ∧ r'.st.mem = r.st.mem ∧ (∀ x v, (x, v) ∈ vs → IntIs r'.st x v) ∧
      ∀ y v, IntIs r.st y v → y ∉ tag → y ∉ es.map Prod.fst → IntIs r'.st y v := by
  obtain ⟨i0, tag0, es0, t1, w1⟩ := hl.typed
  obtain ⟨i, text, t2, t3, w2⟩ := hl.meant
  obtain ⟨q0, d0, n0, c0, -⟩ := enum_der w1
  obtain ⟨q, d, n, -, b⟩ := enum_der w2
  refine line_shows (P := fun s' => WF s' ∧ s'.includes = r.st.includes ∧ s'.mem = r.st.mem ∧ (∀ x v, (x, v) ∈ vs → IntIs s' x v) ∧
    ∀ y v, IntIs r.st y v → y ∉ tag → y ∉ es.map Prod.fst → IntIs s' y v) w hm t1 (.ruOne (.rsDecl d0)) n0 c0 t2 t3 (.ruOne (.rsDecl d)) n ?_
  intro s y x hy
  obtain ⟨specs, off, c, name, l, ts, h1, h2, h3, h4, h5, h6⟩ := b hy
  obtain ⟨o, s', k1, -, -, -, k5, k6, k7, k8, k9, k10⟩ := C37_enumerators_partial E s c l ts name tag es vs (x.wf w) (by rw [x.ctxs]; exact hc) h3 h4 h5 h6
    (fun y hy hd => hx y hy ((DeclaredHere.ext x y).mp hd)) hd
    (Enumerate.mono (val := Val okOp okTruth) (ρ := fun y v => IntIs r.st y v ∧ y ∉ tag) (fun _ _ hρ _ _ => Val.mono (fun _ _ _ _ h => h) (fun _ _ h => h) hρ) (fun y v hy => ⟨(hy.1.ext x).varIs, hy.2⟩) h)
  refine ⟨s', .inr ⟨enumDecl_conv h1 h2 h3 k5 k1, rfl⟩, k7, k8.trans x.includes, k6.trans x.mem, ?_, ?_⟩
  · intro z v hz
    obtain ⟨o, g1, g2⟩ := k9 z v hz
    exact ⟨o, g1, .inl g2⟩
  · intro z v hz j1 j2
    exact (hz.ext x).keep (k10 z j1 j2) k5 k6

/-- an expression over constants and variables -/
theorem exprLine {E : Env} {fl : Floats} {F : Str → Nat} {cpp : List String → Str → Str} {r : RSt} {TN : List T → PT → List T → Prop}
    {line z : Str} {e : Expr} {v : Int} (hm : r.lx.mode = .initial) (w : WF r.st)
    (hl : ExprLine (Text (Reads r.ty) Follows) TN (cpp r.st.includes) line e) (hv : Val okOp okTruth (IntIs r.st) e v) (hz : Decimal v z) :
    (∃ r', Line E fl F cpp r line (.shows (z ++ [newline])) r') ∧
    ∀ a r', Line E fl F cpp r line a r' → a = .shows (z ++ [newline]) ∧ r'.lx.mode = .initial ∧ r'.ty = r.ty ∧ Ext r.st r'.st := by
  obtain ⟨i0, e0, t1, w1⟩ := hl.typed
  obtain ⟨i, text, t2, t3, w2⟩ := hl.meant
  obtain ⟨q0, d0, n0, c0, -⟩ := input_der w1
  obtain ⟨q, d, n, -, b⟩ := input_der w2
  refine line_shows (P := fun s' => Ext r.st s') w hm t1 d0 n0 c0 t2 t3 d n ?_
  intro s y x hy
  cases b hy with
  | expr ht =>
    obtain ⟨o, s', h1, h2, _, h4⟩ := eval_full (E := E) (x.wf w) (fun _ _ h => h.varIs)
      (Val.mono (fun _ _ _ _ h => h) (fun _ _ h => h) (fun _ _ h => IntIs.ext h x) hv) ht
    refine ⟨s', .inl ⟨o, z, h1, rfl, fun out => ?_⟩, x.trans h2⟩
    rw [decimal_unique hz]
    refine prints_int ?_ out
    rcases h4.2 with h4 | ⟨y, h4, h5⟩
    · exact .inl h4
    · obtain ⟨t, g1, g2⟩ := h4.ext h2
      rw [h5] at g1
      cases g1
      rcases g2 with g2 | ⟨c, g2, g3, _⟩
      · exact .inl g2
      · exact .inr ⟨c, g2, g3⟩

/-- C99 for the texts of `C81_tokens_partial`, values in 0 … 2^32 - 1 and expressions that bic gets right; the
expressions may use other constants and variables, too.  No other session is possible. -/
theorem C99_dialogue_partial {E : Env} {fl : Floats} {F : Str → Nat} {cpp : List String → Str → Str} {r : RSt}
    {TN : List T → PT → List T → Prop} {tag : Option String} {es : List (String × Option Expr)} {vs : List (String × Int)}
    {line next z : Str} {e : Expr} {v : Int} (hm : r.lx.mode = .initial) (w : WF r.st) (hc : r.st.ctxs ≠ [])
    (hl : EnumLine (Text (Reads r.ty) Follows) TN (cpp r.st.includes) line tag es)
    (hn : ExprLine (Text (Reads r.ty) Follows) TN (cpp r.st.includes) next e)
    (hx : ∀ x ∈ tag.toList ++ es.map Prod.fst, ¬ DeclaredHere r.st x) (hd : (tag.toList ++ es.map Prod.fst).Nodup)
    (h : Enumerate (Val okOp okTruth) (InRange .uint) (fun y v => IntIs r.st y v ∧ y ∉ tag) 0 es vs)
    (hv : Val okOp okTruth (fun y u => (y, u) ∈ vs ∨ IntIs r.st y u ∧ y ∉ tag ∧ y ∉ es.map Prod.fst) e v) (hz : Decimal v z) :
    (∃ r', Session E fl F cpp r [line, next] [[], z ++ [newline]] none r') ∧
    ∀ outs a r', Session E fl F cpp r [line, next] outs a r' → outs = [[], z ++ [newline]] ∧ a = none := by
  obtain ⟨⟨r1, l1⟩, l2⟩ := C99_declares_partial (E := E) (fl := fl) (F := F) hm w hc hl hx hd h
  have step : ∀ a r1, Line E fl F cpp r line a r1 → a = .shows [] ∧
      ((∃ r', Line E fl F cpp r1 next (.shows (z ++ [newline])) r') ∧ ∀ a r', Line E fl F cpp r1 next a r' → a = .shows (z ++ [newline])) := by
    intro a r1 h1
    obtain ⟨e1, e2, e3, e4, e5, _, e6, e7⟩ := l2 _ _ h1
    have := exprLine (E := E) (fl := fl) (F := F) (cpp := cpp) (TN := TN) (line := next) (e := e) e2 e4 (by rw [e3, e5]; exact hn)
      (Val.mono (fun _ _ _ _ h => h) (fun _ _ h => h) (fun y u hy => by
        rcases hy with hy | ⟨hy, j1, j2⟩
        · exact e6 y u hy
        · exact e7 y u hy j1 j2) hv) hz
    exact ⟨e1, this.1, fun a r' h => (this.2 a r' h).1⟩
  constructor
  · obtain ⟨_, ⟨r2, h2⟩, _⟩ := step _ _ l1
    exact ⟨r2, .cons l1 (.cons h2 .nil)⟩
  · intro outs a r' hs
    cases hs with
    | cons j1 j2 =>
      obtain ⟨e, _, u⟩ := step _ _ j1
      cases e
      cases j2 with
      | cons j3 j4 =>
        cases u _ _ j3
        cases j4
        exact ⟨rfl, rfl⟩
      | ends j3 => cases u _ _ j3
    | ends j1 => exact absurd (step _ _ j1).1 nofun

/-! ### Examples: `enum e{A,B=A+5,C,};` with `C*2+x;`, and `enum{A=0- 1};` with `A;` -/

open TextCheck

def enum99 : W89 :=
  [kw .enum "enum", sp, idn [101] (name1 101), kw .lbrace "{", idn [65] (name1 65), kw .comma ",", idn [66] (name1 66), kw .assign "=", idn [65] (name1 65),
   kw .plus "+", num [53], kw .comma ",", idn [67] (name1 67), kw .comma ",", kw .rbrace "}", kw .semi ";"]
def use99 : W89 := [idn [67] (name1 67), kw .star "*", num [50], kw .plus "+", idn [120] Lexer.name_x, kw .semi ";"]
def neg99 : W89 :=
  [kw .enum "enum", kw .lbrace "{", idn [65] (name1 65), kw .assign "=", num [48], kw .minus "-", sp, num [49], kw .rbrace "}", kw .semi ";"]
def a99 : W89 := [idn [65] (name1 65), kw .semi ";"]

theorem ok99 : (okW enum99 && okW use99 && okW neg99 && okW a99) = true := by decide +kernel

theorem lines99_eq : textW enum99 = ascii "enum e{A,B=A+5,C,};" ∧ textW use99 = ascii "C*2+x;" ∧ textW neg99 = ascii "enum{A=0- 1};" ∧
    textW a99 = ascii "A;" := by decide +kernel

def es99 : List (String × Option Expr) := [("A", none), ("B", some (.bin .add (.var "A") (.lit 5))), ("C", none)]

abbrev noTN : List T → PT → List T → Prop := fun _ _ _ => False

theorem wenum99 : WEnum cTable noTN (some "e") es99 (toksW enum99) :=
  .tagged (s := [101]) (.more (.name (s := [65])) (.more (.value (s := [66]) ⟨.bin .add (.ident [65]) (.int 5), .bin (o := .add) (by decide) .ident .int,
    .bin (bo := .add) rfl .ident .int⟩) (.one (.name (s := [67]))))) .comma

theorem wuse99 : WInput cTable noTN (.expr (.bin .add (.bin .mul (.var "C") (.lit 2)) (.var "x"))) (toksW use99) :=
  .expr ⟨.bin .add (.bin .mul (.ident [67]) (.int 2)) (.ident [120]), .bin (o := .add) (by decide) (.bin (o := .mul) (by decide) .ident .int) .ident,
    .bin (bo := .add) rfl (.bin (bo := .mul) rfl .ident .int) .ident⟩

theorem wneg99 : WEnum cTable noTN none [("A", some (.bin .sub (.lit 0) (.lit 1)))] (toksW neg99) :=
  .anonymous (.one (.value (s := [65]) ⟨.bin .sub (.int 0) (.int 1), .bin (o := .sub) (by decide) .int .int, .bin (bo := .sub) rfl .int .int⟩)) .brace

theorem wa99 : WInput cTable noTN (.expr (.var "A")) (toksW a99) := .expr ⟨.ident [65], .ident, .ident⟩

theorem enumLine99 {Tx : List T → Str → Prop} {l : W89} {tag es} (h : Tx (toksW l) (textW l)) (hw : WEnum cTable noTN tag es (toksW l))
    (hn : newline ∉ textW l) : EnumLine Tx noTN (cpp89 []) (textW l) tag es :=
  ⟨⟨_, _, _, h, hw⟩, ⟨_, _, lastLine89 hn, h, hw⟩⟩

theorem exprLine99 {Tx : List T → Str → Prop} {l : W89} {e} (h : Tx (toksW l) (textW l)) (hw : WInput cTable noTN (.expr e) (toksW l))
    (hn : newline ∉ textW l) : ExprLine Tx noTN (cpp89 []) (textW l) e :=
  ⟨⟨_, _, h, hw⟩, ⟨_, _, lastLine89 hn, h, hw⟩⟩

theorem fresh99 {x : String} (h : x ≠ "x") : ¬ DeclaredHere r89.st x := by
  rintro ⟨b, hb, rfl⟩
  have : b = ⟨"x", 2, some 1⟩ := by simpa [localIds, r89, st89, stOf, ctx1, Ctx.map] using hb
  subst this
  exact h rfl

theorem x99 : IntIs r89.st "x" 0 :=
  ⟨1, rfl, .inr ⟨.int, trivial, ⟨0, 4096, ⟨⟨_, _, rfl⟩, ⟨_, rfl⟩, .inl trivial, by decide +kernel⟩, by decide +kernel⟩, by decide⟩⟩

example (fl : Floats) (F : Str → Nat) :
    (∃ r', Session E0 fl F cpp89 r89 [textW enum99, textW use99] [[], ascii "12" ++ [newline]] none r') ∧
    ∀ outs a r', Session E0 fl F cpp89 r89 [textW enum99, textW use99] outs a r' → outs = [[], ascii "12" ++ [newline]] ∧ a = none := by
  have h := ok99
  simp only [Bool.and_eq_true] at h
  obtain ⟨⟨⟨h1, h2⟩, -⟩, -⟩ := h
  refine C99_dialogue_partial (vs := [("A", 0), ("B", 5), ("C", 6)]) (v := 12) rfl (stOf_WF _ _ _) (List.cons_ne_nil _ _)
    (enumLine99 (okW_text h1) wenum99 (by decide +kernel)) (exprLine99 (okW_text h2) wuse99 (by decide +kernel)) ?_ (by decide) ?_ ?_ ?_
  · intro x hx
    refine fresh99 ?_
    rintro rfl
    revert hx
    decide
  · exact .next (by decide) (.explicit (.bin (x := 0) (.var (by simp [hide])) (.lit _) ⟨rfl, trivial⟩) (by decide) (.next (by decide) .nil))
  · exact .bin (x := 12) (.bin (x := 6) (.var (.inl (by simp))) (.lit _) ⟨rfl, trivial⟩) (.var (.inr ⟨x99, by decide, by decide⟩)) ⟨rfl, trivial⟩
  · exact ⟨ascii "12", by unfold CText.Digits; decide +kernel, .inr (by decide +kernel), .inl ⟨rfl, by decide +kernel⟩⟩

/-- what bic shows for `A;` after `enum{A=0- 1};` -/
theorem neg99_shown (fl : Floats) (F : Str → Nat) {outs : List Str} {a} {r' : RSt}
    (hs : Session E0 fl F cpp89 r89 [textW neg99, textW a99] outs a r') : outs = [[], [49] ++ [newline]] := by
  have h := ok99
  simp only [Bool.and_eq_true] at h
  obtain ⟨⟨_, h1⟩, h2⟩ := h
  obtain ⟨q, d, n, k, b⟩ := enum_der wneg99
  have l := line_shows (E := E0) (fl := fl) (F := F) (cpp := cpp89) (r := r89) (P := fun s' => WF s' ∧ s'.includes = r89.st.includes ∧ IntIs s' "A" 1)
    (out := []) (stOf_WF _ _ _) rfl (okW_text h1) (.ruOne (.rsDecl d)) n k (lastLine89 (by decide +kernel)) (okW_text h1) (.ruOne (.rsDecl d)) n ?_
  · cases hs with
    | cons j1 j2 =>
      obtain ⟨e1, e2, e3, e4, e5, e6⟩ := l.2 _ _ j1
      cases e1
      have u := exprLine (E := E0) (fl := fl) (F := F) (cpp := cpp89) (line := textW a99) (z := [49]) e2 e4
        (by rw [e3, e5]; exact exprLine99 (okW_text h2) wa99 (by decide +kernel)) (.var e6)
        ⟨[49], by unfold CText.Digits; decide, .inr (by decide), .inl ⟨rfl, by decide⟩⟩
      cases j2 with
      | cons j3 j4 =>
        cases (u.2 _ _ j3).1
        cases j4
        rfl
      | ends j3 => cases (u.2 _ _ j3).1
    | ends j1 => cases (l.2 _ _ j1).1
  · intro s y x hy
    obtain ⟨specs, off, c, name, l, ts, g1, g2, g3, g4, g5, g6⟩ := b hy
    cases name with
    | some _ => exact g5.elim
    | none =>
      obtain ⟨o, s', c1, ⟨o', c2, c3⟩, c4, c5, c6⟩ := enumOne_conv (E := E0) (ρ := fun _ _ => False) (v := -1) (x.wf (stOf_WF _ _ _))
        (by rw [x.ctxs]; exact List.cons_ne_nil _ _) g3 g4 g6 (fun h => fresh99 (x := "A") (by decide) ((DeclaredHere.ext x _).mp h)) nofun
        (.bin (.lit _) (.lit _) ⟨rfl, trivial⟩)
      exact ⟨s', .inr ⟨enumDecl_conv g1 g2 g3 c4 c1, rfl⟩, c5, c6.trans x.includes, o', c2, .inl c3⟩

/-- C99 is false: after `enum{A=0- 1};` bic shows 1 for `A;`. -/
theorem C99_refuted : ¬ C99_statement := by
  intro h
  have hok := ok99
  simp only [Bool.and_eq_true] at hok
  obtain ⟨⟨_, h1⟩, h2⟩ := hok
  obtain ⟨r', h3⟩ := h E0 ⟨fun _ => [], fun _ _ => []⟩ (fun _ => 0) cpp89 r89 noTN none [("A", some (.bin .sub (.lit 0) (.lit 1)))] [("A", -1)]
    (textW neg99) (textW a99) (ascii "-1") (.var "A") (-1) rfl (stOf_WF _ _ _) (List.cons_ne_nil _ _)
    (enumLine99 (okW_ctext h1) wneg99 (by decide +kernel)) (exprLine99 (okW_ctext h2) wa99 (by decide +kernel))
    (fun x hx => fresh99 (by rintro rfl; revert hx; decide)) (by decide) (.explicit (.bin (.lit _) (.lit _) rfl) (by decide) .nil) (.var (by simp))
    ⟨[49], by unfold CText.Digits; decide, .inr (by decide), .inr ⟨by decide +kernel, by decide, by decide⟩⟩
  have := neg99_shown _ _ h3
  exact absurd this (by decide +kernel)

end Bic.Repl
