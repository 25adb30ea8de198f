import Verif.Props.TypedOne
import Verif.Props.Dialogue
/-!
# C144: dialogues with the types of C
-/

namespace Bic.Repl
open Spec CSyn
open Lexer (Reads Follows)
open _root_.Bic.Parser (PT T K nameStr)
open Printer (Floats)
open CText (Text Str ascii)

/-- `TReply L S σ p out σ' n`: for `p` the text `out` is shown, the store is `σ'` then, `n` variables have been created. Like `Reply`, with the
values and types of C (6.5, 6.5.2.4, 6.5.3.1, 6.5.16p3). -/
inductive TReply (L : TRules) (S : Shows) : Store → Input → Str → Store → Nat → Prop
  | expr {σ e v t} : L.value σ e v → Decimal v t → TReply L S σ (.expr e) (t ++ [10]) σ 0
  | set {σ x e c u v w z t} : σ.Has x c u → L.asg σ c e v → Converts c v w → S.asg v w z → Decimal z t →
      TReply L S σ (.set x e) (t ++ [10]) (σ.write x w) 0
  | post {σ x d c v r w t} : σ.Vars x c v → TResult Converts (common c .int) (v + d) r → Converts c r w → S.step v → Decimal v t →
      TReply L S σ (.post x d) (t ++ [10]) (σ.write x w) 0
  | pre {σ x d c v r w t} : σ.Vars x c v → TResult Converts (common c .int) (v + d) r → Converts c r w → S.step w → Decimal w t →
      TReply L S σ (.pre x d) (t ++ [10]) (σ.write x w) 0
  | decl {σ c ds x e σ'} : integral c → TDeclares L c σ ds σ' → ds.getLast? = some (x, e) →
      TReply L S σ (.decl c ds) (ascii x ++ [10]) σ' ds.length
  | empty {σ} : TReply L S σ .empty [] σ 0

/-- one input after the other -/
inductive TDialogue (L : TRules) (S : Shows) : Store → List Input → List Str → Store → Nat → Prop
  | nil {σ} : TDialogue L S σ [] [] σ 0
  | cons {σ p out σ1 n ps outs σ2 m} : TReply L S σ p out σ1 n → TDialogue L S σ1 ps outs σ2 m →
      TDialogue L S σ (p :: ps) (out :: outs) σ2 (n + m)

/-- C144: for each line bic shows the value C gives it, with the types C gives the parts of expressions, and the variables keep the values C gives
them from line to line. -/
def C144_statement : Prop :=
  ∀ (E : Env) (fl : Floats) (F : Str → Nat) (cpp : List String → Str → Str) (r : RSt) (TN : List T → PT → List T → Prop) (σ σ' : Store)
    (ls outs : List Str) (ps : List Input) (n : Nat), r.lx.mode = .initial → Good r.st σ n →
    Typed (CText.CText r.ty) TN (cpp r.st.includes) ls ps → TDialogue cTyped cShows σ ps outs σ' n →
    ∃ r', Session E fl F cpp r ls outs none r' ∧ Rel r'.st σ'

/-- the rules of `okTyped` without assignments of values that wrap around, whose value is shown as computed -/
def okTalk : TRules :=
  { okTyped with asg := fun σ c e v => PlainValue σ e v ∧ (computed e = true ∨ ∃ y d, e = .var y ∧ σ.Has y d (some v) ∧ width c ≤ width d) }

theorem talk_asg {σ : Store} {c : CT} {e : Expr} {v : Int} (h : okTalk.asg σ c e v) : okRules.Value σ e v ∧ okAsg σ c e v := by
  have hb := (PlainValue.ok h.1).2
  simp [InRange, lo, hi, width, signed] at hb
  exact ⟨(PlainValue.ok h.1).1, h.2.imp (fun h => ⟨h, .inr ⟨by omega, by omega⟩⟩) id⟩

theorem talk_declares {c : CT} {σ σ' : Store} {ds} (h : TDeclares okTalk c σ ds σ') : Declares okRules c σ ds σ' := by
  induction h with
  | nil => exact .nil
  | plain h _ ih => exact .plain h ih
  | init h h1 _ ih =>
    refine .init h ?_ ih
    cases h1 with
    | set k1 k2 k3 => exact .set k1 (talk_asg k2).1 (talk_asg k2).2 k3

theorem talk_reply {σ σ' : Store} {p out n} {S : Shows} (h : TReply okTalk S σ p out σ' n) : Reply okRules S σ p out σ' n := by
  cases h with
  | expr h1 h2 => exact .expr (PlainValue.ok h1).1 h2
  | set h1 h2 h3 h4 h5 => exact .set h1 (talk_asg h2).1 (talk_asg h2).2 h3 h4 h5
  | post h1 h2 h3 h4 h5 => exact .post h1.1 (step_converts h1.2.1 h2 h3) h4 h5
  | pre h1 h2 h3 h4 h5 => exact .pre h1.1 (step_converts h1.2.1 h2 h3) h4 h5
  | decl h1 h2 h3 => exact .decl h1 (talk_declares h2) h3
  | empty => exact .empty

theorem talk_dialogue {σ σ' : Store} {ps outs n} {S : Shows} (h : TDialogue okTalk S σ ps outs σ' n) : Dialogue okRules S σ ps outs σ' n := by
  induction h with
  | nil => exact .nil
  | cons h1 _ ih => exact .cons (talk_reply h1) ih

/-- C144 for the values of `PlainValue`: in an expression either no operands of type `unsigned int`, `unsigned long` and `unsigned long long`, or no
value that wraps around; assigned values fit (`okShows`); steps may wrap around. No other session is possible. Missing are expressions that wrap
around, and what is missing in `C89_dialogue_partial`. -/
theorem C144_dialogue_partial {E : Env} {fl : Floats} {F : Str → Nat} {cpp : List String → Str → Str} {r : RSt}
    {TN : List T → PT → List T → Prop} {σ σ' : Store} {ls outs : List Str} {ps : List Input} {n : Nat} (hm : r.lx.mode = .initial)
    (g : Good r.st σ n) (ht : Typed (Text (Reads r.ty) Follows) TN (cpp r.st.includes) ls ps) (h : TDialogue okTalk okShows σ ps outs σ' n) :
    (∃ r', Session E fl F cpp r ls outs none r' ∧ Rel r'.st σ') ∧
    ∀ outs' w r', Session E fl F cpp r ls outs' w r' → outs' = outs ∧ w = none ∧ Rel r'.st σ' :=
  C89_dialogue_partial hm g ht (talk_dialogue h)

/-! ## The dialogues of `okTalk` are dialogues of C -/

theorem talk_declares_c {c : CT} {σ σ' : Store} {ds} (h : TDeclares okTalk c σ ds σ') : TDeclares cTyped c σ ds σ' := by
  induction h with
  | nil => exact .nil
  | plain h _ ih => exact .plain h ih
  | init h h1 _ ih =>
    refine .init h ?_ ih
    cases h1 with
    | set k1 k2 k3 => exact .set k1 (PlainValue.c k2.1) k3

theorem talk_reply_c {σ σ' : Store} {p out n} (h : TReply okTalk okShows σ p out σ' n) : TReply cTyped cShows σ p out σ' n := by
  cases h with
  | expr h1 h2 => exact .expr (PlainValue.c h1) h2
  | set h1 h2 h3 h4 h5 => exact .set h1 (PlainValue.c h2.1) h3 h4.1 h5
  | post h1 h2 h3 h4 h5 => exact .post h1 h2 h3 trivial h5
  | pre h1 h2 h3 h4 h5 => exact .pre h1 h2 h3 trivial h5
  | decl h1 h2 h3 => exact .decl h1 (talk_declares_c h2) h3
  | empty => exact .empty

/-- what `C144_dialogue_partial` says is shown is what C gives -/
theorem okTalk_c {σ σ' : Store} {ps outs n} (h : TDialogue okTalk okShows σ ps outs σ' n) : TDialogue cTyped cShows σ ps outs σ' n := by
  induction h with
  | nil => exact .nil
  | cons h1 _ ih => exact .cons (talk_reply_c h1) ih

theorem reply_unique {σ σ1 σ2 : Store} {p o1 o2 n m} (h : TReply cTyped cShows σ p o1 σ1 n) (h' : TReply cTyped cShows σ p o2 σ2 m) :
    o1 = o2 ∧ σ1 = σ2 ∧ n = m := by
  have du : ∀ {v t t'}, Decimal v t → Decimal v t' → t = t' := fun h h' => (decimal_unique h).trans (decimal_unique h').symm
  cases h with
  | expr h1 h2 =>
    cases h' with
    | expr k1 k2 => cases cValue_unique h1 k1; rw [du h2 k2]; exact ⟨rfl, rfl, rfl⟩
  | set h1 h2 h3 h4 h5 =>
    cases h' with
    | set k1 k2 k3 k4 k5 =>
      cases has_type h1 k1
      cases cValue_unique h2 k2
      cases conv_unique h3 k3
      cases (show _ = _ from h4)
      cases (show _ = _ from k4)
      rw [du h5 k5]; exact ⟨rfl, rfl, rfl⟩
  | post h1 h2 h3 _ h5 =>
    cases h' with
    | post k1 k2 k3 _ k5 =>
      obtain ⟨rfl, rfl⟩ := vars_unique _ _ _ _ _ h1 k1
      cases step_unique h2 k2
      cases conv_unique h3 k3
      rw [du h5 k5]; exact ⟨rfl, rfl, rfl⟩
  | pre h1 h2 h3 _ h5 =>
    cases h' with
    | pre k1 k2 k3 _ k5 =>
      obtain ⟨rfl, rfl⟩ := vars_unique _ _ _ _ _ h1 k1
      cases step_unique h2 k2
      cases conv_unique h3 k3
      rw [du h5 k5]; exact ⟨rfl, rfl, rfl⟩
  | decl _ h2 h3 =>
    cases h' with
    | decl _ k2 k3 =>
      cases h3.symm.trans k3
      exact ⟨rfl, tdeclares_unique (Φ := fun _ => none) h2 k2, rfl⟩
  | empty => cases h'; exact ⟨rfl, rfl, rfl⟩

/-- C's semantics with types gives the lines of a dialogue at most one text each and at most one final store -/
theorem C144_one_outcome {σ σ1 σ2 : Store} {ps o1 o2 n m} (h : TDialogue cTyped cShows σ ps o1 σ1 n) (h' : TDialogue cTyped cShows σ ps o2 σ2 m) :
    o1 = o2 ∧ σ1 = σ2 ∧ n = m := by
  induction h generalizing o2 σ2 m with
  | nil => cases h'; exact ⟨rfl, rfl, rfl⟩
  | cons h1 _ ih =>
    cases h' with
    | cons k1 k2 =>
      obtain ⟨rfl, rfl, rfl⟩ := reply_unique h1 k1
      obtain ⟨rfl, rfl, rfl⟩ := ih k2
      exact ⟨rfl, rfl, rfl⟩

/-! ## `int y=7;`, `x=y+2;`, `x++;`, `x;`, `;` -/

theorem tdialogue89 : TDialogue okTalk okShows (store34 (some 0)) inputs89 outs89 (store89 10) 1 := by
  have hlike : SignedLike .int := ⟨trivial, by decide⟩
  refine .cons (n := 1) (m := 0) (σ1 := store89 0) (p := .decl .int [("y", some (.lit 7))]) (out := ascii "y" ++ [10])
    (.decl (x := "y") (e := some (.lit 7)) (by decide) (.init rfl (.set (c := .int) (u := none)
    (v := 7) (w := 7) rfl ⟨.inl ⟨.int, .lit (.inl ⟨rfl, by decide⟩)⟩, .inl rfl⟩ (conv_self (by decide))) .nil) rfl) ?_
  refine .cons (n := 0) (m := 0) (out := [57] ++ [10]) (.set (c := .int) (u := some 0) (v := 9) (w := 9) rfl
    ⟨.inl ⟨_, .arith (c := .int) (d := .int) (x := 7) (y := 2) (x' := 7) (y' := 2) (z := 9) rfl (.var ⟨⟨rfl, trivial, by decide⟩, hlike⟩)
      (.lit (.inl ⟨rfl, by decide⟩)) (conv_self (by decide)) (conv_self (by decide)) trivial (by simp [cOp]) ⟨rfl, by decide⟩⟩, .inl rfl⟩
    (conv_self (by decide)) ⟨rfl, rfl⟩ ⟨[57], by unfold CText.Digits; decide, .inr (by decide), .inl ⟨rfl, by decide⟩⟩) ?_
  refine .cons (n := 0) (m := 0) (out := [57] ++ [10]) (.post (c := .int) (v := 9) (r := 10) (w := 10) ⟨rfl, trivial, by decide⟩ ⟨rfl, by decide⟩
    (conv_self (by decide)) (show InRange .long _ by decide)
    ⟨[57], by unfold CText.Digits; decide, .inr (by decide), .inl ⟨rfl, by decide⟩⟩) ?_
  refine .cons (n := 0) (m := 0) (out := [49, 48] ++ [10]) (.expr (v := 10) (.inl ⟨.int, .var ⟨⟨rfl, trivial, by decide⟩, hlike⟩⟩)
    ⟨[49, 48], by unfold CText.Digits; decide, .inr (by decide), .inl ⟨rfl, by decide⟩⟩) ?_
  exact .cons (n := 0) (m := 0) (out := []) .empty .nil

example (fl : Floats) (F : Str → Nat) : (∃ r', Session E0 fl F cpp89 r89 lines89 outs89 none r' ∧ Rel r'.st (store89 10)) ∧
    ∀ outs' w r', Session E0 fl F cpp89 r89 lines89 outs' w r' → outs' = outs89 ∧ w = none ∧ Rel r'.st (store89 10) :=
  C144_dialogue_partial rfl (good89 1 (by omega)) typed89 tdialogue89

/-- C shows nothing else for these lines -/
example {outs : List Str} {σ : Store} {m : Nat} (h : TDialogue cTyped cShows (store34 (some 0)) inputs89 outs σ m) : outs = outs89 ∧ σ = store89 10 :=
  let h := C144_one_outcome (okTalk_c tdialogue89) h
  ⟨h.1.symm, h.2.1.symm⟩

/-! ## With `unsigned x = 0`, bic shows -1 for `x - 1;`. -/

open TextCheck

def sub144 : W89 := [idn [120] Lexer.name_x, sp, kw .minus "-", sp, num [49], kw .semi ";"]

theorem ok144 : okW sub144 = true := by decide +kernel

def r144 : RSt := ⟨Lexer.start, fun _ => false, st143⟩

theorem typed144 {Tx : List T → Str → Prop} (h : Tx (toksW sub144) (textW sub144)) :
    Typed Tx (fun _ _ _ => False) (cpp89 []) [textW sub144] [.expr (.bin .sub (.var "x") (.lit 1))] := by
  have hw : WInput cTable (fun _ _ _ => False) (.expr (.bin .sub (.var "x") (.lit 1))) (toksW sub144) :=
    .expr ⟨.bin .sub (.ident [120]) (.int 1), .bin (o := .sub) (by decide) .ident .int, .bin (bo := .sub) rfl .ident .int⟩
  exact .cons h hw (lastLine89 (by decide +kernel)) h hw .nil

/-- C144 is false: for `x - 1;` with `unsigned x = 0` bic shows -1, C has 4294967295. -/
theorem C144_refuted : ¬ C144_statement := by
  intro h
  have hC : TDialogue cTyped cShows (store143 0) [.expr (.bin .sub (.var "x") (.lit 1))] [ascii "4294967295" ++ [10]] (store143 0) 0 := by
    refine .cons (n := 0) (m := 0) (.expr (v := 4294967295) ⟨.uint, ?_⟩ ?_) .nil
    · exact .arith (o := .sub) (c := .uint) (d := .int) (x := 0) (y := 1) (x' := 0) (y' := 1) (z := -1) rfl (.var ⟨rfl, trivial, by decide⟩)
        (.lit (.inl ⟨rfl, by decide⟩)) (conv_self (by decide)) (conv_self (by decide)) trivial (by simp [cOp])
        (show Converts .uint (-1) 4294967295 from ⟨by decide, -1, by decide⟩)
    · exact ⟨ascii "4294967295", by unfold CText.Digits; decide +kernel, .inr (by decide +kernel), .inl ⟨rfl, by decide +kernel⟩⟩
  have hB : Dialogue okRules bicShows (store143 0) [.expr (.bin .sub (.var "x") (.lit 1))] [ascii "-1" ++ [10]] (store143 0) 0 := by
    refine .cons (n := 0) (m := 0) (.expr (v := -1) (.bin (.var ⟨.uint, rfl, show InRange .long _ by decide⟩) (.lit 1) ⟨by simp [cOp], by simp [side]⟩) ?_) .nil
    exact ⟨ascii "1", by unfold CText.Digits; decide +kernel, .inr (by decide +kernel), .inr ⟨by decide +kernel, by decide +kernel, by decide +kernel⟩⟩
  obtain ⟨r', h1, _⟩ := h E0 ⟨fun _ => [], fun _ _ => []⟩ (fun _ => 0) cpp89 r144 (fun _ _ _ => False) (store143 0) (store143 0)
    [textW sub144] _ _ 0 rfl good143 (typed144 (okW_ctext ok144)) hC
  have h2 := (C89_shown (E := E0) (fl := ⟨fun _ => [], fun _ _ => []⟩) (F := fun _ => 0) (r := r144) (cpp := cpp89) (n := 0) rfl good143
    (typed144 (okW_text ok144)) hB).2 _ _ _ h1
  exact absurd h2.1 (by decide +kernel)

end Bic.Repl
