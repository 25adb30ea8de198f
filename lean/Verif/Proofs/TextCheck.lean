import Verif.Props.Text
/-!
# Texts as lists of words

For examples: `okW` checks that words can stand next to each other.
-/

namespace Bic.TextCheck
open CText (Text Str ascii spell isTag)
open Lexer (Reads Follows dropped)
open Bic.Parser (T K)

/-- a token and how it is written -/
structure Wd (ty : Str → Bool) where
  t : T
  w : Str
  tag : isTag t = false
  reads : Reads ty t w

variable {ty : Str → Bool}

/-- the text; `none` stands for a space -/
def textW : List (Option (Wd ty)) → Str
  | [] => []
  | none :: l => 32 :: textW l
  | some a :: l => a.w ++ textW l

def toksW : List (Option (Wd ty)) → List T
  | [] => []
  | none :: l => toksW l
  | some a :: l => a.t :: toksW l

def okW : List (Option (Wd ty)) → Bool
  | [] => true
  | none :: l => okW l
  | some a :: l =>
    (match (textW l).head? with
      | none => true
      | some c => decide (¬ Follows a.t a.w c)) && okW l

theorem okW_text : {l : List (Option (Wd ty))} → okW l = true → Text (Reads ty) Follows (toksW l) (textW l)
  | [], _ => .nil
  | none :: l, h => .space (by decide) (okW_text (l := l) h)
  | some a :: l, h => by
    simp only [okW, Bool.and_eq_true] at h
    refine .tok a.tag a.reads ?_ (okW_text h.2)
    intro c hc
    have h1 := h.1
    rw [hc] at h1
    exact of_decide_eq_true h1

theorem okW_ctext : {l : List (Option (Wd ty))} → okW l = true → CText.CText ty (toksW l) (textW l)
  | [], _ => .nil
  | none :: l, h => .space (by decide) (okW_ctext (l := l) h)
  | some a :: l, h => by
    simp only [okW, Bool.and_eq_true] at h
    refine .tok a.tag a.reads.spells ?_ (okW_ctext h.2)
    intro c hc hx
    have h1 := h.1
    rw [hc] at h1
    exact of_decide_eq_true h1 (.inl hx)

def kw (k : K) (s : String) (h1 : spell k = some s := by rfl) (h2 : isTag (.p k) = false := by rfl) (h3 : dropped k = false := by rfl) :
    Option (Wd ty) := some ⟨.p k, ascii s, h2, .word h1 h3⟩

def num (ds : Str) (h : CText.Digits ds := by unfold CText.Digits; decide) (h1 : ds = [48] ∨ ds.head? ≠ some 48 := by decide) : Option (Wd ty) :=
  some ⟨.integer (CText.decVal ds), ds, rfl, .dec h h1⟩

def idn (x : Str) (h : CText.IsName x) (h1 : x ≠ ascii "inline__" := by decide) (h2 : ty x = false := by rfl) : Option (Wd ty) :=
  some ⟨.ident x, x, rfl, .ident h h1 h2⟩

abbrev sp : Option (Wd ty) := none

/-- names of one letter -/
theorem name1 (c : UInt8) (h : CText.isLetter c = true := by decide) : CText.IsName [c] := by
  refine ⟨⟨c, [], rfl, h, by simp⟩, fun hm => ?_, by simp, by simp⟩
  have : ∀ w ∈ CText.keywords.map ascii, 2 ≤ w.length := by decide +kernel
  exact absurd (this _ hm) (by simp)

end Bic.TextCheck
