import Verif.Model.Lexer
/-!
# Regular expressions: what they match, and how flex chooses a rule
-/

namespace Bic.Lexer

/-- the texts a regular expression describes -/
inductive Matches : Re → Str → Prop
  | eps : Matches .eps []
  | cls {p c} : p c = true → Matches (.cls p) [c]
  | seq {a b u v} : Matches a u → Matches b v → Matches (.seq a b) (u ++ v)
  | altL {a b u} : Matches a u → Matches (.alt a b) u
  | altR {a b u} : Matches b u → Matches (.alt a b) u
  | nil {a} : Matches (.star a) []
  | cons {a u v} : Matches a u → Matches (.star a) v → Matches (.star a) (u ++ v)

/-- rule `r` is active and matches the non-empty text `w` -/
def Applies (m : Mode) (r : Rule) (w : Str) : Prop := m ∈ r.modes ∧ Matches r.re w ∧ w ≠ []

/-- flex's choice for input `s`: rule `r`, which matches the prefix `w` of `s`; no rule matches a
longer prefix and no rule before `r` matches `w` -/
def Chosen (m : Mode) (s : Str) (rs : List Rule) (w : Str) (r : Rule) : Prop :=
  w <+: s ∧ Applies m r w ∧ (∀ r' ∈ rs, ∀ w', w' <+: s → Applies m r' w' → w'.length ≤ w.length) ∧
    ∃ before after, rs = before ++ r :: after ∧ ∀ r' ∈ before, ¬ Applies m r' w

end Bic.Lexer
