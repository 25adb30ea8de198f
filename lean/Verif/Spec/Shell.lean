import Verif.Spec.Text
/-!
# Commands of the shell (POSIX.1 2.3, 2.6.5)

Only for commands without quotes and characters special to the shell: the words are what stands
between blanks.
-/

namespace Bic.Spec
open CText (Str ascii)

def isBlank (c : UInt8) : Bool := c == 32 || c == 9 || c == 10

/-- `Fields t ws`: the words of `t` are `ws` -/
inductive Fields : Str → List Str → Prop
  | nil : Fields [] []
  | blank {c t ws} : isBlank c = true → Fields t ws → Fields (c :: t) ws
  | word {w t ws} : w ≠ [] → (∀ c ∈ w, isBlank c = false) → (∀ c, t.head? = some c → isBlank c = true) → Fields t ws → Fields (w ++ t) (w :: ws)

/-- letters, digits and the characters that mean nothing to the shell wherever they stand -/
def plainChar (c : UInt8) : Bool :=
  CText.isLetter c || CText.isDigit c || c == 47 || c == 46 || c == 45 || c == 43 || c == 44 || c == 58 || c == 64 || c == 37

end Bic.Spec
