import Verif.Spec.Dialogue
import Verif.Spec.Literal
/-!
# Shown values (specification)

How the REPL is to show addresses, strings and structures: addresses as the GNU C library prints them
with `%p` (README.org:131), structures with one member per line, indented by depth.
-/

namespace Bic.Spec
open CText (Str ascii)

/-- the text of a number in hexadecimal notation, in small letters and without superfluous zeros -/
def HexNumeral (n : Nat) (t : Str) : Prop :=
  t ≠ [] ∧ (∀ c ∈ t, 48 ≤ c ∧ c ≤ 57 ∨ 97 ≤ c ∧ c ≤ 102) ∧ (t = [48] ∨ t.head? ≠ some 48) ∧ hexVal t = n

/-- the text of an address -/
def AddressText (a : Nat) (t : Str) : Prop :=
  a = 0 ∧ t = ascii "(nil)" ∨ a ≠ 0 ∧ ∃ ds, HexNumeral a ds ∧ t = ascii "0x" ++ ds

/-- the text of a pointer to characters, which it points to if it is not null -/
def CharPtrText (a : Nat) (chars : Str) (t : Str) : Prop :=
  a = 0 ∧ t = ascii "(nil)" ∨ a ≠ 0 ∧ ∃ u, AddressText a u ∧ t = u ++ ascii " (\"" ++ chars ++ ascii "\")"

/-- a value to be shown: a text without structure or the members with their names -/
inductive Shape where
  | leaf (t : Str)
  | comp (ms : List (String × Shape))

/-- four blanks for each level -/
def tabs (d : Nat) : Str := (List.replicate d (ascii "    ")).flatten

mutual
/-- the lines of a value at nesting depth `d`: the members one per line, one level deeper than the
closing brace, which stands `close d` levels deep -/
def Shape.lines (close : Nat → Nat) : Nat → Shape → Str
  | _, .leaf t => t
  | d, .comp ms => ascii "{\n" ++ Shape.memberLines close (d + 1) ms ++ tabs (close d) ++ ascii "}"
def Shape.memberLines (close : Nat → Nat) : Nat → List (String × Shape) → Str
  | _, [] => []
  | d, (x, v) :: ms => tabs d ++ ascii "." ++ ascii x ++ ascii " = " ++ Shape.lines close d v ++ ascii "\n" ++ Shape.memberLines close d ms
end

/-- each closing brace stands as deep as the line of its opening brace -/
def Shape.text (v : Shape) : Str := v.lines id 0

/-- no structures within -/
def Shape.Flat : Shape → Prop
  | .leaf _ => True
  | .comp ms => ∀ m ∈ ms, ∃ t, m.2 = .leaf t

end Bic.Spec
