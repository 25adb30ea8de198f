import Verif.Spec.Print
import Verif.Spec.CInt
/-!
# What the inspector is to say (README.org:119-133)

The form of the lines is the one of the program, which leaves out the full stops at the ends of the
second and the fourth line of the example in the README.
-/

namespace Bic.Spec
open CText (Str ascii)

/-- a type: an integer type or a pointer to a type -/
inductive ObjType where
  | base (c : CT)
  | ptr (t : ObjType)

/-- the names of the integer types (C11 6.2.5), with `int` spelt out -/
def intWords : CT → Option String
  | .char => some "signed char"
  | .short => some "signed short"
  | .int => some "signed integer"
  | .long => some "signed long"
  | .longlong => some "signed long long"
  | .uchar => some "unsigned char"
  | .ushort => some "unsigned short"
  | .uint => some "unsigned integer"
  | .ulong => some "unsigned long"
  | .ulonglong => some "unsigned long long"
  | _ => none

/-- a type in words -/
inductive Words : ObjType → Str → Prop
  | base {c w} : intWords c = some w → Words (.base c) (ascii w)
  | ptr {t w} : Words t w → Words (.ptr t) (ascii "pointer to a " ++ w)

/-- its size on the platform -/
def ObjType.size : ObjType → Nat
  | .base c => width c / 8
  | .ptr _ => 8

/-- the four lines about a variable: type, value, size, place of its declaration -/
def InspectText (x : Str) (t : ObjType) (size : Nat) (value file : Str) (line : Nat) (out : Str) : Prop :=
  ∃ w z l, Words t w ∧ Decimal size z ∧ Decimal line l ∧
    out = x ++ ascii " is a " ++ w ++ ascii ".\n" ++ (ascii "value of " ++ x ++ ascii " is " ++ value ++ ascii "\n") ++
      (ascii "sizeof(" ++ x ++ ascii ") = " ++ z ++ ascii " bytes.\n") ++ (x ++ ascii " was declared at: " ++ file ++ ascii ":" ++ l ++ ascii "\n")

end Bic.Spec
