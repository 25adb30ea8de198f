import Verif.Spec.Print
/-!
# Dialogues with a string (specification)

Lines that declare a pointer to a string, show the string, read and write its characters and make the pointer point to
other strings, and what C shows for them.
-/

namespace Bic.Spec
open CText (Str ascii)

inductive ChInput
  /-- `"…";` -/
  | lit (bs : Str)
  /-- `p = "…";` -/
  | assign (bs : Str)
  /-- `p;` -/
  | value
  /-- `*p;` -/
  | first
  /-- `p[i];` -/
  | get (i : Expr)
  /-- `p[i] = e;` -/
  | set (i e : Expr)

/-- `t` are the characters of the string these bytes begin with: those before the first NUL -/
def CString (buf t : Str) : Prop := 0 ∉ t ∧ ∃ rest, buf = t ++ 0 :: rest

/-- the value of a byte as a `char`, which is signed -/
def charVal (b : UInt8) : Int := Int.bmod b.toNat 256

/-- the answer to one line; the pointer points to these bytes at this address.  `idx` gives the values of subscripts,
`val` those of the expressions assigned; `shows v w z` says that for the assignment of `v`, converted to `w`, the value
`z` is shown, and `asg m t o` that for the assignment of a string with the characters `t` at the address `m` the text
`o` is shown. -/
inductive ChReply (idx val : Expr → Int → Prop) (shows : Int → Int → Int → Prop) (asg : Nat → Str → Str → Prop) :
    Nat × Str → ChInput → Str → Nat × Str → Prop
  | lit {π bs t} : CString (bs ++ [0]) t → ChReply idx val shows asg π (.lit bs) (ascii "\"" ++ t ++ ascii "\"" ++ [10]) π
  | assign {π bs m t o} : m ≠ 0 → CString (bs ++ [0]) t → asg m t o → ChReply idx val shows asg π (.assign bs) (o ++ [10]) (m, bs ++ [0])
  | value {m buf t o} : CString buf t → CharPtrText m t o → ChReply idx val shows asg (m, buf) .value (o ++ [10]) (m, buf)
  | first {m buf b o} : buf[0]? = some b → Decimal (charVal b) o → ChReply idx val shows asg (m, buf) .first (o ++ [10]) (m, buf)
  | get {m buf i b o} {j : Nat} : idx i j → buf[j]? = some b → Decimal (charVal b) o →
      ChReply idx val shows asg (m, buf) (.get i) (o ++ [10]) (m, buf)
  | set {m buf i e v w z b o} {j : Nat} : idx i j → j < buf.length → val e v → Converts .char v w → shows v w z → Decimal z o → charVal b = w →
      ChReply idx val shows asg (m, buf) (.set i e) (o ++ [10]) (m, buf.set j b)

inductive ChDialogue (idx val : Expr → Int → Prop) (shows : Int → Int → Int → Prop) (asg : Nat → Str → Str → Prop) :
    Nat × Str → List ChInput → List Str → Nat × Str → Prop
  | nil {π} : ChDialogue idx val shows asg π [] [] π
  | cons {π p out π1 ps outs π2} : ChReply idx val shows asg π p out π1 → ChDialogue idx val shows asg π1 ps outs π2 →
      ChDialogue idx val shows asg π (p :: ps) (out :: outs) π2

end Bic.Spec

namespace Bic.CSyn
open Parser (T K PT nameStr)
open Spec (ChInput)

/-- `char *x = "…";` -/
inductive WStrVar : CText.Str → CText.Str → List T → Prop
  | mk {ws x bs i} : WSpecs ws i [.p .star, .ident x, .p .assign, .string bs, .p .semi] → CSpec.Gives ws (.arith .char) → WStrVar x bs i

/-- how these lines are written for the pointer `x` -/
inductive WChInput (tbl : Pre → Option Nat) (TN : List T → PT → List T → Prop) (x : CText.Str) : ChInput → List T → Prop
  | lit {bs} : WChInput tbl TN x (.lit bs) [.string bs, .p .semi]
  | assign {bs} : WChInput tbl TN x (.assign bs) [.ident x, .p .assign, .string bs, .p .semi]
  | value : WChInput tbl TN x .value [.ident x, .p .semi]
  | first : WChInput tbl TN x .first [.p .star, .ident x, .p .semi]
  | get {i j} : WE tbl TN 1 i j [.p .rbrack, .p .semi] → WChInput tbl TN x (.get i) (.ident x :: .p .lbrack :: j)
  | set {i e j r} : WE tbl TN 1 i j (.p .rbrack :: .p .assign :: r) → WE tbl TN 2 e r [.p .semi] →
      WChInput tbl TN x (.set i e) (.ident x :: .p .lbrack :: j)

end Bic.CSyn
