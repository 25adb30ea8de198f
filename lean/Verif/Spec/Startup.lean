import Verif.Spec.Dialogue
import Verif.Spec.Prog
/-!
# Dialogues after a startup file (specification)

The procedures that the startup file defines can be called from the lines that are typed.  The call of a procedure
has no value (C11 6.3.2.2), so nothing is shown for it.
-/

namespace Bic.Spec
open CText (Str)

inductive SInput
  /-- a line without calls -/
  | plain (p : Input)
  /-- `f(e, …);` -/
  | call (f : String) (es : List Expr)

/-- the answer to one line, the variables of the file scope being `fr`; `Φ` are the procedures -/
inductive SReply (L : Rules) (S : Shows) (Φ : String → Option Proc) : Frame → SInput → Str → Frame → Nat → Prop
  | plain {fr p out fr' n} : Reply L S [fr] p out [fr'] n → SReply L S Φ fr (.plain p) out fr' n
  | call {fr f es fr' n} : Run (L.with Φ) [fr] (.call f es) .next [fr'] n → SReply L S Φ fr (.call f es) [] fr' n

inductive SDialogue (L : Rules) (S : Shows) (Φ : String → Option Proc) : Frame → List SInput → List Str → Frame → Nat → Prop
  | nil {fr} : SDialogue L S Φ fr [] [] fr 0
  | cons {fr p out fr1 n ps outs fr2 m} : SReply L S Φ fr p out fr1 n → SDialogue L S Φ fr1 ps outs fr2 m →
      SDialogue L S Φ fr (p :: ps) (out :: outs) fr2 (n + m)

end Bic.Spec

namespace Bic.CSyn
open Parser (T K PT nameStr)
open Spec (SInput)

/-- how these lines are written -/
inductive WSInput (tbl : Pre → Option Nat) (TN : List T → PT → List T → Prop) : SInput → List T → Prop
  | plain {p i} : WInput tbl TN p i → WSInput tbl TN (.plain p) i
  | call0 {s} : WSInput tbl TN (.call (nameStr s) []) [.ident s, .p .lparen, .p .rparen, .p .semi]
  | call {s es i} : WArgs tbl TN es i [.p .rparen, .p .semi] → WSInput tbl TN (.call (nameStr s) es) (.ident s :: .p .lparen :: i)

end Bic.CSyn
