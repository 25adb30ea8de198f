import Verif.Spec.Dialogue
import Verif.Spec.Layout
/-!
# Dialogues with a structure (specification)

Lines that assign to the members of a structure and show them, and what C shows for them.
-/

namespace Bic.Spec
open CText (Str)

/-- `x.m = e;` and `x.m;` -/
inductive MInput
  | set (m : String) (e : Expr)
  | get (m : String)

/-- what the members hold -/
abbrev MVals := String → Option Int

/-- the answer to one line: `val k e v` says that `e`, assigned to a member of type `k`, has the value `v`;
`shows v w z` that for the assignment of `v`, converted to `w`, the value `z` is shown -/
inductive MReply (val : CT → Expr → Int → Prop) (shows : Int → Int → Int → Prop) (ms : List (String × MTy)) :
    MVals → MInput → Str → MVals → Prop
  | set {σ m k e v w z t} : (m, .val k) ∈ ms → integral k → val k e v → Converts k v w → shows v w z → Decimal z t →
      MReply val shows ms σ (.set m e) (t ++ [10]) (fun y => if y = m then some w else σ y)
  | get {σ m v t} : σ m = some v → Decimal v t → MReply val shows ms σ (.get m) (t ++ [10]) σ

inductive MDialogue (val : CT → Expr → Int → Prop) (shows : Int → Int → Int → Prop) (ms : List (String × MTy)) :
    MVals → List MInput → List Str → MVals → Prop
  | nil {σ} : MDialogue val shows ms σ [] [] σ
  | cons {σ p out σ1 ps outs σ2} : MReply val shows ms σ p out σ1 → MDialogue val shows ms σ1 ps outs σ2 →
      MDialogue val shows ms σ (p :: ps) (out :: outs) σ2

end Bic.Spec

namespace Bic.CSyn
open Parser (T K PT nameStr)
open Spec (MInput)

/-- how these lines are written for the variable `x` -/
inductive WMInput (tbl : Pre → Option Nat) (TN : List T → PT → List T → Prop) (x : CText.Str) : MInput → List T → Prop
  | set {m e i} : WE tbl TN 2 e i [.p .semi] → WMInput tbl TN x (.set (nameStr m) e) (.ident x :: .p .dot :: .ident m :: .p .assign :: i)
  | get {m} : WMInput tbl TN x (.get (nameStr m)) [.ident x, .p .dot, .ident m, .p .semi]

end Bic.CSyn
