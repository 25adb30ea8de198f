import Verif.Spec.Dialogue
/-!
# Dialogues with an array (specification)

Lines that declare an array, assign to its elements and show them, and what C shows for them.
-/

namespace Bic.Spec
open CText (Str)

/-- `x[i] = e;` and `x[i];` -/
inductive AInput
  | set (i e : Expr)
  | get (i : Expr)

/-- what the elements hold -/
abbrev AVals := Nat → Option Int

/-- the answer to one line for an array of `n` elements of type `k`: `idx` gives the values of subscripts, `val`
those of the expressions assigned; `shows v w z` says that for the assignment of `v`, converted to `w`, the value `z`
is shown -/
inductive AReply (idx val : Expr → Int → Prop) (shows : Int → Int → Int → Prop) (k : CT) (n : Nat) : AVals → AInput → Str → AVals → Prop
  | set {σ i e v w z t} {j : Nat} : idx i j → j < n → val e v → Converts k v w → shows v w z → Decimal z t →
      AReply idx val shows k n σ (.set i e) (t ++ [10]) (fun y => if y = j then some w else σ y)
  | get {σ i v t} {j : Nat} : idx i j → j < n → σ j = some v → Decimal v t → AReply idx val shows k n σ (.get i) (t ++ [10]) σ

inductive ADialogue (idx val : Expr → Int → Prop) (shows : Int → Int → Int → Prop) (k : CT) (n : Nat) : AVals → List AInput → List Str → AVals → Prop
  | nil {σ} : ADialogue idx val shows k n σ [] [] σ
  | cons {σ p out σ1 ps outs σ2} : AReply idx val shows k n σ p out σ1 → ADialogue idx val shows k n σ1 ps outs σ2 →
      ADialogue idx val shows k n σ (p :: ps) (out :: outs) σ2

end Bic.Spec

namespace Bic.CSyn
open Parser (T K PT nameStr)
open Spec (AInput Expr)

/-- `T x[e];` -/
inductive WArrayVar (tbl : Pre → Option Nat) (TN : List T → PT → List T → Prop) : CT → CText.Str → Expr → List T → Prop
  | mk {ws k x e i j} : WSpecs ws i (.ident x :: .p .lbrack :: j) → CSpec.Gives ws (.arith k) → WE tbl TN 2 e j [.p .rbrack, .p .semi] →
      WArrayVar tbl TN k x e i

/-- how these lines are written for the variable `x` -/
inductive WAInput (tbl : Pre → Option Nat) (TN : List T → PT → List T → Prop) (x : CText.Str) : AInput → List T → Prop
  | set {i e j r} : WE tbl TN 1 i j (.p .rbrack :: .p .assign :: r) → WE tbl TN 2 e r [.p .semi] →
      WAInput tbl TN x (.set i e) (.ident x :: .p .lbrack :: j)
  | get {i j} : WE tbl TN 1 i j [.p .rbrack, .p .semi] → WAInput tbl TN x (.get i) (.ident x :: .p .lbrack :: j)

end Bic.CSyn
