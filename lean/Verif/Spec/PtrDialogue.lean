import Verif.Spec.Print
/-!
# Dialogues with a pointer (specification)

Lines that declare a pointer, make it point to variables, and read and write them through it, among the lines of
`Verif.Spec.Dialogue`; and what C shows for them.
-/

namespace Bic.Spec
open CText (Str)

inductive PInput
  /-- a line that does not use the pointer -/
  | plain (p : Input)
  /-- `p = &y;` -/
  | point (y : String)
  /-- `p;` -/
  | value
  /-- `*p = e;` -/
  | store (e : Expr)
  /-- `*p;` -/
  | load

/-- the answer to one line for a pointer to objects of type `k`; `addr` gives the addresses of the variables, `π` is
the variable the pointer points to -/
inductive PReply (L : Rules) (S : Shows) (addr : String → Nat) (k : CT) : Store → Option String → PInput → Str → Store → Option String → Prop
  | plain {σ π p out σ'} : Reply L S σ p out σ' 0 → PReply L S addr k σ π (.plain p) out σ' π
  | point {σ π y u t} : σ.Has y k u → AddressText (addr y) t → PReply L S addr k σ π (.point y) (t ++ [10]) σ (some y)
  | value {σ y t} : AddressText (addr y) t → PReply L S addr k σ (some y) .value (t ++ [10]) σ (some y)
  | store {σ y e u v w z t} : σ.Has y k u → L.Value σ e v → L.asg σ k e v → Converts k v w → S.asg v w z → Decimal z t →
      PReply L S addr k σ (some y) (.store e) (t ++ [10]) (σ.write y w) (some y)
  | load {σ y v t} : σ.Has y k (some v) → Decimal v t → PReply L S addr k σ (some y) .load (t ++ [10]) σ (some y)

inductive PDialogue (L : Rules) (S : Shows) (addr : String → Nat) (k : CT) :
    Store → Option String → List PInput → List Str → Store → Option String → Prop
  | nil {σ π} : PDialogue L S addr k σ π [] [] σ π
  | cons {σ π p out σ1 π1 ps outs σ2 π2} : PReply L S addr k σ π p out σ1 π1 → PDialogue L S addr k σ1 π1 ps outs σ2 π2 →
      PDialogue L S addr k σ π (p :: ps) (out :: outs) σ2 π2

end Bic.Spec

namespace Bic.CSyn
open Parser (T K PT nameStr)
open Spec (PInput)

/-- `T *x;` -/
inductive WPtrVar : CT → CText.Str → List T → Prop
  | mk {ws k x i} : WSpecs ws i [.p .star, .ident x, .p .semi] → CSpec.Gives ws (.arith k) → WPtrVar k x i

/-- how these lines are written for the pointer `x` -/
inductive WPInput (tbl : Pre → Option Nat) (TN : List T → PT → List T → Prop) (x : CText.Str) : PInput → List T → Prop
  | plain {p i} : WInput tbl TN p i → WPInput tbl TN x (.plain p) i
  | point {y} : WPInput tbl TN x (.point (nameStr y)) [.ident x, .p .assign, .p .amp, .ident y, .p .semi]
  | value : WPInput tbl TN x .value [.ident x, .p .semi]
  | store {e j} : WE tbl TN 2 e j [.p .semi] → WPInput tbl TN x (.store e) (.p .star :: .ident x :: .p .assign :: j)
  | load : WPInput tbl TN x .load [.p .star, .ident x, .p .semi]

end Bic.CSyn
