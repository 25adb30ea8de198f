import Verif.Spec.Source
import Verif.Spec.Text
/-!
# Dialogues at the REPL (specification)

What is typed, and what is to be shown for it: for an expression statement the value of the expression
(C11 6.5.16: the value of an assignment is the value of the left operand after it; 6.5.2.4, 6.5.3.1), for
a declaration the name declared last (README.org:96-98), nothing for `;`.
-/

namespace Bic.Spec
open CText (Str Digits decVal ascii)

inductive Input where
  /-- `e;` without side effects -/
  | expr (e : Expr)
  /-- `x = e;` -/
  | set (x : String) (e : Expr)
  /-- `x++;`, `x--;` -/
  | post (x : String) (d : Int)
  /-- `++x;`, `--x;` -/
  | pre (x : String) (d : Int)
  | decl (c : CT) (ds : List (String × Option Expr))
  /-- `;` -/
  | empty

/-- the text of an integer in decimal notation, without superfluous zeros -/
def Decimal (v : Int) (t : Str) : Prop :=
  ∃ ds, Digits ds ∧ (ds = [48] ∨ ds.head? ≠ some 48) ∧ (t = ds ∧ v = decVal ds ∨ t = 45 :: ds ∧ ds ≠ [48] ∧ v = -(decVal ds : Int))

/-- which values are shown: `asg v w z`, for the assignment of a value `v` that is converted to `w`, the
value `z`; `step z`: for a step the value `z` may be shown -/
structure Shows where
  asg : Int → Int → Int → Prop
  step : Int → Prop

/-- C: the value of the variable after the assignment -/
def cShows : Shows := ⟨fun _ w z => z = w, fun _ => True⟩

/-- `Reply L S σ p out σ' n`: for `p` the text `out` is shown, the store is `σ'` then, `n` variables have
been created. -/
inductive Reply (L : Rules) (S : Shows) : Store → Input → Str → Store → Nat → Prop
  | expr {σ e v t} : L.Value σ e v → Decimal v t → Reply L S σ (.expr e) (t ++ [10]) σ 0
  | set {σ x e c u v w z t} : σ.Has x c u → L.Value σ e v → L.asg σ c e v → Converts c v w → S.asg v w z → Decimal z t →
      Reply L S σ (.set x e) (t ++ [10]) (σ.write x w) 0
  | post {σ x d c v w t} : σ.Has x c (some v) → Converts c (v + d) w → S.step v → Decimal v t →
      Reply L S σ (.post x d) (t ++ [10]) (σ.write x w) 0
  | pre {σ x d c v w t} : σ.Has x c (some v) → Converts c (v + d) w → S.step w → Decimal w t →
      Reply L S σ (.pre x d) (t ++ [10]) (σ.write x w) 0
  | decl {σ c ds x e σ'} : integral c → Declares L c σ ds σ' → ds.getLast? = some (x, e) →
      Reply L S σ (.decl c ds) (ascii x ++ [10]) σ' ds.length
  | empty {σ} : Reply L S σ .empty [] σ 0

/-- one input after the other -/
inductive Dialogue (L : Rules) (S : Shows) : Store → List Input → List Str → Store → Nat → Prop
  | nil {σ} : Dialogue L S σ [] [] σ 0
  | cons {σ p out σ1 n ps outs σ2 m} : Reply L S σ p out σ1 n → Dialogue L S σ1 ps outs σ2 m →
      Dialogue L S σ (p :: ps) (out :: outs) σ2 (n + m)

end Bic.Spec

namespace Bic.CSyn
open Parser (T K PT nameStr)
open Spec (Input)

section
variable (tbl : Pre → Option Nat) (TN : List T → PT → List T → Prop)

/-- how an input is written -/
inductive WInput : Input → List T → Prop
  | expr {e i} : WE tbl TN 1 e i [.p .semi] → WInput (.expr e) i
  | set {s e i} : WE tbl TN 2 e i [.p .semi] → WInput (.set (nameStr s) e) (.ident s :: .p .assign :: i)
  | setOp {s o bo e i} : Asg.op o = some bo → WE tbl TN 2 e i [.p .semi] →
      WInput (.set (nameStr s) (.bin bo (.var (nameStr s)) e)) (.ident s :: .p o.tok :: i)
  | pInc {s} : WInput (.post (nameStr s) 1) [.ident s, .p .incr, .p .semi]
  | pDec {s} : WInput (.post (nameStr s) (-1)) [.ident s, .p .decr, .p .semi]
  | inc {s} : WInput (.pre (nameStr s) 1) [.p .incr, .ident s, .p .semi]
  | dec {s} : WInput (.pre (nameStr s) (-1)) [.p .decr, .ident s, .p .semi]
  | decl {ws c ds i j} : WSpecs ws i j → CSpec.Gives ws (.arith c) → WDecls tbl TN ds j [.p .semi] → WInput (.decl c ds) i
  | empty : WInput .empty [.p .semi]

end

end Bic.CSyn
