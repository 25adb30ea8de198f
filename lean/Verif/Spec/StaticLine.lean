import Verif.Spec.Dialogue
/-!
# Declarations with `static` at the REPL (specification)

C11 6.7.9: the initializers of variables with static storage duration are constant expressions, without one the variable is 0.
-/

namespace Bic.Spec
open CText (Str ascii)

/-- `Statics L z c fr ds fr'`: the variables `ds` are declared with `static` and type `c` in the scope `fr`; those without initializer hold `z`. -/
inductive Statics (L : Rules) (z : Option Int) (c : CT) : Frame → List (String × Option Expr) → Frame → Prop
  | nil {fr} : Statics L z c fr [] fr
  | plain {fr x ds fr'} : Frame.find x fr = none → Statics L z c (fr ++ [(x, some ⟨c, z⟩)]) ds fr' → Statics L z c fr ((x, none) :: ds) fr'
  | init {fr x e v w ds fr'} : Frame.find x fr = none → L.Value [] e v → L.asg [] c e v → Converts c v w →
      Statics L z c (fr ++ [(x, some ⟨c, some w⟩)]) ds fr' → Statics L z c fr ((x, some e) :: ds) fr'

inductive VInput where
  | plain (p : Input)
  /-- a declaration with `static` -/
  | static (c : CT) (ds : List (String × Option Expr))

/-- as `Reply` -/
inductive VReply (L : Rules) (S : Shows) (z : Option Int) : Store → VInput → Str → Store → Nat → Prop
  | plain {σ p out σ' n} : Reply L S σ p out σ' n → VReply L S z σ (.plain p) out σ' n
  | static {fr σ c ds x e fr'} : integral c → Statics L z c fr ds fr' → ds.getLast? = some (x, e) →
      VReply L S z (fr :: σ) (.static c ds) (ascii x ++ [10]) (fr' :: σ) ds.length

inductive VDialogue (L : Rules) (S : Shows) (z : Option Int) : Store → List VInput → List Str → Store → Nat → Prop
  | nil {σ} : VDialogue L S z σ [] [] σ 0
  | cons {σ p out σ1 n ps outs σ2 m} : VReply L S z σ p out σ1 n → VDialogue L S z σ1 ps outs σ2 m → VDialogue L S z σ (p :: ps) (out :: outs) σ2 (n + m)

end Bic.Spec

namespace Bic.CSyn
open Parser (T K PT)
open Spec (VInput)

/-- specifiers with `static` among them -/
inductive WStatic : List Kw → List T → List T → Prop
  | first {ws i r} : WSpecs ws i r → WStatic ws (.p .static :: i) r
  | last {w k r} : kwTok w = some k → WStatic [w] (.p k :: .p .static :: r) r
  | later {w k ws i r} : kwTok w = some k → WStatic ws i r → WStatic (w :: ws) (.p k :: i) r

inductive WVInput (tbl : Pre → Option Nat) (TN : List T → PT → List T → Prop) : VInput → List T → Prop
  | plain {p i} : WInput tbl TN p i → WVInput tbl TN (.plain p) i
  | static {ws c ds i j} : WStatic ws i j → CSpec.Gives ws (.arith c) → WDecls tbl TN ds j [.p .semi] → WVInput tbl TN (.static c ds) i

end Bic.CSyn
