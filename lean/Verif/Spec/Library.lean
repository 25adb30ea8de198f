import Verif.Spec.Dialogue
/-!
# Dialogues with library functions (specification)

A function that the library provides is declared, `int abs(int);`, and then called.  The arguments are converted to
the types of the parameters (C11 6.5.2.2p7), the value of the call is shown.
-/

namespace Bic.Spec
open CText (Str)

/-- a function of the library: the type of its value, those of its parameters, and its value, unless the behaviour
is undefined for these arguments -/
structure LibFn where
  ret : CT
  params : List CT
  val : List Int → Option Int

inductive LInput
  /-- a line without calls -/
  | plain (p : Input)
  /-- `c f(c1, …);` -/
  | proto (f : String) (c : CT) (cs : List CT)
  /-- `f(e, …);` -/
  | call (f : String) (es : List Expr)

/-- how arguments are passed: `arg σ c e v w`: if the argument `e` has the value `v`, the parameter of type `c` gets
the value `w`; `many n`: there may be `n` arguments -/
structure Calling where
  arg : Store → CT → Expr → Int → Int → Prop
  many : Nat → Prop

/-- C: the value is converted -/
def cCalling : Calling := ⟨fun _ c _ v w => Converts c v w, fun _ => True⟩

/-- the values of the parameters -/
inductive Args (L : Rules) (P : Calling) (σ : Store) : List CT → List Expr → List Int → Prop
  | nil : Args L P σ [] [] []
  | cons {c e v w cs es ws} : L.Value σ e v → P.arg σ c e v w → Args L P σ cs es ws → Args L P σ (c :: cs) (e :: es) (w :: ws)

/-- `LReply L S P Λ fr Δ p out fr' Δ' calls n`: the answer to one line, the variables of the file scope being `fr` and
`Δ` the functions of the library `Λ` that have been declared; `calls` are the calls that are made, with the values of
the parameters, `n` the number of objects that come into being. -/
inductive LReply (L : Rules) (S : Shows) (P : Calling) (Λ : String → Option LibFn) :
    Frame → List String → LInput → Str → Frame → List String → List (String × List Int) → Nat → Prop
  | plain {fr Δ p out fr' n} : Reply L S [fr] p out [fr'] n → LReply L S P Λ fr Δ (.plain p) out fr' Δ [] n
  | proto {fr Δ f q} : Λ f = some q → Frame.find f fr = none →
      LReply L S P Λ fr Δ (.proto f q.ret q.params) [10] (fr ++ [(f, none)]) (f :: Δ) [] 0
  | again {fr Δ f q} : Λ f = some q → f ∈ Δ → LReply L S P Λ fr Δ (.proto f q.ret q.params) [10] fr Δ [] 0
  | call {fr Δ f q es ws v z} : f ∈ Δ → Λ f = some q → P.many es.length → Args L P [fr] q.params es ws → q.val ws = some v → Decimal v z →
      LReply L S P Λ fr Δ (.call f es) (z ++ [10]) fr Δ [(f, ws)] 1

inductive LDialogue (L : Rules) (S : Shows) (P : Calling) (Λ : String → Option LibFn) :
    Frame → List String → List LInput → List Str → Frame → List String → List (String × List Int) → Nat → Prop
  | nil {fr Δ} : LDialogue L S P Λ fr Δ [] [] fr Δ [] 0
  | cons {fr Δ p out fr1 Δ1 as n ps outs fr2 Δ2 bs m} : LReply L S P Λ fr Δ p out fr1 Δ1 as n → LDialogue L S P Λ fr1 Δ1 ps outs fr2 Δ2 bs m →
      LDialogue L S P Λ fr Δ (p :: ps) (out :: outs) fr2 Δ2 (as ++ bs) (n + m)

end Bic.Spec

namespace Bic.CSyn
open Parser (T K PT nameStr)
open Spec (LInput)

/-- the declaration of a parameter, with or without a name (C11 6.7.6.3) -/
inductive WType : CT → List T → List T → Prop
  | named {ws c s i r} : WSpecs ws i (.ident s :: r) → CSpec.Gives ws (.arith c) → WType c i r
  | bare {ws c i r} : WSpecs ws i r → CSpec.Gives ws (.arith c) → WType c i r

inductive WTypes : List CT → List T → List T → Prop
  | one {c i r} : WType c i r → WTypes [c] i r
  | more {c cs i j r} : WType c i (.p .comma :: j) → WTypes cs j r → WTypes (c :: cs) i r

/-- how these lines are written -/
inductive WLInput (tbl : Pre → Option Nat) (TN : List T → PT → List T → Prop) : LInput → List T → Prop
  | plain {p i} : WInput tbl TN p i → WLInput tbl TN (.plain p) i
  | proto {ws c s cs i j} : WSpecs ws i (.ident s :: .p .lparen :: j) → CSpec.Gives ws (.arith c) → WTypes cs j [.p .rparen, .p .semi] →
      WLInput tbl TN (.proto (nameStr s) c cs) i
  | proto0 {ws c s i} : WSpecs ws i [.ident s, .p .lparen, .p .rparen, .p .semi] → CSpec.Gives ws (.arith c) →
      WLInput tbl TN (.proto (nameStr s) c []) i
  | protoVoid {ws c s i} : WSpecs ws i [.ident s, .p .lparen, .p .void, .p .rparen, .p .semi] → CSpec.Gives ws (.arith c) →
      WLInput tbl TN (.proto (nameStr s) c []) i
  | call0 {s} : WLInput tbl TN (.call (nameStr s) []) [.ident s, .p .lparen, .p .rparen, .p .semi]
  | call {s es i} : WArgs tbl TN es i [.p .rparen, .p .semi] → WLInput tbl TN (.call (nameStr s) es) (.ident s :: .p .lparen :: i)

end Bic.CSyn
