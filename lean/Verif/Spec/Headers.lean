import Verif.Spec.Library
/-!
# Headers (specification)

What the preprocessor makes of headers: a text of C in which lines like `# 1 "/usr/include/stdlib.h" 1 3 4` say where
it comes from.  The headers meant here declare variables and functions.  After an `#include` the lines can use them.
-/

namespace Bic.CText
open Parser (T)

/-- what follows the name in a line marker: flags, each a blank and one of 1, 2, 3, 4 -/
inductive Flags : Str → Prop
  | nil : Flags []
  | cons {d s} : d ∈ [49, 50, 51, 52] → Flags s → Flags (32 :: d :: s)

/-- a line marker; `P` says which bytes the name of the file may have -/
def Marker (P : UInt8 → Prop) (m : Str) : Prop :=
  ∃ ds name fs, m = 35 :: 32 :: (ds ++ 32 :: 34 :: (name ++ 34 :: fs)) ∧ Digits ds ∧ name ≠ [] ∧ (∀ c ∈ name, P c) ∧ Flags fs

/-- names of files, as the preprocessor writes them without escapes -/
def fileByte (c : UInt8) : Prop := 32 ≤ c ∧ c ≠ 34 ∧ c ≠ 92 ∧ c ≠ 127

/-- texts with line markers, each on a line of its own -/
inductive HText (S : T → Str → Prop) (X : T → Str → UInt8 → Prop) (M : Str → Prop) : List T → Str → Prop
  | text {ts s} : Text S X ts s → HText S X M ts s
  | marker {m ts s} : M m → HText S X M ts s → HText S X M ts (m ++ 10 :: s)
  | after {ts u m us s} : Text S X ts u → M m → HText S X M us s → HText S X M (ts ++ us) (u ++ 10 :: (m ++ 10 :: s))

/-- the output of the preprocessor -/
def CHText (ty : Str → Bool) : List T → Str → Prop := HText (Spells ty) (fun _ => Extends) (Marker fileByte)

/-- `#include <name>` with blanks before the name (C11 6.10.2); `P` says which bytes the name may have -/
def IncLine (P : UInt8 → Prop) (line : Str) : Prop :=
  ∃ bs name, line = ascii "#include" ++ (bs ++ 60 :: (name ++ [62])) ∧ (∀ c ∈ bs, c = 32 ∨ c = 9) ∧ name ≠ [] ∧ ∀ c ∈ name, P c

/-- names of headers (6.4.7): any bytes but newline and `>` -/
def headerByte (c : UInt8) : Prop := c ≠ 10 ∧ c ≠ 62

end Bic.CText

namespace Bic.Spec
open CText (Str)

/-- the declarations of headers -/
inductive HItem
  /-- `c x;` or `c x = k;` -/
  | var (c : CT) (x : String) (k : Option Int)
  /-- `c f(c1, …);` -/
  | proto (f : String) (c : CT) (cs : List CT)

/-- how many variables are declared -/
def objects : List HItem → Nat
  | [] => 0
  | .var _ _ _ :: is => 1 + objects is
  | .proto _ _ _ :: is => objects is

/-- `HDecl L Λ fr Δ is fr' Δ'`: the declarations `is` are added to the scope `fr` in which the functions `Δ` of the
library `Λ` have been declared -/
inductive HDecl (L : Rules) (Λ : String → Option LibFn) : Frame → List String → List HItem → Frame → List String → Prop
  | nil {fr Δ} : HDecl L Λ fr Δ [] fr Δ
  | plain {fr Δ c x is fr' Δ'} : integral c → Frame.find x fr = none → HDecl L Λ (fr ++ [(x, some ⟨c, none⟩)]) Δ is fr' Δ' →
      HDecl L Λ fr Δ (.var c x none :: is) fr' Δ'
  | init {fr Δ c x k w is fr' Δ'} : integral c → Frame.find x fr = none → L.asg [] c (.lit k) k → Converts c k w →
      HDecl L Λ (fr ++ [(x, some ⟨c, some w⟩)]) Δ is fr' Δ' → HDecl L Λ fr Δ (.var c x (some k) :: is) fr' Δ'
  | proto {fr Δ f q is fr' Δ'} : Λ f = some q → Frame.find f fr = none → HDecl L Λ (fr ++ [(f, none)]) (f :: Δ) is fr' Δ' →
      HDecl L Λ fr Δ (.proto f q.ret q.params :: is) fr' Δ'
  | again {fr Δ f q is fr' Δ'} : Λ f = some q → f ∈ Δ → HDecl L Λ fr Δ is fr' Δ' →
      HDecl L Λ fr Δ (.proto f q.ret q.params :: is) fr' Δ'

inductive HInput
  /-- a line without calls -/
  | plain (p : Input)
  /-- an `#include` line -/
  | inc (h : String)
  /-- `f(e, …);` -/
  | call (f : String) (es : List Expr)

/-- what an `#include` does: `inc D hs h H Δ hf Δ'`: the lines `hs` have been typed before `h`, `D` are the declarations that
the preprocessor makes of such lines, `H` is the scope of the headers so far, if there is one, and `hf` that after `h`.
`clean fr H`: the variables `fr` of the lines and the headers `H` go together. -/
structure Including where
  inc : (String → Option LibFn) → (List String → List HItem) → List String → String → Store → List String → Frame → List String → Prop
  clean : Frame → Store → Prop

/-- C: the declarations of the new header are added; nothing is declared twice -/
def cIncluding (L : Rules) : Including where
  inc Λ D hs h H Δ hf Δ' := ∃ new, D (hs ++ [h]) = D hs ++ new ∧ HDecl L Λ H.flatten Δ new hf Δ'
  clean fr H := ∀ x ∈ fr.names, ∀ f ∈ H, x ∉ f.names

section
variable (L : Rules) (S : Shows) (P : Calling) (I : Including) (Λ : String → Option LibFn) (D : List String → List HItem) (B : Store)

/-- `HReply L S P I Λ D B fr H Δ hs p out fr' H' Δ' hs' calls n`: the answer to one line; `B` are the names the
implementation reserves. -/
inductive HReply : Frame → Store → List String → List String → HInput → Str → Frame → Store → List String → List String →
    List (String × List Int) → Nat → Prop
  | plain {fr H Δ hs p out fr' H' n} : Reply L S (fr :: (B ++ H)) p out (fr' :: (B ++ H')) n → I.clean fr' H' →
      HReply fr H Δ hs (.plain p) out fr' H' Δ hs [] n
  | inc {fr H Δ hs h hf Δ'} : I.inc Λ D hs h H Δ hf Δ' → I.clean fr [hf] →
      HReply fr H Δ hs (.inc h) [] fr [hf] Δ' (hs ++ [h]) [] (objects (D (hs ++ [h])))
  | call {fr H Δ hs f q es ws v z} : f ∈ Δ → Frame.find f fr = none → (∀ b ∈ B, Frame.find f b = none) → Λ f = some q → P.many es.length →
      Args L P (fr :: (B ++ H)) q.params es ws → q.val ws = some v → Decimal v z →
      HReply fr H Δ hs (.call f es) (z ++ [10]) fr H Δ hs [(f, ws)] 1

inductive HDialogue : Frame → Store → List String → List String → List HInput → List Str → Frame → Store → List (String × List Int) → Nat → Prop
  | nil {fr H Δ hs} : HDialogue fr H Δ hs [] [] fr H [] 0
  | cons {fr H Δ hs p out fr1 H1 Δ1 hs1 as n ps outs fr2 H2 bs m} : HReply L S P I Λ D B fr H Δ hs p out fr1 H1 Δ1 hs1 as n →
      HDialogue fr1 H1 Δ1 hs1 ps outs fr2 H2 bs m → HDialogue fr H Δ hs (p :: ps) (out :: outs) fr2 H2 (as ++ bs) (n + m)

end

end Bic.Spec

namespace Bic.CSyn
open Parser (T K PT nameStr)
open Spec (HItem HInput)

/-- how the declarations of headers are written -/
inductive WItem : HItem → List T → List T → Prop
  | var {ws c s i r} : WSpecs ws i (.ident s :: .p .semi :: r) → CSpec.Gives ws (.arith c) → WItem (.var c (nameStr s) none) i r
  | init {ws c s k i r} : WSpecs ws i (.ident s :: .p .assign :: .integer k :: .p .semi :: r) → CSpec.Gives ws (.arith c) →
      WItem (.var c (nameStr s) (some k)) i r
  | proto {ws c s cs i j r} : WSpecs ws i (.ident s :: .p .lparen :: j) → CSpec.Gives ws (.arith c) → WTypes cs j (.p .rparen :: .p .semi :: r) →
      WItem (.proto (nameStr s) c cs) i r
  | proto0 {ws c s i r} : WSpecs ws i (.ident s :: .p .lparen :: .p .rparen :: .p .semi :: r) → CSpec.Gives ws (.arith c) →
      WItem (.proto (nameStr s) c []) i r
  | protoVoid {ws c s i r} : WSpecs ws i (.ident s :: .p .lparen :: .p .void :: .p .rparen :: .p .semi :: r) → CSpec.Gives ws (.arith c) →
      WItem (.proto (nameStr s) c []) i r

inductive WItems : List HItem → List T → Prop
  | nil : WItems [] []
  | cons {d ds i j} : WItem d i j → WItems ds j → WItems (d :: ds) i

/-- how lines without `#include` are written -/
inductive WHInput (tbl : Pre → Option Nat) (TN : List T → PT → List T → Prop) : HInput → List T → Prop
  | plain {p i} : WInput tbl TN p i → WHInput tbl TN (.plain p) i
  | call0 {s} : WHInput tbl TN (.call (nameStr s) []) [.ident s, .p .lparen, .p .rparen, .p .semi]
  | call {s es i} : WArgs tbl TN es i [.p .rparen, .p .semi] → WHInput tbl TN (.call (nameStr s) es) (.ident s :: .p .lparen :: i)

end Bic.CSyn
