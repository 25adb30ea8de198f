import Verif.Spec.Source
/-!
# How C writes enumerations (specification)

Declarations of enumerations (C11 6.7.2.2) without declarators, as tokens.
-/

namespace Bic.CSyn
open Parser (T K PT nameStr)
open Spec (Expr)

section
variable (tbl : Pre → Option Nat) (TN : List T → PT → List T → Prop)

/-- an enumerator, perhaps with a constant expression -/
inductive WEnumerator : String × Option Expr → List T → List T → Prop
  | name {s r} : WEnumerator (nameStr s, none) (.ident s :: r) r
  | value {s e i r} : WE tbl TN 3 e i r → WEnumerator (nameStr s, some e) (.ident s :: .p .assign :: i) r

inductive WEnumerators : List (String × Option Expr) → List T → List T → Prop
  | one {d i r} : WEnumerator tbl TN d i r → WEnumerators [d] i r
  | more {d ds i j r} : WEnumerator tbl TN d i (.p .comma :: j) → WEnumerators ds j r → WEnumerators (d :: ds) i r

/-- the end, where a comma may stand before the brace -/
inductive WEnumEnd : List T → Prop
  | brace : WEnumEnd [.p .rbrace, .p .semi]
  | comma : WEnumEnd [.p .comma, .p .rbrace, .p .semi]

/-- `enum E { … };` or `enum { … };` -/
inductive WEnum : Option String → List (String × Option Expr) → List T → Prop
  | tagged {s es i r} : WEnumerators tbl TN es i r → WEnumEnd r → WEnum (some (nameStr s)) es (.p .enum :: .ident s :: .p .lbrace :: i)
  | anonymous {es i r} : WEnumerators tbl TN es i r → WEnumEnd r → WEnum none es (.p .enum :: .p .lbrace :: i)

end

end Bic.CSyn
