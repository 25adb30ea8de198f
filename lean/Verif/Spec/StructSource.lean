import Verif.Spec.Source
import Verif.Spec.Layout
/-!
# How C writes structures and unions (specification)

Declarations of variables of structure and union types with members of arithmetic types, pointers and
arrays of those (C11 6.7.2.1), as tokens.
-/

namespace Bic.CSyn
open Parser (T K PT nameStr)
open Spec (MTy)

/-- the declarator of a member in a declaration whose specifiers give the type `k` -/
inductive WMember : CT → String × MTy → List T → List T → Prop
  | name {k s r} : WMember k (nameStr s, .val k) (.ident s :: r) r
  | arr {k s r} {n : Nat} : WMember k (nameStr s, .arr k n) (.ident s :: .p .lbrack :: .integer n :: .p .rbrack :: r) r
  | ptr {k d i r} : WMember .ptr d i r → WMember k d (.p .star :: i) r

inductive WMembers (k : CT) : List (String × MTy) → List T → List T → Prop
  | one {d i r} : WMember k d i r → WMembers k [d] i r
  | more {d ds i j r} : WMember k d i (.p .comma :: j) → WMembers k ds j r → WMembers k (d :: ds) i r

/-- the declarations of the members -/
inductive WFields : List (String × MTy) → List T → List T → Prop
  | one {ws k ds i j r} : WSpecs ws i j → CSpec.Gives ws (.arith k) → WMembers k ds j (.p .semi :: r) → WFields ds i r
  | more {ws k ds ds' i j j' r} : WSpecs ws i j → CSpec.Gives ws (.arith k) → WMembers k ds j (.p .semi :: j') → WFields ds' j' r →
      WFields (ds ++ ds') i r

/-- `struct` or `union` -/
def compKw (isStruct : Bool) : K := if isStruct then .struct else .union

/-- `struct S { … } x;` or `struct { … } x;`, or the same with `union` -/
inductive WCompVar (isStruct : Bool) : Option String → String → List (String × MTy) → List T → Prop
  | tagged {s x ms i} : WFields ms i [.p .rbrace, .ident x, .p .semi] →
      WCompVar isStruct (some (nameStr s)) (nameStr x) ms (.p (compKw isStruct) :: .ident s :: .p .lbrace :: i)
  | anonymous {x ms i} : WFields ms i [.p .rbrace, .ident x, .p .semi] →
      WCompVar isStruct none (nameStr x) ms (.p (compKw isStruct) :: .p .lbrace :: i)

end Bic.CSyn
