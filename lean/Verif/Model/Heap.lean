import Verif.Model.Nodes
import Verif.Model.Eval
/-!
# Putting a tree in the heap

`build` makes the objects of a tree, operands first, as the actions of parser.m4 do while the parser
reduces (`tree_make`, tree.c:5-11).  Simplifications: objects are numbered in the order in which the
tree is read from left to right; the left side of `+=` and the other compound assignments is made twice
(tree.h:252-264 uses the object twice); the qualifiers of pointers and arrays, which nothing reads, are
not made; `F` gives the value of a floating constant (lex.m4: `mpfr_set_str`).
-/

namespace Bic.Parser
open Lexer (Str)

/-- a new object -/
def leaf (n : Node) : M Ref := do pure (some (← mk n))

mutual
/-- the object of a tree (see above) -/
def build (F : Str → Nat) : PT → M Ref
  | .null => pure none
  | .integer v => leaf (.integer v)
  | .flt s => leaf (.flt (F s))
  | .ident s => leaf (.ident (nameStr s))
  | .str s => leaf (.str (s.map byteOf))
  | .chain ts => do
    let ls ← buildAll F ts
    leaf (.chain ls)
  | .pInc e => do
    let x ← build F e
    leaf (.pInc x)
  | .pDec e => do
    let x ← build F e
    leaf (.pDec x)
  | .inc e => do
    let x ← build F e
    leaf (.inc x)
  | .dec e => do
    let x ← build F e
    leaf (.dec x)
  | .negate e => do
    let x ← build F e
    leaf (.negate x)
  | .addr e => do
    let x ← build F e
    leaf (.addr x)
  | .deref e => do
    let x ← build F e
    leaf (.deref x)
  | .onesComp e => do
    let x ← build F e
    leaf (.onesComp x)
  | .sizeof e => do
    let x ← build F e
    leaf (.sizeof x)
  | .exprList e => do
    let x ← build F e
    leaf (.exprList x)
  | .inspect e => do
    let x ← build F e
    leaf (.inspect x)
  | .ret e => do
    let x ← build F e
    leaf (.ret x)
  | .fnCall a b => do
    let x ← build F a
    let y ← build F b
    leaf (.fnCall x y)
  | .arrAccess a b => do
    let x ← build F a
    let y ← build F b
    leaf (.arrAccess x y)
  | .compAccess a b => do
    let x ← build F a
    let y ← build F b
    leaf (.compAccess x y)
  | .cast a b => do
    let x ← build F a
    let y ← build F b
    leaf (.cast x y)
  | .lOr a b => do
    let x ← build F a
    let y ← build F b
    leaf (.lOr x y)
  | .lAnd a b => do
    let x ← build F a
    let y ← build F b
    leaf (.lAnd x y)
  | .assign a b => do
    let x ← build F a
    let y ← build F b
    leaf (.assign x y)
  | .enumr a b => do
    let x ← build F a
    let y ← build F b
    leaf (.enumr x y)
  | .bitfield a b => do
    let x ← build F a
    let y ← build F b
    leaf (.bitfield x y)
  | .typeSpec a b => do
    let x ← build F a
    let y ← build F b
    leaf (.typeSpec x y)
  | .whileS a b => do
    let x ← build F a
    let y ← build F b
    leaf (.whileS x y)
  | .bin o a b => do
    let x ← build F a
    let y ← build F b
    leaf (.bin o x y)
  | .cmp o a b => do
    let x ← build F a
    let y ← build F b
    leaf (.cmp o x y)
  | .«infix» a b c => do
    let x ← build F a
    let y ← build F b
    let z ← build F c
    leaf (.«infix» x y z)
  | .ifS a b c => do
    let x ← build F a
    let y ← build F b
    let z ← build F c
    leaf (.ifS x y z)
  | .decl a b => do
    let x ← build F a
    let y ← build F b
    leaf (.decl x y 0)
  | .compound isS a b => do
    let x ← build F a
    let y ← build F b
    leaf (.compound x y 0 false isS)
  | .pointer _ e => do
    let x ← build F e
    leaf (.pointer x)
  | .array a _ b => do
    let x ← build F a
    let y ← build F b
    leaf (.array x y)
  | .fn a b c => do
    let x ← build F a
    let y ← build F b
    let z ← build F c
    leaf (.fn x y none z)
  | .forS a b c d => do
    let x ← build F a
    let y ← build F b
    let z ← build F c
    let w ← build F d
    leaf (.forS x y z w)
  | .kw k => leaf (.kw k)
  | .variadic => leaf .variadic
  | .empty => leaf .empty
  | .cppInclude s => leaf (.cppInclude (nameStr s))
  | .repl => leaf .repl
  | .brk => leaf .brk
/-- the elements of a chain -/
def buildAll (F : Str → Nat) : List PT → M (List TId)
  | [] => pure []
  | t :: ts => do
    match ← build F t with
    | some x => do
      let xs ← buildAll F ts
      pure (x :: xs)
    | none => ub "tree_chain of NULL"
end

end Bic.Parser
