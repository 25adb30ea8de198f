import Verif.Model.Eval
/-!
# Trees built by the parser

The semantic actions of `/repo/src/parser.m4` that do more than copy their
children into a new tree.
-/

namespace Bic

/-- `tree_make_binmod` (tree.h:252-264), used for `+=`, `-=`, `/=`, `<<=`, `>>=`,
`^=` (parser.m4:574-597): `l op= r` becomes `l = l op r`, both occurrences of `l`
being the same tree.  Simplification: both trees are allocated with their children
in place. -/
def binmod (op : BinOp) (l r : Ref) : M TId := do
  let m ← mk (.bin op l r)
  mk (.assign l (some m))

end Bic
