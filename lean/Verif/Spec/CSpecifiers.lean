import Verif.Model.Tree
/-!
# What C says about type specifiers

C11 6.7.2p2: the list of type specifiers of a declaration shall be one of the
following multisets; they "may occur in any order, possibly intermixed with the
other declaration specifiers".
-/

namespace Bic
namespace CSpec

/-- the types -/
inductive Name where
  | void | bool
  | arith (t : CT)
deriving DecidableEq

/-- 6.7.2p2, in the order of the standard (without complex, atomic, structure,
enumeration and typedef names) -/
def multisets : List (List Kw × Name) :=
  [ ([.void], .void),
    ([.char], .arith .char),
    ([.signed, .char], .arith .char),
    ([.unsigned, .char], .arith .uchar),
    ([.short], .arith .short), ([.signed, .short], .arith .short),
    ([.short, .int], .arith .short), ([.signed, .short, .int], .arith .short),
    ([.unsigned, .short], .arith .ushort), ([.unsigned, .short, .int], .arith .ushort),
    ([.int], .arith .int), ([.signed], .arith .int), ([.signed, .int], .arith .int),
    ([.unsigned], .arith .uint), ([.unsigned, .int], .arith .uint),
    ([.long], .arith .long), ([.signed, .long], .arith .long),
    ([.long, .int], .arith .long), ([.signed, .long, .int], .arith .long),
    ([.unsigned, .long], .arith .ulong), ([.unsigned, .long, .int], .arith .ulong),
    ([.long, .long], .arith .longlong), ([.signed, .long, .long], .arith .longlong),
    ([.long, .long, .int], .arith .longlong), ([.signed, .long, .long, .int], .arith .longlong),
    ([.unsigned, .long, .long], .arith .ulonglong), ([.unsigned, .long, .long, .int], .arith .ulonglong),
    ([.float], .arith .float),
    ([.double], .arith .double),
    ([.long, .double], .arith .longdouble),
    ([.bool], .bool) ]

/-- 6.7.1p1 -/
def storageClass : Kw → Bool
  | .typedef | .extern | .static | .auto | .register => true
  | _ => false

/-- 6.7.2p1 -/
def typeSpecifier : Kw → Bool
  | .void | .char | .short | .int | .long | .float | .double | .signed | .unsigned | .bool => true
  | _ => false

/-- the declaration specifiers `l` give the type `T` -/
def Gives (l : List Kw) (T : Name) : Prop :=
  ∃ m, (m, T) ∈ multisets ∧ m.Perm (l.filter fun k => !storageClass k)

end CSpec
end Bic
