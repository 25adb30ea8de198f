/-!
# Character constants and string literals (C11 6.4.4.4, 6.4.5)

Independent of the lexer: a literal is a sequence of pieces, each of which denotes one byte.
-/

namespace Bic.Spec

/-- a character or an escape sequence -/
inductive Piece where
  | plain (c : UInt8)
  | simple (c : UInt8)
  | oct (ds : List UInt8)
  | hex (ds : List UInt8)
deriving DecidableEq, Repr

/-- how it is written -/
def Piece.text : Piece → List UInt8
  | .plain c => [c]
  | .simple c => [92, c]
  | .oct ds => 92 :: ds
  | .hex ds => 92 :: 120 :: ds

/-- the simple escape sequences: \' \" \? \\ \a \b \f \n \r \t \v -/
def simpleEscapes : List (UInt8 × UInt8) :=
  [(39, 39), (34, 34), (63, 63), (92, 92), (97, 7), (98, 8), (102, 12), (110, 10), (114, 13), (116, 9), (118, 11)]

def isOctDigit (c : UInt8) : Bool := 48 ≤ c && c ≤ 55
def isHexDigit (c : UInt8) : Bool := (48 ≤ c && c ≤ 57) || (65 ≤ c && c ≤ 70) || (97 ≤ c && c ≤ 102)

def octVal (ds : List UInt8) : Nat := ds.foldl (fun n c => 8 * n + (c.toNat - 48)) 0
def hexDigit (c : UInt8) : Nat := if c ≤ 57 then c.toNat - 48 else if c ≤ 70 then c.toNat - 55 else c.toNat - 87
def hexVal (ds : List UInt8) : Nat := ds.foldl (fun n c => 16 * n + hexDigit c) 0

/-- the byte it denotes -/
def Piece.val : Piece → UInt8
  | .plain c => c
  | .simple c => (simpleEscapes.lookup c).getD 0
  | .oct ds => UInt8.ofNat (octVal ds)
  | .hex ds => UInt8.ofNat (hexVal ds)

/-- a piece of a literal delimited by `q` -/
def Piece.Ok (q : UInt8) : Piece → Prop
  | .plain c => c ≠ q ∧ c ≠ 92 ∧ c ≠ 10 ∧ c ≠ 0
  | .simple c => (simpleEscapes.lookup c).isSome
  | .oct ds => 1 ≤ ds.length ∧ ds.length ≤ 3 ∧ (∀ c ∈ ds, isOctDigit c) ∧ octVal ds < 256
  | .hex ds => 1 ≤ ds.length ∧ (∀ c ∈ ds, isHexDigit c) ∧ hexVal ds < 256

/-- a byte that would be read as part of the piece may not follow it -/
def Piece.Takes : Piece → UInt8 → Prop
  | .oct ds, c => ds.length < 3 ∧ isOctDigit c
  | .hex _, c => isHexDigit c
  | _, _ => False

def text (ps : List Piece) : List UInt8 := ps.flatMap Piece.text
def vals (ps : List Piece) : List UInt8 := ps.map Piece.val

/-- the pieces of a string literal, as they are read -/
def Literal (q : UInt8) : List Piece → Prop
  | [] => True
  | p :: ps => p.Ok q ∧ (∀ c, (text ps).head? = some c → ¬ p.Takes c) ∧ Literal q ps

end Bic.Spec
