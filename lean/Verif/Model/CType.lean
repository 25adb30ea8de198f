/-!
# C object types and byte memory

The table of C types (`/repo/src/c.lang:255-269`, used through `ctypes.def`),
the raw representation of values in `union value`
(`/repo/src/tree.h:53-58`), and memory.
Platform: x86-64 System V, little endian.
-/

namespace Bic

/-- The C types of `/repo/src/c.lang:255-268` (D_T_CHAR … D_T_PTR), in order. -/
inductive CT where
  | char | short | int | long | longlong
  | uchar | ushort | uint | ulong | ulonglong
  | float | double | longdouble | ptr
deriving DecidableEq, Repr

namespace CT

/-- `sizeof(CTYPE)` for the C type named in `/repo/src/c.lang:255-268`. -/
def size : CT → Nat
  | char | uchar => 1
  | short | ushort => 2
  | int | uint | float => 4
  | long | longlong | ulong | ulonglong | double | ptr => 8
  | longdouble => 16

/-- `case D_T_CHAR ... D_T_ULONGLONG:` (evaluate.c:349, 1238). -/
def isInt : CT → Bool
  | char | short | int | long | longlong
  | uchar | ushort | uint | ulong | ulonglong => true
  | _ => false

/-- `case D_T_FLOAT ... D_T_DOUBLE:` (evaluate.c:1241). -/
def isFloat : CT → Bool
  | float | double => true
  | _ => false

/-- floating types (the casts of evaluate.c:1911-1949). -/
def isFp : CT → Bool
  | float | double | longdouble => true
  | _ => false

/-- signed integer types of the table. -/
def isSigned : CT → Bool
  | char | short | int | long | longlong => true
  | _ => false

end CT

/-- Number of byte patterns of a type. -/
def CT.modulus (c : CT) : Nat := 256 ^ c.size

/-- The mathematical value of `raw` read as the integer (or pointer) type `c`
(the C semantics of reading a member of `union value`, tree.h:53-58). -/
def CT.decode (c : CT) (raw : Nat) : Int :=
  if c.isSigned && decide (c.modulus ≤ 2 * raw) then (raw : Int) - c.modulus else raw

/-- The bytes stored by `tLV_VAL(v)->TNAME = (CTYPE)val` for integer and pointer
types (C conversion, gcc: reduction modulo 2^width), evaluate.c:1162-1168. -/
def CT.encode (c : CT) (v : Int) : Nat := (v % (c.modulus : Int)).toNat

/-- The C cast `(ptrdiff_t)x` of a value (evaluate.c:317). -/
def toPtrdiff (v : Int) : Int := CT.long.decode (CT.long.encode v)

/-- A byte. -/
abbrev Byte := Fin 256

/-- Memory.  `byte` is the content of each address (arbitrary where never
written: fresh `malloc` memory has arbitrary contents), `live` the bytes that may
be accessed, `brk` the next address `malloc` will return.  Addresses handed out
are never handed out again, so a model run never confuses two objects. -/
structure Mem where
  byte : Nat → Byte
  live : Nat → Bool
  brk : Nat

namespace Mem

/-- Little-endian value of the `n` bytes at `a`. -/
def load (m : Mem) : Nat → Nat → Nat
  | 0, _ => 0
  | n + 1, a => (m.byte a).val + 256 * m.load n (a + 1)

/-- Write one byte. -/
def setByte (m : Mem) (a : Nat) (b : Byte) : Mem :=
  { m with byte := fun x => if x = a then b else m.byte x }

/-- Write `n` bytes of `v`, little endian, at `a`. -/
def store (m : Mem) : Nat → Nat → Nat → Mem
  | 0, _, _ => m
  | n + 1, a, v => (m.setByte a (Fin.ofNat 256 v)).store n (a + 1) (v / 256)

/-- Write a list of bytes at `a`. -/
def storeBytes (m : Mem) (a : Nat) : List Byte → Mem
  | [] => m
  | b :: bs => (m.setByte a b).storeBytes (a + 1) bs

/-- All of the `n` bytes at `a` may be accessed. -/
def ok (m : Mem) : Nat → Nat → Bool
  | 0, _ => true
  | n + 1, a => m.live a && m.ok n (a + 1)

/-- First address `malloc` never returns. -/
def limit : Nat := 2 ^ 47

/-- `malloc(n)`: 16-byte aligned, blocks separated by at least one granule;
`none` is failure. -/
def malloc (m : Mem) (n : Nat) : Option (Nat × Mem) :=
  let a := m.brk
  let e := a + (n / 16 + 1) * 16 + 16
  if e < limit then
    some (a, { m with brk := e, live := fun x => if a ≤ x ∧ x < a + n then true else m.live x })
  else none

end Mem

end Bic
