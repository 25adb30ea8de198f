import Verif.Model.ListC
/-!
# The hash table, `/repo/src/hash_table.c`
-/

namespace Bic
namespace HashTable
open ListC

/-- `get16bits(d)` (hash_table.c:33-35) on the bytes at `d` -/
def get16 (a b : UInt8) : UInt32 := (b.toUInt32 <<< 8) + a.toUInt32

/-- `(signed char)c` converted to `uint32_t` (the sum and the shift are computed
modulo 2^32) -/
def scharTo32 (c : UInt8) : UInt32 := if c < 128 then c.toUInt32 else c.toUInt32 - 256

/-- The main loop and the end cases (hash_table.c:47-75); the pattern selects
what `len`/`rem` select. -/
def hashLoop (hash : UInt32) : List UInt8 → UInt32
  | a :: b :: c :: d :: rest =>
    let hash := hash + get16 a b
    let tmp := (get16 c d <<< 11) ^^^ hash
    let hash := (hash <<< 16) ^^^ tmp
    let hash := hash + (hash >>> 11)
    hashLoop hash rest
  | [a, b, c] =>
    let hash := hash + get16 a b
    let hash := hash ^^^ (hash <<< 16)
    let hash := hash ^^^ (scharTo32 c <<< 18)
    hash + (hash >>> 11)
  | [a, b] =>
    let hash := hash + get16 a b
    let hash := hash ^^^ (hash <<< 11)
    hash + (hash >>> 17)
  | [a] =>
    let hash := hash + scharTo32 a
    let hash := hash ^^^ (hash <<< 10)
    hash + (hash >>> 1)
  | [] => hash

/-- `super_fast_hash` (hash_table.c:37-83) on the bytes of the string before its
terminating NUL -/
def superFastHash (data : List UInt8) : UInt32 :=
  if data.length = 0 then 0
  else
    let hash := hashLoop (UInt32.ofNat data.length) data
    let hash := hash ^^^ (hash <<< 3)
    let hash := hash + (hash >>> 5)
    let hash := hash ^^^ (hash <<< 4)
    let hash := hash + (hash >>> 17)
    let hash := hash ^^^ (hash <<< 25)
    hash + (hash >>> 6)

/-- `struct hash_table` (hash_table.h:7-10): the list objects of the bins and
`bits`.  `bin i` is the identity of `&table[i]`. -/
structure Table where
  bin : Nat → Nat
  bits : Nat

/-- the initialisation loop of `hash_table_alloc` (hash_table.c:13-14) -/
def initBins (bin : Nat → Nat) : Nat → Heap → Option Heap
  | 0, h => some h
  | n + 1, h => do
    let h ← initBins bin n h
    initList (some (bin n)) h

/-- `hash_table_alloc(bits)` (hash_table.c:6-17), for memory whose list objects are
`bin 0, …` -/
def alloc (bin : Nat → Nat) (bits : Nat) (h : Heap) : Option (Table × Heap) := do
  let h ← initBins bin (1 <<< bits) h
  pure ({ bin, bits }, h)

/-- `super_fast_hash(key) & ((1 << ht->bits) - 1)` (hash_table.c:87, 93) -/
def binOf (bits : Nat) (key : List UInt8) : Nat := (superFastHash key).toNat &&& ((1 <<< bits) - 1)

/-- `hash_table_add` (hash_table.c:85-89) -/
def add (ht : Table) (key : List UInt8) (element : Nat) (h : Heap) : Option Heap :=
  listAdd (some element) (some (ht.bin (binOf ht.bits key))) h

/-- `hash_table_get_bin` (hash_table.c:91-95) -/
def getBin (ht : Table) (key : List UInt8) : Nat := ht.bin (binOf ht.bits key)

end HashTable
end Bic
