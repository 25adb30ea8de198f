import Verif.Model.Lexer
import Verif.Model.Eval
/-!
# Printing values (pretty-printer.c)
-/

namespace Bic.Printer

open Bic.Lexer (Str bytes)

/-- decimal digits, as `printf` and `gmp_printf` write a number without a sign -/
def digits (n : Nat) : Str :=
  if n < 10 then [UInt8.ofNat (48 + n)] else digits (n / 10) ++ [UInt8.ofNat (48 + n % 10)]

/-- decimal text of an integer: `gmp_printf("%Zd")` -/
def decimal (i : Int) : Str := if i < 0 then 45 :: digits i.natAbs else digits i.natAbs

/-- the conversions of the formats of the integer types (c.lang:255-264): signedness and width in
bytes of what `printf` takes the argument for -/
inductive Fmt where
  | d | hd | ld | lld | u | hu | lu | llu

/-- what `printf` prints for an argument, given modulo 2^64 by an integer -/
def Fmt.print : Fmt → Int → Str
  | .d, v => decimal (Int.bmod v (2 ^ 32))
  | .hd, v => decimal (Int.bmod v (2 ^ 16))
  | .ld, v => decimal (Int.bmod v (2 ^ 64))
  | .lld, v => decimal (Int.bmod v (2 ^ 64))
  | .u, v => decimal (v % 2 ^ 32)
  | .hu, v => decimal (v % 2 ^ 16)
  | .lu, v => decimal (v % 2 ^ 64)
  | .llu, v => decimal (v % 2 ^ 64)

/-- the formats of `ctypes.def`, generated from c.lang:255-264 -/
def fmtOf : CT → Option Fmt
  | .char => some .d
  | .short => some .hd
  | .int => some .d
  | .long => some .ld
  | .longlong => some .lld
  | .uchar => some .u
  | .ushort => some .hu
  | .uint => some .u
  | .ulong => some .lu
  | .ulonglong => some .llu
  | _ => none

/-- `__pp_1` (pretty-printer.c:64-90) with `pp_live_var` (15-43) for integer objects and
variables of integer types.  The variable is passed to `printf` with
the default promotions, which keep its value. -/
def ppInt (s : St) (t : TId) : Option Str :=
  match s.nodes t with
  | some (.integer v) => some (decimal v)
  | some (.lv (some ty) a _ _) =>
    match s.nodes ty with
    | some (.ctype c _) => (fmtOf c).map fun f => f.print (c.decode (s.mem.load c.size a))
    | _ => none
  | _ => none

/-! ## The whole of pretty-printer.c -/

/-- what is printed for floating point values: `mpf` for `gmp_printf("%Ff")`, `fp` for `%f` and `%Lf` -/
structure Floats where
  mpf : Nat → Str
  fp : CT → Nat → Str

/-- hexadecimal digits -/
def hexDigits (n : Nat) : Str :=
  let d := n % 16
  let c := UInt8.ofNat (if d < 10 then 48 + d else 87 + d)
  if n < 16 then [c] else hexDigits (n / 16) ++ [c]

/-- `%p` of the GNU C library -/
def pointerText (a : Nat) : Str := if a = 0 then bytes "(nil)" else bytes "0x" ++ hexDigits a

/-- the bytes of the string at an address, up to its NUL; there is none if the bytes may not be read -/
inductive StringAt (m : Mem) : Nat → Str → Prop
  | nul {a} : m.ok 1 a = true → m.byte a = 0 → StringAt m a []
  | char {a bs} : m.ok 1 a = true → m.byte a ≠ 0 → StringAt m (a + 1) bs → StringAt m a (UInt8.ofNat (m.byte a).val :: bs)

/-- what `%s` prints of the characters of a string literal -/
def upToNul (bs : List Bic.Byte) : Str := (bs.takeWhile (· ≠ 0)).map fun b => UInt8.ofNat b.val

/-- is it the type `char` (the `D_T_CHAR` of pretty-printer.c:32)? -/
def isChar (s : St) (e : Ref) : Prop := ∃ t x, e = some t ∧ s.nodes t = some (.ctype .char x)

/-- the nodes `__pp_1` has a case for (pretty-printer.c:66-84) -/
def printable : Node → Bool
  | .integer _ | .flt _ | .str _ | .ident _ | .lv _ _ _ _ | .lcomp _ _ _ => true
  | _ => false

/-- `pp_print_indent` (7-13) -/
def indent (d : Nat) : Str := List.replicate (4 * d) 32

mutual
/-- `PP fl s d t out`: `__pp_1(t, d)` (62-85) prints `out`; a variable is read according to its type
(`pp_live_var`, 15-40).  There is no result if memory is read that may not be. -/
inductive PP (fl : Floats) (s : St) : Nat → TId → Str → Prop
  | integer {d t v} : s.nodes t = some (.integer v) → PP fl s d t (decimal v)
  | flt {d t b} : s.nodes t = some (.flt b) → PP fl s d t (fl.mpf b)
  | str {d t bs} : s.nodes t = some (.str bs) → PP fl s d t (34 :: upToNul bs ++ [34])
  | ident {d t n} : s.nodes t = some (.ident n) → PP fl s d t (bytes n)
  | lvInt {d t ty a i n c e f} : s.nodes t = some (.lv (some ty) a i n) → s.nodes ty = some (.ctype c e) → fmtOf c = some f →
      s.mem.ok c.size a = true → PP fl s d t (f.print (c.decode (s.mem.load c.size a)))
  | lvFp {d t ty a i n c e} : s.nodes t = some (.lv (some ty) a i n) → s.nodes ty = some (.ctype c e) → c.isFp = true →
      s.mem.ok c.size a = true → PP fl s d t (fl.fp c (s.mem.load c.size a))
  | lvPtr {d t ty a i n e} : s.nodes t = some (.lv (some ty) a i n) → s.nodes ty = some (.ctype .ptr e) →
      s.mem.ok 8 a = true → (¬ isChar s e ∨ s.mem.load 8 a = 0) → PP fl s d t (pointerText (s.mem.load 8 a))
  | lvStr {d t ty a i n e out} : s.nodes t = some (.lv (some ty) a i n) → s.nodes ty = some (.ctype .ptr e) →
      s.mem.ok 8 a = true → isChar s e → s.mem.load 8 a ≠ 0 → StringAt s.mem (s.mem.load 8 a) out →
      PP fl s d t (pointerText (s.mem.load 8 a) ++ bytes " (\"" ++ out ++ bytes "\")")
  | lvOther {d t ty a i n k} : s.nodes t = some (.lv (some ty) a i n) → s.nodes ty = some k → (∀ c e, k ≠ .ctype c e) →
      PP fl s d t (bytes "<Unprintable>")
  | comp {d t c ms b out} : s.nodes t = some (.lcomp c ms b) → PPs fl s (d + 1) ms out →
      PP fl s d t (bytes "{\n" ++ out ++ bytes "}")
  | other {d t n} : s.nodes t = some n → printable n = false → PP fl s d t []
/-- the members (`pp_live_compound`, 42-60) -/
inductive PPs (fl : Floats) (s : St) : Nat → List Binding → Str → Prop
  | nil {d} : PPs fl s d [] []
  | cons {d m v ms out rest} : m.val = some v → PP fl s d v out → PPs fl s d ms rest →
      PPs fl s d (m :: ms) (indent d ++ bytes "." ++ bytes m.name ++ bytes " = " ++ out ++ bytes "\n" ++ rest)
end

/-- the elements of a chain, one after the other -/
inductive PPall (fl : Floats) (s : St) (d : Nat) : List TId → Str → Prop
  | nil : PPall fl s d [] []
  | cons {t ts out rest} : PP fl s d t out → PPall fl s d ts rest → PPall fl s d (t :: ts) (out ++ rest)

/-- `pretty_print(head)` (88-111); the argument is not NULL -/
inductive Prints (fl : Floats) (s : St) (t : TId) : Str → Prop
  | chain {ts out} : s.nodes t = some (.chain ts) → PPall fl s 1 ts out → Prints fl s t out
  | one {n out} : s.nodes t = some n → (∀ ts, n ≠ .chain ts) → PP fl s 0 t out → Prints fl s t out

end Bic.Printer
