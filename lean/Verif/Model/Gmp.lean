/-!
# GMP operations used by the evaluator

`/repo/src/evaluate.c` keeps every integer value in an `mpz_t` (T_INTEGER,
`/repo/src/c.lang:15-16`).  An `mpz_t` is modelled by `Int`; the functions below
are the GMP functions the evaluator calls, as documented in the GMP manual and
implemented in GMP 6 on a 64-bit machine (one limb = 64 bits).
Simplification: GMP aborts when a result does not fit into memory; `Int` has no
such limit.
-/

namespace Bic

/-- `mpz_get_si` (evaluate.c:1153, 1993, 2023, 2046, 2060, 2758; GMP `mpz/get_si.c`):
the low 63 bits of the magnitude with the sign of the argument, except that the
most negative value is reachable. -/
def mpzGetSi (z : Int) : Int :=
  if 0 ≤ z then z % 2 ^ 63 else -1 - ((-z - 1) % 2 ^ 63)

/-- `mpz_get_ui` (evaluate.c:619, 1219, 1433, 1455, 2309, 2366): the low 64 bits
of the magnitude; the sign is ignored. -/
def mpzGetUi (z : Int) : Nat := z.natAbs % 2 ^ 64

/-- bits of `a` that are not in `b` (helper for the sign cases below). -/
def natAndNot (a b : Nat) : Nat := a ^^^ (a &&& b)

/-- `mpz_and` (evaluate.c:1521): two's complement with infinite sign extension. -/
def mpzAnd : Int → Int → Int
  | .ofNat a, .ofNat b => .ofNat (a &&& b)
  | .ofNat a, .negSucc b => .ofNat (natAndNot a b)
  | .negSucc a, .ofNat b => .ofNat (natAndNot b a)
  | .negSucc a, .negSucc b => .negSucc (a ||| b)

/-- `mpz_ior` (evaluate.c:1477). -/
def mpzIor : Int → Int → Int
  | .ofNat a, .ofNat b => .ofNat (a ||| b)
  | .ofNat a, .negSucc b => .negSucc (natAndNot b a)
  | .negSucc a, .ofNat b => .negSucc (natAndNot a b)
  | .negSucc a, .negSucc b => .negSucc (a &&& b)

/-- `mpz_xor` (evaluate.c:1499). -/
def mpzXor : Int → Int → Int
  | .ofNat a, .ofNat b => .ofNat (a ^^^ b)
  | .ofNat a, .negSucc b => .negSucc (a ^^^ b)
  | .negSucc a, .ofNat b => .negSucc (a ^^^ b)
  | .negSucc a, .negSucc b => .ofNat (a ^^^ b)

/-- `mpz_com` (evaluate.c:1366). -/
def mpzCom (z : Int) : Int := -z - 1

/-- `mpz_mul_2exp` (evaluate.c:1433). -/
def mpzMul2exp (z : Int) (n : Nat) : Int := z * 2 ^ n

/-- `mpz_tdiv_q_2exp` (evaluate.c:1455): quotient truncated toward zero. -/
def mpzTdivQ2exp (z : Int) (n : Nat) : Int := z.tdiv (2 ^ n)

/-- `mpz_div` (evaluate.c:1567): in `gmp.h` `mpz_div` is `mpz_fdiv_q`, the
quotient rounded toward minus infinity.  Zero divisor: GMP raises SIGFPE (`none`). -/
def mpzDiv (a b : Int) : Option Int := if b = 0 then none else some (a.fdiv b)

/-- `mpz_tdiv_r` (evaluate.c:1589): remainder of the truncated quotient.
Zero divisor: SIGFPE (`none`). -/
def mpzTdivR (a b : Int) : Option Int := if b = 0 then none else some (a.tmod b)

/-- `mpz_cmp` (evaluate.c:1612, 1636, 1660, 1684, 1716, 1744; only the sign is used) -/
def mpzCmp (a b : Int) : Int := if a < b then -1 else if a = b then 0 else 1

end Bic
