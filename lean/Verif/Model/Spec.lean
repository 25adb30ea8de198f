import Verif.Model.Tree
/-!
# The declaration-specifier resolver

`/repo/src/genspecresolver.cpp` reads the `defspecifier` entries of
`/repo/src/c.lang:271-316` and writes `resolve_decl_specs_to_type`.  Modelled are
both the generator (bit allocation) and the generated function.
-/

namespace Bic

/-- The result trees named in `defspecifier` (a C type or D_T_VOID). -/
inductive SpecTy where
  | c (t : CT)
  | void
deriving DecidableEq, Repr

/-- `lang.specMaps`: result type and the specifier lists denoting it
(lang.h; filled from c.lang:271-310). -/
abbrev SpecTable (K : Type) := List (SpecTy × List (List K))

/-- All specifier lists of the table with their result, in order. -/
def SpecTable.rows {K} (t : SpecTable K) : List (List K × SpecTy) :=
  t.flatMap fun e => e.2.map fun l => (l, e.1)

/-- `noBitsPerSpecifier[k]` (genspecresolver.cpp:34-47): the largest number of
times `k` occurs in one list. -/
def noBits {K} [DecidableEq K] (t : SpecTable K) (k : K) : Nat :=
  t.rows.foldl (fun m r => max m (r.1.count k)) 0

/-- `bitAllocations[k]` (genspecresolver.cpp:49-73): specifiers are visited in the
order of the `std::map` (`keys`), each taking `noBits` consecutive positions. -/
def bitBase {K} [DecidableEq K] (t : SpecTable K) : List K → K → Nat
  | [], _ => 0
  | k' :: ks, k => if k' = k then 0 else noBits t k' + bitBase t ks k

/-- The code generated for `case k:` (genspecresolver.cpp:53-72): set the first
clear bit among the `n` bits from `base`; `none` is `eval_die` ("duplicate" /
"too many"). -/
def setFirstClear (bs base : Nat) : Nat → Option Nat
  | 0 => none
  | n + 1 =>
    if bs.testBit base then setFirstClear bs (base + 1) n
    else some (bs ||| (1 <<< base))

/-- One iteration of the generated loop for a specifier with bits. -/
def addSpec {K} [DecidableEq K] (t : SpecTable K) (keys : List K) (bs : Nat) (k : K) :
    Option Nat :=
  if k ∈ keys then setFirstClear bs (bitBase t keys k) (noBits t k) else none

/-- The `case` label generated for a list (genspecresolver.cpp:104-118). -/
def rowBits {K} [DecidableEq K] (t : SpecTable K) (keys : List K) : List K → List K → Nat
  | _, [] => 0
  | seen, k :: ks =>
    (1 <<< (bitBase t keys k + seen.count k)) ||| rowBits t keys (k :: seen) ks

/-- The generated `switch(spec_bitstring)` (genspecresolver.cpp:97-131). -/
def switchBits {K} [DecidableEq K] (t : SpecTable K) (keys : List K) (bs : Nat) :
    Option SpecTy :=
  (t.rows.find? fun r => rowBits t keys [] r.1 == bs).map (·.2)

/-- The generated function on a list of specifiers that all have bits. -/
def resolveBits {K} [DecidableEq K] (t : SpecTable K) (keys : List K) :
    Nat → List K → Option SpecTy
  | bs, [] => switchBits t keys bs
  | bs, k :: ks =>
    match addSpec t keys bs k with
    | some bs' => resolveBits t keys bs' ks
    | none => none

/-- `/repo/src/c.lang:271-310`. -/
def clangTable : SpecTable Kw :=
  [ (.c .char, [[.char], [.signed, .char]]),
    (.c .short, [[.short], [.signed, .short], [.short, .int], [.signed, .short, .int]]),
    (.c .int, [[.int], [.signed], [.signed, .int]]),
    (.c .long, [[.long], [.signed, .long], [.long, .int], [.signed, .long, .int]]),
    (.c .longlong, [[.long, .long], [.signed, .long, .long], [.long, .long, .int],
      [.signed, .long, .long, .int]]),
    (.c .uchar, [[.unsigned, .char]]),
    (.c .ushort, [[.unsigned, .short], [.unsigned, .short, .int]]),
    (.c .uint, [[.unsigned], [.unsigned, .int]]),
    (.c .ulong, [[.unsigned, .long], [.unsigned, .long, .int]]),
    (.c .ulonglong, [[.unsigned, .long, .long], [.unsigned, .long, .long, .int]]),
    (.c .float, [[.float]]),
    (.c .double, [[.double]]),
    (.c .longdouble, [[.long, .double]]),
    (.void, [[.void]]) ]

/-- The keys of `noBitsPerSpecifier` in `std::map` order: T_CHAR_TS, T_DOUBLE_TS,
T_FLOAT_TS, T_INT_TS, T_LONG_TS, T_SHORT_TS, T_SIGNED_TS, T_UNSIGNED_TS,
T_VOID_TS. -/
def clangKeys : List Kw :=
  [.char, .double, .float, .int, .long, .short, .signed, .unsigned, .void]

/-- `(defspecifier :ignore …)`, c.lang:311-313. -/
def ignoredSpec : Kw → Bool
  | .extern | .typedef | .static => true
  | _ => false

/-- The generated function on specifier keywords only: ignored specifiers are
skipped, a specifier without bits is an error. -/
def resolveKws : Nat → List Kw → Option SpecTy
  | bs, [] => switchBits clangTable clangKeys bs
  | bs, k :: ks =>
    if ignoredSpec k then resolveKws bs ks
    else match addSpec clangTable clangKeys bs k with
      | some bs' => resolveKws bs' ks
      | none => none

end Bic
