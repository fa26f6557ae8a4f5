import Verif.Biff.Record
/-
Number, boolean, error and blank cells: number.cpp, boolean.cpp, err.cpp, blank.cpp.

A `double` is its 64-bit pattern (a natural number below 2^64), so that every value, NaNs included, is covered.
-/
namespace Xls.Num
open Xls.Biff

/-- Conversion of a natural number below 2^53 to `double` (such a conversion is exact): the pattern has exponent
    `k + 1023` with `2^k ≤ n < 2^(k+1)` and the bits of `n` below the leading one as fraction. -/
def dblOfNat (n : Nat) : Nat :=
  if n = 0 then 0 else (n.log2 + 1023) * 2 ^ 52 + (n * 2 ^ (52 - n.log2) - 2 ^ 52)

/-- `(double)z` for an integer type of at most 53 bits, number.cpp 71 and 89, and the implicit conversions of
    formula.cpp 110 and formula_estimate.cpp 175. -/
def dblOfInt (z : Int) : Nat := if z < 0 then 2 ^ 63 + dblOfNat z.natAbs else dblOfNat z.natAbs

/-- `number_t`, number.h 44-85: the `isDouble` flag and the union. -/
inductive Number where
  | dbl (bits : Nat)
  | int (z : Int)
deriving Repr, DecidableEq

/-- `number_t(…, double, …)`, number.cpp 45-55. -/
def ofDouble (bits : Nat) : Number := .dbl bits

/-- `number_t(…, signed32_t, …)`, number.cpp 57-73; `(signed32_t)0xE0000000` is `-0x20000000`. -/
def ofSigned (z : Int) : Number :=
  if z ≤ 0x1FFFFFFF ∧ z ≥ -0x20000000 then .int z else .dbl (dblOfInt z)

/-- `number_t(…, unsigned32_t, …)`, number.cpp 75-91; `(signed32_t)numval` wraps. -/
def ofUnsigned (n : Nat) : Number :=
  if n ≥ 0xE0000000 then .int (s32OfNat n) else .dbl (dblOfInt n)

/-- The first three fields of every cell record; row and column are cut to 16 bits. -/
def cellHead (row col xf : Nat) : Bytes := leN 2 row ++ leN 2 col ++ leN 2 xf

/-- `CNumber::CNumber`, number.cpp 103-127: type and payload.  `((unsigned32_t)z << 2) | 2`. -/
def numberRecord (row col xf : Nat) : Number → Nat × Bytes
  | .dbl b => (0x203, cellHead row col xf ++ leN 8 b)
  | .int z => (0x27E, cellHead row col xf ++ leN 4 (u32OfInt z * 4 + 2))

/-- `number_t::GetSize`, number.h 59. -/
def numberSize : Number → Nat
  | .dbl _ => 18
  | .int _ => 14

/-- `CBoolean::CBoolean`, boolean.cpp 59-70. -/
def boolRecord (row col xf : Nat) (b : Bool) : Nat × Bytes :=
  (0x205, cellHead row col xf ++ [if b then 1 else 0, 0])

/-- `CErr::CErr`, err.cpp 60-71; the code is one byte. -/
def errRecord (row col xf code : Nat) : Nat × Bytes :=
  (0x205, cellHead row col xf ++ [UInt8.ofNat code, 1])

/-- `CBlank::CBlank`, blank.cpp 64-73. -/
def blankRecord (row col xf : Nat) : Nat × Bytes := (0x201, cellHead row col xf)

/-- `GetSize` of the three: blank.h 53-56, boolean.h 51-54, err.h 64. -/
def blankSize : Nat := 10
def boolSize : Nat := 12
def errSize : Nat := 12

end Xls.Num
