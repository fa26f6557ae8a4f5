import Verif.NumFmt.Props
/-
C51: the predefined number formats show what format.h says of them.
-/
namespace Xls.NumFmt

/-- What a number format does, as far as a reader of a sheet can tell. -/
inductive Shape
  | general
  /-- digits after the point, groups of thousands, a currency sign, negative in parentheses, negative in red, sign filled to the
      width of the cell -/
  | number (digits : Nat) (group dollar paren red fill : Bool)
  | percent (digits : Nat)
  | scientific (before digits : Nat)
  | fraction (places : Nat)
  /-- day, month, year (length of each field), then hours, minutes, seconds, tenths -/
  | date (d m y : Nat)
  | time (h m s tenth : Bool) (ampm elapsed : Bool)
  | dateTime
  | text
deriving DecidableEq, Repr

/-- The comments on the enumerators, format.h 92-130. -/
def documented : Nat → Option Shape
  | 0 => some .general
  | 1 => some (.number 0 false false false false false)
  | 2 => some (.number 2 false false false false false)
  | 3 => some (.number 0 true false false false false)
  | 4 => some (.number 2 true false false false false)
  | 5 => some (.number 0 true true true false false)
  | 6 => some (.number 0 true true true true false)
  | 7 => some (.number 2 true true true false false)
  | 8 => some (.number 2 true true true true false)
  | 9 => some (.percent 0)
  | 10 => some (.percent 2)
  | 11 => some (.scientific 1 2)
  | 12 => some (.fraction 1)
  | 13 => some (.fraction 2)
  | 14 => some (.date 1 1 2)
  | 15 => some (.date 1 3 2)
  | 16 => some (.date 1 3 0)
  | 17 => some (.date 0 3 2)
  | 18 => some (.time true true false false true false)
  | 19 => some (.time true true true false true false)
  | 20 => some (.time true true false false false false)
  | 21 => some (.time true true true false false false)
  | 22 => some .dateTime
  | 23 => some (.number 0 true false true false false)
  | 24 => some (.number 0 true false true true false)
  | 25 => some (.number 2 true false true false false)
  | 26 => some (.number 2 true false true true false)
  | 27 => some (.number 0 true true true false true)
  | 28 => some (.number 0 true false true false true)
  | 29 => some (.number 2 true true true false true)
  | 30 => some (.number 2 true false true false true)
  | 31 => some (.time false true true false false false)
  | 32 => some (.time true true true false false true)
  | 33 => some (.time false true true true false false)
  | 34 => some (.scientific 3 1)
  | 35 => some .text
  | _ => none

/-- The built-in formats of a spreadsheet program (ECMA-376-1 18.8.30, [MS-XLS] 2.5.165 IFmt). -/
def builtin : Nat → Option Shape
  | 0 => some .general
  | 1 => some (.number 0 false false false false false)
  | 2 => some (.number 2 false false false false false)
  | 3 => some (.number 0 true false false false false)
  | 4 => some (.number 2 true false false false false)
  | 5 => some (.number 0 true true true false false)
  | 6 => some (.number 0 true true true true false)
  | 7 => some (.number 2 true true true false false)
  | 8 => some (.number 2 true true true true false)
  | 9 => some (.percent 0)
  | 10 => some (.percent 2)
  | 11 => some (.scientific 1 2)
  | 12 => some (.fraction 1)
  | 13 => some (.fraction 2)
  | 14 => some (.date 1 1 2)
  | 15 => some (.date 1 3 2)
  | 16 => some (.date 1 3 0)
  | 17 => some (.date 0 3 2)
  | 18 => some (.time true true false false true false)
  | 19 => some (.time true true true false true false)
  | 20 => some (.time true true false false false false)
  | 21 => some (.time true true true false false false)
  | 22 => some .dateTime
  | 37 => some (.number 0 true false true false false)
  | 38 => some (.number 0 true false true true false)
  | 39 => some (.number 2 true false true false false)
  | 40 => some (.number 2 true false true true false)
  | 41 => some (.number 0 true false true false true)
  | 42 => some (.number 0 true true true false true)
  | 43 => some (.number 2 true false true false true)
  | 44 => some (.number 2 true true true false true)
  | 45 => some (.time false true true false false false)
  | 46 => some (.time true true true false false true)
  | 47 => some (.time false true true true false false)
  | 48 => some (.scientific 3 1)
  | 49 => some .text
  | _ => none

/-- C51 for all enumerators but FMT_CURRENCY5 to FMT_CURRENCY8 (27 to 30).
    Missing for the full claim (all 36): those four, see `c51_swapped`. -/
theorem c51_documented_partial : ∀ n, n < 36 → (n < 27 ∨ 30 < n) → (Xf.format2index n).bind builtin = documented n := by decide

/-- FMT_CURRENCY5 to 8 come out with the currency sign exactly where the documentation has none, and without it where the
    documentation has it: the four codes are in the order 41 to 44, the comments in the order 42, 41, 44, 43. -/
theorem c51_swapped : (∀ n, n < 31 → 27 ≤ n → (Xf.format2index n).bind builtin ≠ documented n) ∧
    (Xf.format2index 27).bind builtin = documented 28 ∧ (Xf.format2index 28).bind builtin = documented 27 ∧
    (Xf.format2index 29).bind builtin = documented 30 ∧ (Xf.format2index 30).bind builtin = documented 29 := by decide

end Xls.NumFmt
