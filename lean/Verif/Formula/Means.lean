import Verif.Formula.Model
import Verif.Formula.Spec
/-
When a tree read from a file is the formula the caller built: the same operators, operands, references with their
addressing modes, functions and arguments.  And which expressions are within the limits of the file format.
-/
namespace Xls.Formula
open Xls.Num

/-- An addressing mode by name: whether row and column are relative.  A `$` (written `s` in the names CELL_RELATIVE_A1,
    CELL_ABSOLUTE_As1, CELL_ABSOLUTE_sA1, CELL_ABSOLUTE_sAs1, formula_const.h 37-43) makes the coordinate after it absolute:
    the letter is the column, the digit the row. -/
def modeRel : Nat → Option (Bool × Bool)
  | 0xC000 => some (true, true)    -- A1
  | 0x8000 => some (false, true)   -- A$1
  | 0x4000 => some (true, false)   -- $A1
  | 0 => some (false, false)       -- $A$1
  | _ => none

/-- The sheet a reader should see: none for a reference to the formula's own sheet, or if either sheet is not known. -/
def sheetSeen (own sheet : Option Nat) : Option Nat :=
  match own, sheet with
  | some i, some j => if i = j then none else some j
  | _, _ => none

mutual
/-- The tree `t` is the expression `e` of a formula on sheet `own`. -/
def Means (own : Option Nat) : Expr → Tree → Prop
  | .bool b, .bool b' => b = b'
  | .int z, .int n => z = n
  | .int z, .num b => Denotes b z
  | .num b, .num b' => b = b'
  | .err c, .err c' => c = c'
  | .missing, .missing => True
  | .text s, .text s' => s = s'
  | .ref r c sh m k, .ref k' sh' r' c' rr cr =>
    k = 32 * k' ∧ sh' = sheetSeen own sh ∧ r = r' ∧ c = c' ∧ modeRel m = some (rr, cr)
  | .area r c sh lr lc m k, .area k' sh' r' lr' c' rr cr lc' lrr lcr =>
    k = 32 * k' ∧ sh' = sheetSeen own sh ∧ r = r' ∧ c = c' ∧ lr = lr' ∧ lc = lc' ∧
      modeRel m = some (rr, cr) ∧ modeRel m = some (lrr, lcr)
  | .un op a, .un op' a' => op = op' ∧ Means own a a'
  | .bin op a b, .bin op' a' b' => op = op' ∧ Means own a a' ∧ Means own b b'
  | .func code k args, .call k' code' args' => (k = 32 * k' ∨ k = 0) ∧ code = code' ∧ MeansAll own args args'
  | _, _ => False
def MeansAll (own : Option Nat) : List Expr → List Tree → Prop
  | [], [] => True
  | a :: r, a' :: r' => Means own a a' ∧ MeansAll own r r'
  | _, _ => False
end

/-- The library's table permits `n` arguments for the function. -/
def Accepts (code n : Nat) : Prop := n ≤ 30 ∧ (funcProp code).2.testBit n = true ∨ (funcProp code).2 = anyCount ∧ n ≤ 127

/-- The operand classes of formula_const.h 49-51. -/
def IsClass (k : Nat) : Prop := k = 0x20 ∨ k = 0x40 ∨ k = 0x60

mutual
/-- Within the format's limits (256 columns, 65536 rows, texts of at most 255 characters, known operators), references with an
    operand class, integers of 32 bits, and function calls with a permitted number of arguments. -/
def Proper : Expr → Prop
  | .bool _ => True
  | .int z => -2 ^ 31 ≤ z ∧ z < 2 ^ 31
  | .num b => b < 2 ^ 64
  | .err c => c < 256
  | .missing => True
  | .text s => s.length < 256
  | .ref r c sh m k => r < 65536 ∧ c < 256 ∧ (∀ i, sh = some i → i < 65536) ∧ (modeRel m).isSome ∧ IsClass k
  | .area r c sh lr lc m k =>
    r < 65536 ∧ c < 256 ∧ (∀ i, sh = some i → i < 65536) ∧ lr < 65536 ∧ lc < 256 ∧ (modeRel m).isSome ∧ IsClass k
  | .un op a => (0x12 ≤ op ∧ op ≤ 0x15) ∧ Proper a
  | .bin op a b => (3 ≤ op ∧ op ≤ 0x11) ∧ Proper a ∧ Proper b
  | .func code k args => code < 2 ^ 15 ∧ (k = 0 ∨ IsClass k) ∧ Accepts code args.length ∧ ProperAll args
def ProperAll : List Expr → Prop
  | [] => True
  | a :: r => Proper a ∧ ProperAll r
end

mutual
/-- No reference with one relative and one absolute coordinate, and no call of a function that takes exactly six arguments
    (CUMPRINC 447 and CUMIPMT 448). -/
def Plain : Expr → Prop
  | .ref _ _ _ m _ => m = 0 ∨ m = 0xC000
  | .area _ _ _ _ _ m _ => m = 0 ∨ m = 0xC000
  | .un _ a => Plain a
  | .bin _ a b => Plain a ∧ Plain b
  | .func code _ args => code ≠ 447 ∧ code ≠ 448 ∧ PlainAll args
  | _ => True
def PlainAll : List Expr → Prop
  | [] => True
  | a :: r => Plain a ∧ PlainAll r
end

/-- What the reader has to know: the functions with a fixed number of arguments, where it agrees with the library's table. -/
def KnowsArity (ar : Nat → Option Nat) : Prop := ∀ code n, (funcProp code).2 = 2 ^ n → ar code = some n

end Xls.Formula
