import Verif.Num.Spec
import Verif.Unit.Spec
/-
How a reader decodes the parsed expression of a formula ([MS-XLS] 2.5.198 Rgce and Ptg structures) and its cached value
(2.5.133 FormulaValue).
-/
namespace Xls.Formula
open Xls.Num

/-- A formula as a reader sees it.  `sheet` in a reference is the index into the EXTERNSHEET list, absent for the formula's
    own sheet; `rowRel` and `colRel` tell which of the two coordinates is relative; `cls` is 1 reference, 2 value, 3 array.  The values of
    an array constant are kept apart from the tokens (`readExtra`). -/
inductive Tree where
  | bool (b : Bool)
  | int (n : Nat)
  | num (bits : Nat)
  | err (code : Nat)
  | missing
  | text (s : List UInt16)
  | ref (cls : Nat) (sheet : Option Nat) (row col : Nat) (rowRel colRel : Bool)
  | area (cls : Nat) (sheet : Option Nat) (row lrow : Nat) (col : Nat) (rowRel colRel : Bool) (lcol : Nat) (lrowRel lcolRel : Bool)
  | un (op : Nat) (a : Tree)
  | bin (op : Nat) (a b : Tree)
  | call (cls code : Nat) (args : List Tree)
  | array (cls : Nat)
deriving Repr

/-- Take `n` operands off the stack; the last one pushed is the last argument. -/
def popArgs (n : Nat) (st : List Tree) : Option (List Tree × List Tree) :=
  if n ≤ st.length then some ((st.take n).reverse, st.drop n) else none

/-- ColRelU: 14 bits of column, then the flags for a relative column and a relative row. -/
def colRel (v : Nat) : Nat × Bool × Bool := (v % 2 ^ 14, v / 2 ^ 15 % 2 == 1, v / 2 ^ 14 % 2 == 1)

/-- Read a reference: row and column fields. -/
def readRef (cls : Nat) (sheet : Option Nat) (bs : Bytes) : Option (Tree × Bytes) :=
  (takeLE 2 bs).bind fun (row, bs) => (takeLE 2 bs).map fun (c, bs) =>
    (.ref cls sheet row (colRel c).1 (colRel c).2.1 (colRel c).2.2, bs)

/-- Read an area: first row, last row, first column, last column. -/
def readArea (cls : Nat) (sheet : Option Nat) (bs : Bytes) : Option (Tree × Bytes) :=
  (takeLE 2 bs).bind fun (row, bs) => (takeLE 2 bs).bind fun (lrow, bs) => (takeLE 2 bs).bind fun (c, bs) =>
    (takeLE 2 bs).map fun (d, bs) =>
      (.area cls sheet row lrow (colRel c).1 (colRel c).2.1 (colRel c).2.2 (colRel d).1 (colRel d).2.1 (colRel d).2.2, bs)

/-- Apply the token whose first byte is `t` to the operand stack, reading the rest of it from `r`.  `ar` gives the number of
    arguments of the functions that have a fixed number, which the reader knows. -/
def applyToken (ar : Nat → Option Nat) (st : List Tree) (t : Nat) (r : Bytes) : Option (List Tree × Bytes) :=
  if 3 ≤ t ∧ t ≤ 0x11 then
    match st with
    | y :: x :: st => some (.bin t x y :: st, r)
    | _ => none
  else if 0x12 ≤ t ∧ t ≤ 0x15 then
    match st with
    | x :: st => some (.un t x :: st, r)
    | _ => none
  else if t = 0x16 then some (.missing :: st, r)
  else if t = 0x17 then (Spec.readStr1 r).map fun (s, r) => (.text s :: st, r)
  else if t = 0x1C then (takeLE 1 r).map fun (c, r) => (.err c :: st, r)
  else if t = 0x1D then
    (takeLE 1 r).bind fun (c, r) =>
      if c = 0 then some (.bool false :: st, r) else if c = 1 then some (.bool true :: st, r) else none
  else if t = 0x1E then (takeLE 2 r).map fun (c, r) => (.int c :: st, r)
  else if t = 0x1F then (takeLE 8 r).map fun (c, r) => (.num c :: st, r)
  else if 0x20 ≤ t ∧ t < 0x80 then
    if t % 32 = 0 then (takeN 7 r).map fun (_, r) => (.array (t / 32) :: st, r)
    else if t % 32 = 1 then
      (takeLE 2 r).bind fun (f, r) => (ar f).bind fun n =>
        (popArgs n st).map fun (args, st) => (.call (t / 32) f args :: st, r)
    else if t % 32 = 2 then
      (takeLE 1 r).bind fun (n, r) => (takeLE 2 r).bind fun (f, r) =>
        (popArgs (n % 128) st).map fun (args, st) => (.call (t / 32) (f % 2 ^ 15) args :: st, r)
    else if t % 32 = 4 then (readRef (t / 32) none r).map fun (x, r) => (x :: st, r)
    else if t % 32 = 5 then (readArea (t / 32) none r).map fun (x, r) => (x :: st, r)
    else if t % 32 = 0x1A then
      (takeLE 2 r).bind fun (i, r) => (readRef (t / 32) (some i) r).map fun (x, r) => (x :: st, r)
    else if t % 32 = 0x1B then
      (takeLE 2 r).bind fun (i, r) => (readArea (t / 32) (some i) r).map fun (x, r) => (x :: st, r)
    else none
  else none

/-- Read tokens to the end; every token has at least one byte, so `bs.length` rounds are enough. -/
def tokens (ar : Nat → Option Nat) : Nat → List Tree → Bytes → Option (List Tree)
  | _, st, [] => some st
  | 0, _, _ :: _ => none
  | n + 1, st, b :: r => (applyToken ar st b.toNat r).bind fun (st, r) => tokens ar n st r

/-- A parsed expression is well formed if it leaves exactly one operand: the formula's tree. -/
def parse (ar : Nat → Option Nat) (bs : Bytes) : Option Tree :=
  match tokens ar bs.length [] bs with
  | some [t] => some t
  | _ => none

/-- One value of an array constant. -/
inductive Item where
  | nil
  | num (bits : Nat)
  | text (s : List UInt16)
  | bool (v : Nat)
  | err (v : Nat)
deriving Repr, DecidableEq

/-- SerAr, [MS-XLS] 2.5.198.8: a type byte, then 8 bytes, or a string with a 16-bit count for texts. -/
def readItem (bs : Bytes) : Option (Item × Bytes) :=
  match bs with
  | [] => none
  | b :: r =>
    if b.toNat = 0 then (takeLE 8 r).map fun (_, r) => (.nil, r)
    else if b.toNat = 1 then (takeLE 8 r).map fun (v, r) => (.num v, r)
    else if b.toNat = 2 then (Spec.readStr2 r).map fun (s, r) => (.text s, r)
    else if b.toNat = 4 then (takeLE 8 r).map fun (v, r) => (.bool (v % 256), r)
    else if b.toNat = 16 then (takeLE 8 r).map fun (v, r) => (.err (v % 256), r)
    else none

def readItems : Nat → Bytes → Option (List Item × Bytes)
  | 0, bs => some ([], bs)
  | n + 1, bs => (readItem bs).bind fun (x, bs) => (readItems n bs).map fun (l, bs) => (x :: l, bs)

/-- PtgExtraArray, [MS-XLS] 2.5.198.6: columns less one, rows less one, then the values row by row. -/
def readExtra (bs : Bytes) : Option ((Nat × Nat × List Item) × Bytes) :=
  (takeLE 1 bs).bind fun (c, bs) => (takeLE 2 bs).bind fun (r, bs) =>
    (readItems ((c + 1) * (r + 1)) bs).map fun (l, bs) => ((c + 1, r + 1, l), bs)

/-- The cached value of a formula. -/
inductive Cached where
  | num (bits : Nat)
  | str
  | bool (b : Bool)
  | err (code : Nat)
  | blank
deriving Repr, DecidableEq

/-- FormulaValue: if the last two bytes are 0xFF the first byte tells the kind and the third holds the value
    (a boolean is 0 or 1); otherwise the eight bytes are a double. -/
def readCached (v : Nat) : Option Cached :=
  if v / 2 ^ 48 % 2 ^ 16 = 0xFFFF then
    if v % 256 = 0 then some .str
    else if v % 256 = 1 then
      if v / 2 ^ 16 % 256 = 0 then some (.bool false) else if v / 2 ^ 16 % 256 = 1 then some (.bool true) else none
    else if v % 256 = 2 then some (.err (v / 2 ^ 16 % 256))
    else if v % 256 = 3 then some .blank
    else none
  else some (.num v)

/-- A FORMULA record: position, format, cached value, flags (bit 0 always recalculate, bit 1 recalculate on load), and
    the parsed expression with what follows it. -/
structure FormulaRec where
  row : Nat
  col : Nat
  xf : Nat
  value : Nat
  flags : Nat
  rgce : Bytes
  rest : Bytes
deriving Repr, DecidableEq

/-- FORMULA, [MS-XLS] 2.4.127. -/
def readFormula (p : Bytes) : Option FormulaRec :=
  (takeLE 2 p).bind fun (row, p) => (takeLE 2 p).bind fun (col, p) => (takeLE 2 p).bind fun (xf, p) =>
    (takeLE 8 p).bind fun (v, p) => (takeLE 2 p).bind fun (fl, p) => (takeLE 4 p).bind fun (_, p) =>
      (takeLE 2 p).bind fun (n, p) => (takeN n p).map fun (e, p) => ⟨row, col, xf, v, fl, e, p⟩

/-- ARRAY, [MS-XLS] 2.4.4: the range (rows 16 bits, columns 8 bits), flags, unused, then the parsed expression. -/
def readArray (p : Bytes) : Option (Nat × Nat × Nat × Nat × Bytes × Bytes) :=
  (takeLE 2 p).bind fun (r1, p) => (takeLE 2 p).bind fun (r2, p) => (takeLE 1 p).bind fun (c1, p) =>
    (takeLE 1 p).bind fun (c2, p) => (takeLE 2 p).bind fun (_, p) => (takeLE 4 p).bind fun (_, p) =>
      (takeLE 2 p).bind fun (n, p) => (takeN n p).map fun (e, p) => (r1, r2, c1, c2, e, p)

end Xls.Formula
