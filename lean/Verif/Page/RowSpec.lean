import Verif.Page.Spec
/-
How a reader gets the rows from the records of a sheet's substream, and what the calls ask for.  Written from the file format.
-/
namespace Xls.Page
open Xls.Biff Xls.Sheet

/-- A row: cells from column `first` up to before `last`, height in twips, hidden, height set by hand rather than by the font, format of the
    row if it has one. -/
structure RowRead where
  row : Nat
  first : Nat
  last : Nat
  height : Nat
  hidden : Bool
  custom : Bool
  xf : Option Nat
deriving Repr, DecidableEq

/-- ROW ([MS-XLS] 2.4.221): number, first column, column after the last, height, four bytes not used, flags (bit 5 hidden, bit 6 height set, bit
    7 formatted), and in 12 bits the format. -/
def readRow (p : Bytes) : Option RowRead :=
  (takeLE 2 p).bind fun (n, p) => (takeLE 2 p).bind fun (f, p) => (takeLE 2 p).bind fun (l, p) => (takeLE 2 p).bind fun (h, p) =>
    (takeLE 4 p).bind fun (_, p) => (takeLE 2 p).bind fun (g, p) => (takeLE 2 p).bind fun (x, p) =>
      if p = [] then some ⟨n, f, l, h, g / 2 ^ 5 % 2 == 1, g / 2 ^ 6 % 2 == 1, if g / 2 ^ 7 % 2 = 1 then some (x % 2 ^ 12) else none⟩ else none

/-- The rows of a sheet. -/
def readRows (R : List Rec) : Option (List RowRead) := (ofType 0x208 (logical R)).mapM readRow

/-- The height and format a call gives to a row. -/
def Act.height (row : Nat) : Act → Option (Nat × Option Nat)
  | .call (.rowheight r w x) => if r.toNat = row then some (w.toNat, x) else none
  | _ => none

/-- The rows are what the program asked for, `W row col` saying that there is a cell: in order; those with a height have the height and format (or
    format 15) last given, and are marked so; the others are not marked; and every cell and every height has its row; and the
    columns of a row without cells are none. -/
structure RowsAsked (W : Nat → Nat → Prop) (acts : List Act) (rows : List RowRead) : Prop where
  order : rows.Pairwise fun a b => a.row < b.row
  shown : ∀ r ∈ rows, r.hidden = false
  set : ∀ r ∈ rows, ∀ w x, latest (Act.height r.row) acts = some (w, x) → r.height = w ∧ r.xf = some (x.getD 15) ∧ r.custom = true
  unset : ∀ r ∈ rows, latest (Act.height r.row) acts = none → r.custom = false ∧ r.xf = some 15
  cells : ∀ row col, W row col → ∃ r ∈ rows, r.row = row ∧ r.first ≤ col ∧ col < r.last
  heights : ∀ row, latest (Act.height row) acts ≠ none → ∃ r ∈ rows, r.row = row
  tight : ∀ r ∈ rows, r.first < r.last → W r.row r.first ∧ W r.row (r.last - 1)

/-- The rows for which the library makes a record: those with cells, and those with a height above a row with cells. -/
def Needed (W : Nat → Nat → Prop) (acts : List Act) (n : Nat) : Prop :=
  (∃ col, W n col) ∨ (latest (Act.height n) acts ≠ none ∧ ∃ row col, n < row ∧ W row col)

/-- After some multiple of 16 of these rows there is exactly one cell. -/
def Lone (W : Nat → Nat → Prop) (acts : List Act) : Prop :=
  ∃ R : List Nat, R.Pairwise (· < ·) ∧ (∀ n, n ∈ R ↔ Needed W acts n) ∧ ∃ k n, R[16 * k + 15]? = some n ∧
    ∃ row col, (n < row ∧ W row col) ∧ ∀ row' col', n < row' → W row' col' → row' = row ∧ col' = col

/-- The library gets past the rows: each group of 16 of them has one with cells, unless at most one cell is left after it. -/
def Steady (W : Nat → Nat → Prop) (acts : List Act) : Prop :=
  ∀ R : List Nat, R.Pairwise (· < ·) → (∀ n, n ∈ R ↔ Needed W acts n) → ∀ k n, R[16 * k + 15]? = some n →
    (∃ m ∈ (R.drop (16 * k)).take 16, ∃ col, W m col) ∨
      ∀ row col row' col', n < row → W row col → n < row' → W row' col' → row = row' ∧ col = col'

/-- The cases in which the rows are as asked: no height is 264, no height is below the last cell, and no cell is alone after 16 rows. -/
structure RowsKept (W : Nat → Nat → Prop) (acts : List Act) : Prop where
  other : ∀ row x, latest (Act.height row) acts ≠ some (264, x)
  above : ∀ row, latest (Act.height row) acts ≠ none → ∃ row' col, row ≤ row' ∧ W row' col
  lone : ¬ Lone W acts

/-- What a reader finds in any case: rows in order, with the heights last given, those of 264 not marked; all others 264 high; and the row of every
    cell, except possibly the last cell. -/
structure RowsAnyway (W : Nat → Nat → Prop) (acts : List Act) (rows : List RowRead) : Prop where
  order : rows.Pairwise fun a b => a.row < b.row
  shown : ∀ r ∈ rows, r.hidden = false
  set : ∀ r ∈ rows, ∀ w x, latest (Act.height r.row) acts = some (w, x) → r.height = w ∧ r.xf = some (x.getD 15) ∧ r.custom = decide (w ≠ 264)
  unset : ∀ r ∈ rows, latest (Act.height r.row) acts = none → r.height = 264 ∧ r.xf = some 15 ∧ r.custom = false
  needed : ∀ r ∈ rows, Needed W acts r.row
  cells : ∀ row col, W row col → (∃ row' col', W row' col' ∧ (row < row' ∨ row = row' ∧ col < col')) →
    ∃ r ∈ rows, r.row = row ∧ r.first ≤ col ∧ col < r.last
  tight : ∀ r ∈ rows, r.first < r.last → W r.row r.first ∧ W r.row (r.last - 1)

end Xls.Page
