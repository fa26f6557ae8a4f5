import Verif.Biff.Record
import Verif.Unit.Spec
import Verif.Sst.Spec
import Verif.Num.Spec
import Verif.Formula.Means
/-
How a reader gets the cells of a sheet from the records of its substream ([MS-XLS] 2.1.7.20.5) and the records of the workbook
globals (for the texts in the shared string table), and what it means that a cell holds what the user wrote.
-/
namespace Xls.Whole
open Xls.Biff

/-- What a reader finds in a cell. -/
inductive Content where
  | text (t : List UInt16)
  | simple (c : Num.Content)
  | formula (array : Bool) (rgce : Bytes)
deriving DecidableEq

/-- A cell as read. -/
structure ReadCell where
  row : Nat
  col : Nat
  xf : Nat
  content : Content
deriving DecidableEq

/-- The record types that make up the cell table: BLANK, NUMBER, LABEL, BOOLERR, FORMULA, LABELSST, RK, ARRAY. -/
def isCell (r : Rec) : Bool :=
  r.1 == 0x201 || r.1 == 0x203 || r.1 == 0x204 || r.1 == 0x205 || r.1 == 0x06 || r.1 == 0xFD || r.1 == 0x27E || r.1 == 0x221

/-- LABELSST ([MS-XLS] 2.4.149) and LABEL (2.4.148): row, column, format, then the number of the text in the table, or the text. -/
def readText (table : List (List UInt16)) (r : Rec) : Option ReadCell :=
  (takeLE 2 r.2).bind fun (row, p) => (takeLE 2 p).bind fun (col, p) => (takeLE 2 p).bind fun (xf, p) =>
    if r.1 = 0xFD then (takeLE 4 p).bind fun (k, p) => if p = [] then (table[k]?).map fun t => ⟨row, col, xf, .text t⟩ else none
    else (Spec.readStr2 p).bind fun (t, p) => if p = [] then some ⟨row, col, xf, .text t⟩ else none

/-- The cells in a list of cell records; an ARRAY record (for one cell) belongs to the FORMULA record before it. -/
def readCells (table : List (List UInt16)) : List Rec → Option (List ReadCell)
  | [] => some []
  | (0x06, p) :: (0x221, q) :: rest =>
    (Formula.readFormula p).bind fun f => (Formula.readArray q).bind fun (r1, r2, c1, c2, e, x) =>
      if r1 = f.row ∧ r2 = f.row ∧ c1 = f.col ∧ c2 = f.col ∧ x = [] then
        (readCells table rest).map (⟨f.row, f.col, f.xf, .formula true e⟩ :: ·)
      else none
  | (t, p) :: rest =>
    (if t = 0x06 then (Formula.readFormula p).bind fun f =>
        if f.rest = [] then some ⟨f.row, f.col, f.xf, .formula false f.rgce⟩ else none
     else if t = 0xFD ∨ t = 0x204 then readText table (t, p)
     else (Num.readCell t p).map fun c => ⟨c.row, c.col, c.xf, .simple c.content⟩).bind fun c =>
      (readCells table rest).map (c :: ·)

/-- The cells of a sheet. -/
def sheetCells (table : List (List UInt16)) (R : List Rec) : Option (List ReadCell) := readCells table (R.filter isCell)

/-- The texts of the shared string table: the SST record of the workbook globals with the CONTINUE records after it;
    without such a record there are no texts. -/
def sstOf (G : List Rec) : Option (List (List UInt16)) :=
  match G.dropWhile (fun r => r.1 != 0xFC) with
  | [] => some []
  | r :: rest => (Sst.readSST (r :: rest.takeWhile (fun r => r.1 == 0x3C))).map fun x => x.2.2

end Xls.Whole
