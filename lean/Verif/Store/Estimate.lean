import Verif.Sheet.Model
import Verif.Globals.Model
/-
How many slots `workbook::Dump` asks for before it writes anything.
-/
namespace Xls.Store
open Xls.Cells Xls.Rows

variable {α ν : Type}

/-- The rows and cells of each row block as `GetRowBlockSizes` counts them, sheetrec.cpp 1066-1182 (the loop is
    `Rows.sizeLoop`). -/
def rowCounts (gsize : Cell α → Nat) (cells : List (Cell α)) : List (Nat × Nat) :=
  match cells with
  | [] => []
  | c :: r =>
    let k := sizeLoop gsize c.row 1 1 (gsize c) r
    (k.rows, k.cells) :: rowCounts gsize k.rest
termination_by cells.length
decreasing_by
  have := sizeLoop_rest gsize r c.row 1 1 (gsize c)
  simp only [List.length_cons]
  omega

/-- `worksheet::EstimateNumBiffUnitsNeeded`, sheetrec.cpp 755-782; MAX_ROWBLOCK_SIZE 16, MAX_COLUMNS_PER_ROW 256,
    RB_DBCELL_CELLSIZEOFFSET 2, MAX_RECORD_SIZE 8224. -/
def sheetEstimate (gsize : Cell α → Nat) (D : Sheet.Data α ν) : Nat :=
  7 + D.cols.length + D.heights.length + D.merged.length + D.notes.length * 2 +
    ((rowCounts gsize D.cells).length + 16 * 256 * 2 / 8224) + ((rowCounts gsize D.cells).map (·.1)).sum +
    ((rowCounts gsize D.cells).map (·.2)).sum + ((rowCounts gsize D.cells).map (·.2)).sum

/-- `CGlobalRecords::EstimateNumBiffUnitsNeeded4Header`, globalrec.cpp 296-310. -/
def headerEstimate (D : Globals.Data) : Nat :=
  5 + D.fonts.length + D.defFonts.length + D.formats.length + D.xfs.length + D.defXfs.length + D.styles.length +
    D.bounds.length + D.labels.length

/-- The number given to the constructor of the store, workbook.cpp 272-291, 300. -/
def estimate (gsize : Cell α → Nat) (D : Globals.Data) (sheets : List (Sheet.Data α ν)) : Nat :=
  (sheets.map (sheetEstimate gsize)).sum + headerEstimate D + 1000

end Xls.Store
