import Verif.Rows.Model
/-
The INDEX record: `worksheet::GetRowBlockSizes`, `GetNumRowBlocks` and the SHEET_INDEX state of
`worksheet::DumpData` (sheetrec.cpp).  `gsize c` is `c->GetSize()`.
-/
namespace Xls.Rows
open Xls.Cells

variable {α : Type}

/-- What is counted for one row block: rows, cells, bytes of the cells; and the cells left. -/
structure Count (α : Type) where
  rows : Nat
  cells : Nat
  bytes : Nat
  rest : List (Cell α)

/-- The loop of `GetRowBlockSizes`, sheetrec.cpp 1100-1127. -/
def sizeLoop (gsize : Cell α → Nat) (num rows n bytes : Nat) : List (Cell α) → Count α
  | [] => ⟨rows, n, bytes, []⟩
  | c :: r =>
    if c.row ≠ num then
      if rows ≥ maxRows then ⟨rows, n, bytes, c :: r⟩
      else sizeLoop gsize c.row (rows + 1) (n + 1) (bytes + gsize c) r
    else sizeLoop gsize num rows (n + 1) (bytes + gsize c) r

theorem sizeLoop_rest (gsize : Cell α → Nat) (l : List (Cell α)) (num rows n bytes : Nat) :
    (sizeLoop gsize num rows n bytes l).rest.length ≤ l.length := by
  induction l generalizing num rows n bytes with
  | nil => simp [sizeLoop]
  | cons c r ih =>
    simp only [sizeLoop]
    split
    · split
      · simp
      · have := ih c.row (rows + 1) (n + 1) (bytes + gsize c); simp only [List.length_cons]; omega
    · have := ih num rows (n + 1) (bytes + gsize c); simp only [List.length_cons]; omega

/-- Size of the ROW and cell records, and of the DBCELL record with its CONTINUE headers. -/
structure RBSize where
  rowandcell : Nat
  dbcell : Nat
deriving Repr, DecidableEq

/-- The sizes of a block, sheetrec.cpp 1129-1152; ROW_RECORD_SIZE 20, RB_DBCELL_MINSIZE 8,
    RB_DBCELL_CELLSIZEOFFSET 2, MAX_RECORD_SIZE 8224. -/
def Count.size (k : Count α) : RBSize :=
  let payload := 2 * k.cells
  ⟨k.bytes + 20 * k.rows, 8 + payload + (if payload > 8224 then ((payload + 8223) / 8224 - 1) * 4 else 0)⟩

/-- All row blocks: `GetRowBlockSizes` called until it returns false, sheetrec.cpp 1066-1182, 1256-1281. -/
def rbSizes (gsize : Cell α → Nat) (cells : List (Cell α)) : List RBSize :=
  match cells with
  | [] => []
  | c :: r =>
    let k := sizeLoop gsize c.row 1 1 (gsize c) r
    k.size :: rbSizes gsize k.rest
termination_by cells.length
decreasing_by
  have := sizeLoop_rest gsize r c.row 1 1 (gsize c)
  simp only [List.length_cons]
  omega

/-- The loop over the row blocks, sheetrec.cpp 282-301. -/
def indexLoop (acc at_ : Nat) : List RBSize → List Nat
  | [] => []
  | b :: r => (at_ + (acc + b.rowandcell)) :: indexLoop (acc + b.rowandcell + b.dbcell) (at_ + (acc + b.rowandcell)) r

/-- Where the row blocks begin: the INDEX record (20 + 4 per block, RB_INDEX_MINSIZE sheetrec.cpp 224),
    DEFAULTROWHEIGHT (8), the COLINFO records (16 each), DEFCOLWIDTH (6) and DIMENSION (18) come before; sizes
    rectypes.h 54-58. -/
def defColWidthAt (pos numrb ncol : Nat) : Nat := pos + (20 + 4 * numrb) + 8 + 16 * ncol

/-- The offsets in the INDEX record written at stream position `pos` for a sheet with `ncol` column settings,
    sheetrec.cpp 257-305: the position of the DEFCOLWIDTH record, then one per row block. -/
def indexOffsets (gsize : Cell α → Nat) (pos ncol : Nat) (cells : List (Cell α)) : List Nat :=
  let sizes := rbSizes gsize cells
  let at_ := defColWidthAt pos sizes.length ncol
  at_ :: indexLoop 0 (at_ + 6 + 18) sizes

/-- The INDEX record, index.cpp 43-76; RECTYPE_INDEX is 0x20B. -/
def indexPayload (firstRow lastRow : Nat) (offs : List Nat) : Bytes :=
  leN 4 0 ++ leN 4 firstRow ++ leN 4 ((lastRow + 1) % 2 ^ 32) ++ offs.flatMap (leN 4)

end Xls.Rows
