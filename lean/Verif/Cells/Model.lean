import Verif.Cells.OSet
import Verif.Biff.Record
/-
The cells, comments, row heights and column settings of a worksheet (sheetrec.cpp).

`α` is what a cell holds besides its coordinates (contents and format).  `id` stands for the address of
the cell object.
-/
namespace Xls.Cells

/-- `cell_t`: coordinates are 32-bit numbers, cell.h 90-92. -/
structure Cell (α : Type) where
  id : Nat
  row : Nat
  col : Nat
  val : α
deriving Repr, DecidableEq

/-- The key of a cell, cell.h 136-147. -/
def Cell.key {α : Type} (c : Cell α) : Key := (c.row, c.col)

/-- The do-while loop of `AddCell` and `AddNote`, sheetrec.cpp 950-977 and 1003-1030: insert; if the key is
    taken, erase and delete the holder and try again.  Returns the new set and the deleted cells; `none` if
    `fuel` passes do not suffice. -/
def addLoop {α : Type} (c : Cell α) : Nat → List (Cell α) → Option (List (Cell α) × List (Cell α))
  | 0, _ => none
  | fuel + 1, cells =>
    match setInsert Cell.key c cells with
    | (cells', none) => some (cells', [])
    | (cells', some old) => (addLoop c fuel (setErase Cell.key old.key cells')).map fun (l, d) => (l, old :: d)

/-- The members of `worksheet` that hold cells and comments, with their initial values, sheetrec.cpp 87-96. -/
structure Sheet (α : Type) where
  cells : List (Cell α) := []
  notes : List (Cell α) := []
  minRow : Nat := 2 ^ 32 - 1
  minCol : Nat := 2 ^ 32 - 1
  maxRow : Nat := 0
  maxCol : Nat := 0
deriving Repr

/-- The extension of the used range, sheetrec.cpp 944-947 and 995-998. -/
def Sheet.extend {α : Type} (s : Sheet α) (row col : Nat) : Sheet α :=
  { s with
    minRow := if row < s.minRow then row else s.minRow
    maxRow := if row > s.maxRow then row else s.maxRow
    minCol := if col < s.minCol then col else s.minCol
    maxCol := if col > s.maxCol then col else s.maxCol }

/-- `AddCell`, sheetrec.cpp 937-986; also returns the cells that were deleted. -/
def Sheet.addCell {α : Type} (s : Sheet α) (c : Cell α) : Option (Sheet α × List (Cell α)) :=
  (addLoop c (s.cells.length + 2) s.cells).map fun (l, d) => ({ s.extend c.row c.col with cells := l }, d)

/-- `AddNote`, sheetrec.cpp 988-1033. -/
def Sheet.addNote {α : Type} (s : Sheet α) (c : Cell α) : Option (Sheet α × List (Cell α)) :=
  (addLoop c (s.notes.length + 2) s.notes).map fun (l, d) => ({ s.extend c.row c.col with notes := l }, d)

/-- `FindCell`, sheetrec.cpp 1035-1050. -/
def Sheet.findCell {α : Type} (s : Sheet α) (row col : Nat) : Option (Cell α) :=
  setFind Cell.key (row, col) s.cells

/-- What the user can do to the grid. -/
inductive GridOp (α : Type) where
  /-- `label`, `number`, `boolean`, `error`, `blank`, `formula`: sheetrec.cpp 797-935 -/
  | cell (c : Cell α)
  /-- `note`: sheetrec.cpp 881-897 -/
  | note (c : Cell α)

/-- One call. -/
def Sheet.apply {α : Type} (s : Sheet α) : GridOp α → Option (Sheet α)
  | .cell c => (s.addCell c).map Prod.fst
  | .note c => (s.addNote c).map Prod.fst

/-- A sequence of calls on a new sheet. -/
def Sheet.run {α : Type} (ops : List (GridOp α)) : Option (Sheet α) :=
  ops.foldlM Sheet.apply {}

/-- The payload of the DIMENSION record, recdef.cpp 277-293 with sheetrec.cpp 344; the additions wrap. -/
def Sheet.dimension {α : Type} (s : Sheet α) : Bytes :=
  leN 4 s.minRow ++ leN 4 ((s.maxRow + 1) % 2 ^ 32) ++ leN 2 s.minCol ++ leN 2 ((s.maxCol + 1) % 2 ^ 32) ++ leN 2 0

end Xls.Cells
