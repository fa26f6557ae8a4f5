import Verif.Styles.Model
import Verif.Cells.Model
/-
A worksheet together with the styles of the workbook: writing cells, formatting single cells and whole ranges (`range`,
range.cpp; `FindCellOrMakeBlank`, sheetrec.cpp 1052-1057).

A cell of the sheet is a `Cells.Cell` whose `id` is its position in the cells of `Styles.State`.  The temporary cell that
`FindCell` makes to search for (sheetrec.cpp 1040) is left out: it marks and unmarks the default format, whose counter never
gets to zero.  `none` is undefined behaviour or a loop that does not end.
-/
namespace Xls.Range
open Xls.Styles (cellOp cellFont setXf)
open Xls.Font (FOp)
open Xls.Xf (Xf)

/-- The styles of the workbook and one sheet; what a cell holds is a `κ`, or nothing for a blank cell. -/
structure State (κ : Type) where
  st : Styles.State
  sheet : Cells.Sheet (Option κ)

/-- `label`, `number`, `boolean`, `error`, `blank`, `formula` (sheetrec.cpp 797-935): the constructor of the cell marks the
    format, `AddCell` (937-986) puts it into the sheet and deletes the cell it replaces. -/
def put {κ : Type} (s : State κ) (row col : Nat) (v : Option κ) (q : Option Nat) : Option (State κ × Cells.Cell (Option κ)) :=
  let x : Cells.Cell (Option κ) := ⟨s.st.cells.length, row, col, v⟩
  (s.sheet.addCell x).bind fun r =>
  (r.2.foldlM (fun st (y : Cells.Cell (Option κ)) => Styles.destroy st y.id) (Styles.newCell s.st q)).map fun st => (⟨st, r.1⟩, x)

/-- `FindCellOrMakeBlank`, sheetrec.cpp 1052-1057. -/
def findOrBlank {κ : Type} (s : State κ) (row col : Nat) : Option (State κ × Cells.Cell (Option κ)) :=
  match s.sheet.findCell row col with
  | some x => some (s, x)
  | none => put s row col none none

/-- `range_t` of a `range`, range.cpp 42-58; the assertions do nothing in a release build. -/
structure Rect where
  firstRow : Nat
  firstCol : Nat
  lastRow : Nat
  lastCol : Nat
deriving Repr, DecidableEq

/-- `for(i = …; i <= last; i++)` with 32-bit numbers; `none` if `fuel` passes do not suffice. -/
def for32 {σ : Type} (last : Nat) (body : Nat → σ → Option σ) : Nat → Nat → σ → Option σ
  | 0, _, _ => none
  | fuel + 1, i, s => if i ≤ last then (body i s).bind fun s => for32 last body fuel ((i + 1) % 2 ^ 32) s else some s

/-- The two loops of every operation of `range`, range.cpp 186-192; a loop that ends has at most `last - first + 1` passes. -/
def each {σ : Type} (r : Rect) (body : Nat → Nat → σ → Option σ) (s : σ) : Option σ :=
  for32 r.lastRow (fun row s => for32 r.lastCol (body row) (r.lastCol - r.firstCol + 2) r.firstCol s) (r.lastRow - r.firstRow + 2)
    r.firstRow s

/-- The body of `SET_RANGE_FUNCTION` and `SET_RANGE_FUNCTION2`, range.cpp 184-206, for a format function of the cell. -/
def callBody {κ : Type} (o : Xf.Op) (row col : Nat) (s : State κ) : Option (State κ) :=
  (findOrBlank s row col).bind fun r => (cellOp r.1.st r.2.id o).map fun st => { r.1 with st := st }

/-- The same for a font function of the cell. -/
def fontBody {κ : Type} (o : FOp) (row col : Nat) (s : State κ) : Option (State κ) :=
  (findOrBlank s row col).bind fun r => (cellFont r.1.st r.2.id o).map fun st => { r.1 with st := st }

/-- `xf_Pair_Set_t`, range.h 111-130: from the index of a format and some flags to a format. -/
abbrev Cache := List ((Nat × Nat) × Nat)

/-- Some format functions of one cell, one after the other. -/
def calls (st : Styles.State) (c : Nat) (ops : List Xf.Op) : Option Styles.State := ops.foldlM (fun st o => cellOp st c o) st

/-- The body of `cellcolor` and `boxer`, range.cpp 75-100 and 129-177: look the format of the cell up among those already
    changed; if it is there use the changed one, otherwise change it and remember it. -/
def memoBody {κ : Type} (tag : Nat → Nat → Xf → Nat) (ops : Nat → Nat → List Xf.Op) (row col : Nat) (w : State κ × Cache) :
    Option (State κ × Cache) :=
  (findOrBlank w.1 row col).bind fun r =>
  (r.1.st.cells[r.2.id]?).join.bind fun q =>
  (r.1.st.xfs[q]?).bind fun e =>
  match w.2.lookup (e.index, tag row col e.xf) with
  | some p => (setXf r.1.st r.2.id p).map fun st => ({ r.1 with st := st }, w.2)
  | none =>
    (calls r.1.st r.2.id (ops row col)).bind fun st =>
    (st.cells[r.2.id]?).join.map fun p => ({ r.1 with st := st }, w.2 ++ [((e.index, tag row col e.xf), p)])

/-- The calls of `cellcolor`, range.cpp 90-91: FILL_SOLID is 1 (extformat.h 87-88). -/
def colorOps (color : Nat) (_ _ : Nat) : List Xf.Op := [.fg color, .fill 1]

/-- The flags of `boxer`, range.cpp 132-137, range.h 104-109. -/
def boxTag (r : Rect) (row col : Nat) (_ : Xf) : Nat :=
  (if row = r.firstRow then 2 else 0) ||| (if row = r.lastRow then 1 else 0) ||| (if col = r.firstCol then 4 else 0) |||
  (if col = r.lastCol then 8 else 0)

/-- The arguments of `boxer`, range.cpp 120. -/
structure Box where
  border : Nat
  fill : Nat
  color : Nat
  fg : Nat
  bg : Nat
deriving Repr, DecidableEq

/-- The calls of `boxer`, range.cpp 152-171; line 170 calls `fillfgcolor` with the background colour. -/
def boxOps (r : Rect) (b : Box) (row col : Nat) : List Xf.Op :=
  (if row = r.firstRow then [.bstyle .top b.border, .bcolor .top b.color] else []) ++
  (if row = r.lastRow then [.bstyle .bottom b.border, .bcolor .bottom b.color] else []) ++
  (if col = r.firstCol then [.bstyle .left b.border, .bcolor .left b.color] else []) ++
  (if col = r.lastCol then [.bstyle .right b.border, .bcolor .right b.color] else []) ++
  [.fg b.fg, .fg b.bg, .fill b.fill]

/-- What a program can do to a range. -/
inductive RangeOp
  | call (o : Xf.Op)
  | font (o : FOp)
  | color (n : Nat)
  | box (b : Box)

/-- The operations of `range`, range.cpp 66-355. -/
def onRange {κ : Type} (s : State κ) (r : Rect) : RangeOp → Option (State κ)
  | .call o => each r (callBody o) s
  | .font o => each r (fontBody o) s
  | .color n => (each r (memoBody (fun _ _ x => x.flags) (colorOps n)) (s, [])).map (·.1)
  | .box b => (each r (memoBody (boxTag r) (boxOps r b)) (s, [])).map (·.1)

/-- What a program can do with styles and one sheet; single cells are addressed by their coordinates. -/
inductive Act (κ : Type)
  | newFont (name : List UInt16)
  | font (p : Nat) (o : FOp)
  | newXf
  | xf (q : Nat) (o : Xf.Op)
  | put (row col : Nat) (v : Option κ) (q : Option Nat)
  | cell (row col : Nat) (o : Xf.Op)
  | cellFont (row col : Nat) (o : FOp)
  | range (r : Rect) (o : RangeOp)

def step {κ : Type} (s : State κ) : Act κ → Option (State κ)
  | .newFont n => (Styles.step s.st (.newFont n)).map fun st => { s with st := st }
  | .font p o => (Styles.step s.st (.font p o)).map fun st => { s with st := st }
  | .newXf => (Styles.step s.st .newXf).map fun st => { s with st := st }
  | .xf q o => (Styles.step s.st (.xf q o)).map fun st => { s with st := st }
  | .put row col v q => (put s row col v q).map (·.1)
  | .cell row col o => (s.sheet.findCell row col).bind fun x => (cellOp s.st x.id o).map fun st => { s with st := st }
  | .cellFont row col o => (s.sheet.findCell row col).bind fun x => (cellFont s.st x.id o).map fun st => { s with st := st }
  | .range r o => onRange s r o

def steps {κ : Type} (s : State κ) : List (Act κ) → Option (State κ)
  | [] => some s
  | a :: r => (step s a).bind fun s => steps s r

/-- A workbook with one empty sheet. -/
def init (κ : Type) : Option (State κ) := Styles.init.map fun st => ⟨st, {}⟩

end Xls.Range
