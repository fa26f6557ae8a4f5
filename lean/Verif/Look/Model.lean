import Verif.Whole.Model
import Verif.Styles.Model
import Verif.NumFmt.Model
/-
Cells and styles of a workbook together: a program writes cells on the sheets and works with fonts, number formats, formats and the
formats of the cells it wrote.

The handle of a cell (its position in `Styles.State.cells`) is also the identity of the cell object.  A handle is never used
again, whereas the address of a deleted cell may be; a program that keeps a pointer to a deleted cell is outside the model.
-/
namespace Xls.Look
open Xls.Whole Xls.Cells
open Xls.Styles (Action)

structure State where
  book : Book := {}
  styles : Styles.State
  formats : NumFmt.Formats := NumFmt.empty

/-- What a program calls. -/
inductive Call
  /-- `worksheet::label`, `number`, … with an optional format, sheetrec.cpp 797-935 -/
  | put (i row col : Nat) (v : Val) (q : Option Nat)
  /-- a call on a font, a format, or the format of a cell (the format of a row or column counts as a cell on no sheet) -/
  | style (a : Action)
  /-- `workbook::format(code)`: a number format, workbook.cpp 177-201 -/
  | format (code : List UInt16)

/-- The cells that `AddCell` deletes, sheetrec.cpp 962-977. -/
def dead (b : Book) (i : Nat) (c : Cell Val) : List Nat :=
  match (b.sheets i).addCell (stamp i c) with
  | some p => p.2.map (·.id)
  | none => []

/-- One call.  Writing a cell makes the object, which marks its format (cell.cpp 37-46); `AddCell` then deletes the cell it
    replaces, which unmarks the format of that one (cell.cpp 48-51).  sheetrec.cpp 797-986 -/
def step (s : State) : Call → Option State
  | .put i row col v q =>
    let c : Cell Val := ⟨s.styles.cells.length, row, col, v⟩
    (s.book.put i c).bind fun b =>
      ((dead s.book i c).foldlM Styles.destroy (Styles.newCell s.styles q)).map fun t => ⟨b, t, s.formats⟩
  | .style a => (Styles.step s.styles a).map fun t => { s with styles := t }
  | .format code => some { s with formats := NumFmt.add s.formats code }

def steps (s : State) : List Call → Option State
  | [] => some s
  | c :: r => (step s c).bind fun s => steps s r

/-- A new workbook: no sheets' cells, the default fonts and formats.  workbook.cpp 60-85, globalrec.cpp 84-196 -/
def init : Option State := Styles.init.map fun s => { styles := s }

end Xls.Look
