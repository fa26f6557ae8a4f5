import Verif.Page.Spec
import Verif.Sheet.Ops
import Verif.Note.Model
/-
The calls on a worksheet that do not concern its cells, as far as they are not in Verif/Sheet/Ops.lean.
-/
namespace Xls.Page
open Xls.Biff Xls.Sheet Xls.Cells

variable {α : Type}

/-- The comparison `insertsort`, cell.h 136-148 (by row, then column), on comments. -/
def noteKey (n : Note.Note) : Key := (n.row.toNat, n.col.toNat)

/-- `AddNote`, sheetrec.cpp 988-1033: the loop that inserts and, if there is a comment for the cell already, erases that one and inserts again
    (`Cells.addLoop` for comments; the search hint is not modelled, it does not change what a set holds). -/
def place (n : Note.Note) (l : List Note.Note) : List Note.Note :=
  match setFind noteKey (noteKey n) l with
  | some _ => (setInsert noteKey n (setErase noteKey (noteKey n) l)).1
  | none => (setInsert noteKey n l).1

/-- The nine numbers of a `NoteRec`, note.h 50-60, as the caller gives them. -/
def anchorOf (p : Spec.Place) : Note.Anchor :=
  ⟨p.flags.toNat, p.left.toNat, p.leftPart.toNat, p.top.toNat, p.topPart.toNat, p.right.toNat, p.rightPart.toNat, p.bottom.toNat, p.bottomPart.toNat⟩

/-- A call on a comment, note.h 88-89. -/
def edit (n : Note.Note) : Edit → Note.Note
  | .fill r g b => n.setFill r g b
  | .place p => n.setRect (anchorOf p)

/-- One call: `defaultRowHeight`, sheetrec.h 320; `SplitWindow`, sheetrec.h 305; `note`, sheetrec.cpp 881-897 (the count of comments kept by the
    workbook is in Verif/Note/Group.lean; the smallest and largest row and column in Verif/Cells);
    `box` is a call on the comment that `note` returned (the set holds pointers, so the comment in the set changes). -/
def apply (D : Data α Note.Note) : Act → Data α Note.Note
  | .call c => D.call c
  | .defRow h _ => D.setDefRowHeight h
  | .split r c => { D with rowSplit := r.toNat, colSplit := c.toNat }
  | .comment r c a t =>
    match Note.mk r c a t with
    | some n => { D with notes := place n D.notes }
    | none => D
  | .box r c e => { D with notes := D.notes.map fun n => if noteKey n = (r.toNat, c.toNat) then edit n e else n }

def applyAll (D : Data α Note.Note) (l : List Act) : Data α Note.Note := l.foldl apply D

/-- A new worksheet, sheetrec.cpp 75-124; DEFAULT_ROW_HEIGHT is 300/20, 71. -/
def new (D : Data α Note.Note) : Data α Note.Note :=
  { D.fresh with notes := [], defRowHeight := 15, defColWidth := 10, rowSplit := 0, colSplit := 0 }

end Xls.Page
