import Verif.Desk.Model
import Verif.Range.Model
/-
Whole programs that also work on ranges of cells (`range`, range.cpp): everything of Verif/Desk/Model.lean, and the operations on rectangles,
which find or make the cells of a sheet one after the other and work on their formats.

The temporary cell that `FindCell` makes to search for is left out, as in Verif/Range/Model.lean.
-/
namespace Xls.Area
open Xls.Range (Rect RangeOp Cache each colorOps boxTag boxOps)
open Xls.Xf (Xf)

inductive Call
  | desk (c : Desk.Call)
  /-- an operation on the range that `worksheet::rangegroup` made of sheet `i`, sheetrec.cpp 1363-1370 -/
  | range (i : Nat) (r : Rect) (o : RangeOp)

/-- A blank cell without a format: `worksheet::blank`, sheetrec.cpp 930-935. -/
def blankAt (i row col : Nat) : Desk.Call := .on (.look (.put i row col .blank none))

/-- A call on styles. -/
def styled (a : Styles.Action) : Desk.Call := .on (.look (.style a))

/-- `FindCellOrMakeBlank`, sheetrec.cpp 1052-1057: the workbook and the handle of the cell. -/
def findOrBlank (s : Desk.State) (i row col : Nat) : Option (Desk.State × Nat) :=
  match (s.prog.look.book.sheets i).findCell row col with
  | some x => some (s, x.id)
  | none => (Desk.step s (blankAt i row col)).map fun t => (t, s.prog.look.styles.cells.length)

/-- The body of `SET_RANGE_FUNCTION` and `SET_RANGE_FUNCTION2`, range.cpp 184-206, for a format function of the cell. -/
def callBody (i : Nat) (o : Xf.Op) (row col : Nat) (s : Desk.State) : Option Desk.State :=
  (findOrBlank s i row col).bind fun r => Desk.step r.1 (styled (.cell r.2 o))

/-- The same for a font function of the cell. -/
def fontBody (i : Nat) (o : Font.FOp) (row col : Nat) (s : Desk.State) : Option Desk.State :=
  (findOrBlank s i row col).bind fun r => Desk.step r.1 (styled (.cellFont r.2 o))

/-- The body of `cellcolor` and `boxer`, range.cpp 75-100 and 129-177. -/
def memoBody (i : Nat) (tag : Nat → Nat → Xf → Nat) (ops : Nat → Nat → List Xf.Op) (row col : Nat) (w : Desk.State × Cache) :
    Option (Desk.State × Cache) :=
  (findOrBlank w.1 i row col).bind fun r =>
  (r.1.prog.look.styles.cells[r.2]?).join.bind fun q =>
  (r.1.prog.look.styles.xfs[q]?).bind fun e =>
  match w.2.lookup (e.index, tag row col e.xf) with
  | some p => (Desk.step r.1 (styled (.setXf r.2 p))).map fun t => (t, w.2)
  | none =>
    (Desk.steps r.1 ((ops row col).map fun o => styled (.cell r.2 o))).bind fun t =>
    (t.prog.look.styles.cells[r.2]?).join.map fun p => (t, w.2 ++ [((e.index, tag row col e.xf), p)])

/-- The operations of `range`, range.cpp 66-355. -/
def onRange (s : Desk.State) (i : Nat) (r : Rect) : RangeOp → Option Desk.State
  | .call o => each r (callBody i o) s
  | .font o => each r (fontBody i o) s
  | .color n => (each r (memoBody i (fun _ _ x => x.flags) (colorOps n)) (s, [])).map (·.1)
  | .box b => (each r (memoBody i (boxTag r) (boxOps r b)) (s, [])).map (·.1)

/-- One call; there are only ranges of sheets that were made. -/
def step (s : Desk.State) : Call → Option Desk.State
  | .desk c => Desk.step s c
  | .range i r o => if i < s.wb.sheets.length then onRange s i r o else none

def steps (s : Desk.State) : List Call → Option Desk.State
  | [] => some s
  | c :: r => (step s c).bind fun s => steps s r

end Xls.Area
