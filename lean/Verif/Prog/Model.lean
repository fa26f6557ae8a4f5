import Verif.Look.Model
import Verif.Page.Model
/-
A program on a whole workbook: it writes cells, works with fonts and formats, and makes the other calls on the sheets; widths of columns and
heights of rows can come with a format, of which the column or row is then a user.

A user that is a column or row is kept in `Styles.State.cells` like a cell, on a handle that belongs to no cell.
-/
namespace Xls.Prog
open Xls.Page (Act)

/-- A column (`row = false`) or row of a sheet. -/
structure Slot where
  sheet : Nat
  row : Bool
  num : Nat
deriving DecidableEq, Repr

/-- `held` is the handle of a column or row that has a format (`colinfo_t::xformat`, `rowheight_t::xformat` not null); `acts` are the calls made on
    each sheet, with formats as pointers (positions in `Styles.State.xfs`). -/
structure State where
  look : Look.State
  held : Slot → Option Nat
  acts : Nat → List Act

inductive Call
  | look (c : Look.Call)
  | page (i : Nat) (a : Act)

/-- The column or row that a call on sheet `i` gives a size, and the format that comes with it. -/
def slotOf (i : Nat) : Act → Option (Slot × Option Nat)
  | .call (.colwidth c _ x) => some (⟨i, false, c.toNat⟩, x)
  | .call (.rowheight r _ x) => some (⟨i, true, r.toNat⟩, x)
  | _ => none

def put {α β : Type} [DecidableEq α] (f : α → β) (k : α) (v : β) : α → β := fun a => if a = k then v else f a

/-- When the size of a row is replaced, its format is given up a second time: `worksheet::rowheight` does it (sheetrec.cpp 1350-1352), and
    so does the destructor that it calls (`rowheight_t::~rowheight_t`, row.cpp 54-59).  `worksheet::colwidth` does it once (sheetrec.cpp 1324-1328). -/
def again (k : Slot) (old : Option Nat) (st : Styles.State) : Option Styles.State :=
  if k.row then old.bind (Styles.unmarkXf st) else some st

/-- The formats' users in `worksheet::colwidth` and `worksheet::rowheight`, sheetrec.cpp 1304-1361: the new format is marked, then the old one
    unmarked. -/
def give (s : State) (k : Slot) (x : Option Nat) : Option State :=
  let st := s.look.styles
  match s.held k, x with
  | none, none => some s
  | none, some q => some { s with look := { s.look with styles := Styles.newCell st (some q) }, held := put s.held k (some st.cells.length) }
  | some c, none =>
    ((Styles.destroy st c).bind (again k (st.cells[c]?).join)).map fun t => { s with look := { s.look with styles := t }, held := put s.held k none }
  | some c, some q =>
    ((Styles.setXf st c q).bind (again k (st.cells[c]?).join)).map fun t => { s with look := { s.look with styles := t } }

/-- One call.  sheetrec.cpp 797-1033, 1291-1434; cell.cpp; font.cpp; extformat.cpp -/
def step (s : State) : Call → Option State
  | .look c => (Look.step s.look c).map fun l => { s with look := l }
  | .page i a =>
    let t := match slotOf i a with
      | none => some s
      | some (k, x) => give s k x
    t.map fun s : State => { s with acts := put s.acts i (s.acts i ++ [a]) }

def steps (s : State) : List Call → Option State
  | [] => some s
  | c :: r => (step s c).bind fun s => steps s r

/-- A new workbook, workbook.cpp 60-85. -/
def init : Option State := Look.init.map fun l => ⟨l, fun _ => none, fun _ => []⟩

/-- The number of a format when the workbook is saved: `xformat->GetIndex()`, row.cpp 97-101, colinfo.cpp 46-51. -/
def number (st : Styles.State) (q : Nat) : Nat := ((st.xfs[q]?).map (·.index)).getD 0

/-- A call with numbers in the place of formats, as they go into the records of the sheet. -/
def numbered (st : Styles.State) : Act → Act
  | .call (.colwidth c w x) => .call (.colwidth c w (x.map (number st)))
  | .call (.rowheight r h x) => .call (.rowheight r h (x.map (number st)))
  | a => a

end Xls.Prog
