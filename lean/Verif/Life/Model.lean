import Verif.Live.Model
import Verif.Again.Model
import Verif.Hpsf.Model
/-
The whole life of a workbook: calls on sheets, cells, formats, ranges, formula objects and validations (Verif/Live/Model.lean), document properties
(Verif/Hpsf/Model.lean), and saves (Verif/Again/Model.lean), in any order.
-/
namespace Xls.Life
open Xls.Biff Xls.Whole
open Xls.Live (resolve valOf actOf)

/-- `workbook`, workbook.h 60-140: sheets, globals and formula objects; the document properties; what the last save left (`none`: not saved yet); and for each
    sheet, if `m_SizesCalculated` (sheetrec.h 242), the sizes of the cells from which `m_RBSizes` was computed, by row and column. -/
structure State where
  live : Live.State
  props : Hpsf.Props
  left : Option Again.Place
  sized : Nat → Option (Nat → Nat → Nat)

/-- A new workbook, workbook.cpp 60-85; `time` and `pkg` are as in `Hpsf.Props.init`. -/
def init (time : Nat) (pkg : Bytes) : Option State :=
  Live.init.bind fun l => (Hpsf.Props.init time pkg).map fun r => ⟨l, r, none, fun _ => none⟩

inductive Event
  | call (c : Live.Call)
  /-- `workbook::property`, workbook.cpp 240-253 -/
  | property (kind : Nat) (text : Bytes)
  /-- `workbook::Dump`, workbook.cpp 260-334; `opens` and `ix` are as in Verif/Again/Model.lean -/
  | save (opens : Bool) (ix : Nat → Nat → Nat)

/-- The contents of the three streams of a file, workbook.cpp 315-329. -/
structure Output where
  wb : List Bytes
  summary : Bytes
  doc : Bytes

/-- One of the property streams: `CSummaryInfo::DumpData`, summinfo.cpp 98-108; `CDocSummaryInfo::DumpData`, docsumminfo.cpp 87-97.  Nothing is kept for the next save. -/
def stream (dt : Hpsf.DocType) (items : List Hpsf.Item) : Option Bytes := (Hpsf.build dt items).bind Unit.contents

/-- The workbook with what cells and validations point to (Verif/Live/Model.lean). -/
def State.followed (s : State) : Desk.State := resolve (valOf s.live.formulas) (actOf s.live.formulas) s.live.desk

/-- The cell objects of sheet `i`. -/
def idsOf (d : Desk.State) (i : Nat) : List Nat := (d.prog.look.book.sheets i).cells.map (·.id)

/-- `AddCell` forgets the sizes of its sheet, sheetrec.cpp 984-985; no other call does.  Each added cell is a new object, so that the sizes are kept as long as the
    objects are the same. -/
def kept (s : State) (l : Live.State) (i : Nat) : Option (Nat → Nat → Nat) := if idsOf l.desk i = idsOf s.live.desk i then s.sized i else none

/-- `EstimateNumBiffUnitsNeeded` of all sheets, workbook.cpp 284-287, sheetrec.cpp 755-782: `GetNumRowBlocks` asks the cells for their sizes, unless they are
    known (sheetrec.cpp 1066-1182, 1237-1289).  `cs` is the size that a cell answers (`GetSize`). -/
def measure (cs : WCell → Nat) (s : State) (i : Nat) : Option (Nat → Nat → Nat) :=
  match s.sized i with
  | some f => some f
  | none =>
    if (s.followed.prog.look.book.sheets i).cells.isEmpty then none
    else some fun row col => match (s.followed.prog.look.book.sheets i).findCell row col with | some c => cs c | none => 0

/-- The sizes with which the INDEX records of a save are made, sheetrec.cpp 282-301, 1171-1180: those that are known. -/
def sizes (cs : WCell → Nat) (s : State) (c : WCell) : Nat :=
  match measure cs s c.val.1 with
  | some f => f c.row c.col
  | none => cs c

/-- A save that opened its file, workbook.cpp 293-329: the pointers to formula objects are followed, and the workbook is left as it was but for the places of
    the `DumpData` functions and the known sizes. -/
def dump (cs : WCell → Nat) (fuel : Nat) (ix : Nat → Nat → Nat) (s : State) : Option (Output × State) :=
  (Again.save (sizes cs s) fuel ix ⟨s.followed, s.left⟩).bind fun (w, a) =>
    (stream .summary s.props.summary).bind fun bs => (stream .docSummary s.props.doc).map fun bd =>
      (⟨w, bs, bd⟩, { s with left := a.left, sized := measure cs s })

/-- One call or save.  Without sheets a save returns an error and nothing changes (268-270); when the file cannot be opened, the sizes of the cells have already
    been asked for (284-293).  workbook.cpp 240-334 -/
def step (cs : WCell → Nat) (fuel : Nat) (s : State) : Event → Option (Option Output × State)
  | .call c => (Live.step s.live c).map fun l => (none, { s with live := l, sized := kept s l })
  | .property k t => (s.props.set k t).map fun r => (none, { s with props := r.1 })
  | .save opens ix =>
    if s.live.desk.wb.sheets = [] then some (none, s)
    else if opens = false then some (none, { s with sized := measure cs s })
    else (dump cs fuel ix s).map fun (o, s) => (some o, s)

def run (cs : WCell → Nat) (fuel : Nat) (s : State) : List Event → Option (List Output × State)
  | [] => some ([], s)
  | e :: r => (step cs fuel s e).bind fun (o, s) => (run cs fuel s r).map fun (os, s) => (o.toList ++ os, s)

end Xls.Life
