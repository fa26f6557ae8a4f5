import Verif.Desk.Model
import Verif.Page.Plain
/-
A workbook that is saved more than once: calls and saves in any order.  A save changes the members in which `DumpData` keeps its place
(workbook.h, globalrec.h, sheetrec.h); the next save begins with them as they were left.
The values of cells are fixed here, so that the sizes of cells that the library remembers (`m_RBSizes`, sheetrec.h 240-242) are always right; for formulas that
change see Verif/Life/Model.lean.
-/
namespace Xls.Again
open Xls.Biff Xls.Book Xls.Whole
open Xls.Desk (Call globals dataOf)

/-- The workbook, the globals and the sheets with the places at which their `DumpData` are (workbook.h, globalrec.h, sheetrec.h 208-271). -/
abbrev Place := Book.St (Globals.Data × Globals.St) (Sheet.Data (Nat × Val) Note.Note × Sheet.St (Nat × Val))

/-- The workbook, and what the last save left (`none`: it was not saved yet). -/
structure State where
  desk : Desk.State
  left : Option Place

/-- A new workbook, workbook.cpp 60-85. -/
def init : Option State := Desk.init.map (⟨·, none⟩)

inductive Event
  | call (c : Call)
  /-- `workbook::Dump`, workbook.cpp 260-334.  `opens` says whether the file can be opened.  `ix i k` is the number that the `k`-th comment of sheet `i` holds when the save
      begins: comments keep the numbers that the last save gave them (sheetrec.cpp 386, note.h 95), and their places change when others are added; any numbers are
      allowed here. -/
  | save (opens : Bool) (ix : Nat → Nat → Nat)

/-- A sheet when a save begins: its data, and its places as the last save left them; a sheet made since then is new (sheetrec.cpp 75-124). -/
def sheetNow (d : Desk.State) (p : Place) (ix : Nat → Nat → Nat) (i : Nat) : Sheet.Data (Nat × Val) Note.Note × Sheet.St (Nat × Val) :=
  match p.sheets[i]? with
  | none => Desk.sheetOf d i
  | some sh => (dataOf d i, { sh.2 with idxs := (List.range (dataOf d i).notes.length).map (ix i) })

/-- The workbook when a save begins.  `bpos` is what was written into the BOUNDSHEET records of this save; they are made anew (globalrec.cpp 506-527). -/
def ready (s : State) (ix : Nat → Nat → Nat) : Option Place :=
  (globals s.desk).map fun D =>
    match s.left with
    | none => plainStart D (Desk.sheets s.desk)
    | some p => { p with g := (D, p.g.2), sheets := (List.range s.desk.wb.sheets.length).map (sheetNow s.desk p ix), bpos := [] }

/-- `workbook::Dump` up to the finished stream (workbook.cpp 293-315), with the workbook as it is left; as `Desk.units`. -/
def save (cs : WCell → Nat) (fuel : Nat) (ix : Nat → Nat → Nat) (s : State) : Option (List Bytes × State) :=
  (ready s ix).bind fun p =>
    match Book.run Globals.next (Sheet.next (Note.env (fun c => cellBytes s.desk.prog.look.book.labels (Look.xf s.desk.prog.look c) c) cs)) fuel p with
    | .done us p' => (us.mapM (patch p'.bpos)).map fun w => (w, ⟨s.desk, some p'⟩)
    | _ => none

/-- A call, or a save: without sheets (268-270) and when the file cannot be opened (291-293) it returns an error and nothing changes. -/
def step (cs : WCell → Nat) (fuel : Nat) (s : State) : Event → Option (Option (List Bytes) × State)
  | .call c => (Desk.step s.desk c).map fun d => (none, ⟨d, s.left⟩)
  | .save opens ix => if s.desk.wb.sheets = [] ∨ opens = false then some (none, s) else (save cs fuel ix s).map fun (w, s) => (some w, s)

/-- Calls and saves: all streams that were handed to compound files, in order. -/
def run (cs : WCell → Nat) (fuel : Nat) (s : State) : List Event → Option (List (List Bytes) × State)
  | [] => some ([], s)
  | e :: r => (step cs fuel s e).bind fun (o, s) => (run cs fuel s r).map fun (ws, s) => (o.toList ++ ws, s)

end Xls.Again
