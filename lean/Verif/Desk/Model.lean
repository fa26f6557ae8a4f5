import Verif.Prog.Model
import Verif.Book.Create
import Verif.Palette.Model
import Verif.Styles.Read
import Verif.Look.Props
/-
A whole program on a workbook, from `workbook` to `Dump`: it makes the sheets, sets the window, the active sheet and colours, and does
everything of Verif/Prog/Model.lean; and the workbook as it is when saving begins, determined by the program alone.
-/
namespace Xls.Desk
open Xls.Biff Xls.Book Xls.Whole
open Xls.Page (Act applyAll new)

/-- `used` has, for each sheet, the smallest and largest row and column (`minRow` …, sheetrec.h 226; its cells and comments are not used). -/
structure State where
  prog : Prog.State
  wb : Wb
  colors : Palette.Colors
  used : Nat → Cells.Sheet Unit

inductive Call
  /-- `workbook::sheet`, workbook.cpp 115-147 -/
  | sheet (name : List UInt16)
  /-- `worksheet::MakeActive`, sheetrec.cpp 784-787 -/
  | makeActive (i : Nat)
  /-- `workbook::windPosition`, `windSize`, `firstTab`, `tabBarWidth`, workbook.cpp 255-258 -/
  | position (horz vert : UInt16)
  | size (width height : UInt16)
  | firstTab (v : UInt16)
  | tabBarWidth (v : UInt16)
  /-- `workbook::setColor`, workbook.cpp 235-238 -/
  | color (k : Palette.Call)
  /-- cells, fonts, formats and the other calls on sheets -/
  | on (c : Prog.Call)

/-- The sheet on which a call is made. -/
def target : Call → Option Nat
  | .makeActive i => some i
  | .on (.look (.put i _ _ _ _)) => some i
  | .on (.page i _) => some i
  | _ => none

/-- Sheet, row and column of a call that extends the used range: `AddCell` and `AddNote`, sheetrec.cpp 937-947 and 988-998. -/
def place : Call → Option (Nat × Nat × Nat)
  | .on (.look (.put i row col _ _)) => some (i, row, col)
  | .on (.page i (.comment r c _ _)) => some (i, r.toNat, c.toNat)
  | _ => none

/-- What a call means for the sheet table and the window; a comment is counted (`worksheet::note`, sheetrec.cpp 881-897). -/
def wbOp : Call → Option WbOp
  | .sheet n => some (.sheet n)
  | .makeActive i => some (.makeActive i)
  | .position h v => some (.position h v)
  | .size w h => some (.size w h)
  | .firstTab v => some (.firstTab v)
  | .tabBarWidth v => some (.tabBarWidth v)
  | .on (.page i (.comment ..)) => some (.note i)
  | _ => none

/-- One call; a call on a sheet that was not made is none that a program can make (it has no pointer to it), `none` here.
    workbook.cpp 115-258, sheetrec.cpp 784-1434 -/
def step (s : State) (c : Call) : Option State :=
  if (target c).all (· < s.wb.sheets.length) then
    (match wbOp c with
      | none => some s.wb
      | some o => s.wb.op o).bind fun w =>
    (match c with
      | .on d => Prog.step s.prog d
      | _ => some s.prog).map fun p =>
      { prog := p, wb := w
        colors := match c with
          | .color k => (Palette.setColor s.colors k.r k.g k.b k.idx).1
          | _ => s.colors
        used := match place c with
          | none => s.used
          | some (i, row, col) => Prog.put s.used i ((s.used i).extend row col) }
  else none

def steps (s : State) : List Call → Option State
  | [] => some s
  | c :: r => (step s c).bind fun s => steps s r

/-- A new workbook, workbook.cpp 60-85. -/
def init : Option State := Prog.init.map fun p => ⟨p, .init, none, fun _ => {}⟩

/-! ### The workbook as it is saved -/

/-- The built-in styles: XF number and type, globalrec.cpp 201-236; the level of all of them is 0xFF. -/
def builtins : List (Nat × Nat) := [(0x10, 3), (0x11, 6), (0x12, 4), (0x13, 7), (0x00, 0), (0x14, 5)]

/-- STYLE, recdef.cpp 361-372 (STYLE_BUILTIN_BIT is 0x8000, 358). -/
def stylePayload (s : Nat × Nat) : Bytes := leN 2 (s.1 ||| 0x8000) ++ [byteK 0 s.2] ++ [0xFF]

/-- The workbook globals: five default fonts and 21 default formats come from `m_DefaultFonts` and `m_DefXFs`, the others from `m_Fonts` and
    `m_XFs`; globalrec.cpp 319-590. -/
def globals (s : State) : Option Globals.Data :=
  (Styles.xfRecords s.prog.look.styles).bind fun xfs =>
  (s.prog.look.book.labels.mapM Cells.Cell.val).map fun table =>
    { window := s.wb.window
      defFonts := (Styles.fontRecords s.prog.look.styles).take 5
      fonts := (Styles.fontRecords s.prog.look.styles).drop 5
      formats := s.prog.look.formats.list.map NumFmt.payload
      defXfs := xfs.take 21
      xfs := xfs.drop 21
      styles := builtins.map stylePayload
      palette := Palette.payload s.colors
      bounds := s.wb.bounds
      labels := table }

/-- Sheet `i` before the calls of `Act`: its cells, its used range (sheetrec.cpp 344), whether it is the active one (470) and its number. -/
def blank (s : State) (i : Nat) : Sheet.Data (Nat × Val) Note.Note :=
  { cells := (s.prog.look.book.sheets i).cells, heights := [], cols := [], notes := [], merged := [], links := [], dvals := []
    dimension := (s.used i).dimension, defRowHeight := 15, defColWidth := 10, rowSplit := 0, colSplit := 0
    active := s.wb.isActive i, index := (s.wb.sheets[i]?).getD 0 }

/-- Sheet `i` when it is saved, sheetrec.h 208-271. -/
def dataOf (s : State) (i : Nat) : Sheet.Data (Nat × Val) Note.Note :=
  applyAll (new (blank s i)) ((s.prog.acts i).map (Prog.numbered s.prog.look.styles))

/-- With the dump state of a sheet that was never saved (sheetrec.cpp 75-124). -/
def sheetOf (s : State) (i : Nat) : Sheet.Data (Nat × Val) Note.Note × Sheet.St (Nat × Val) :=
  let D := dataOf s i
  (D, ⟨.init, [], ⟨.init, [], [], [], 0, 0, 0, 0, []⟩, 0, 0, List.replicate D.notes.length 0, [], [], [], 0⟩)

def sheets (s : State) : List (Sheet.Data (Nat × Val) Note.Note × Sheet.St (Nat × Val)) :=
  (List.range s.wb.sheets.length).map (sheetOf s)

/-- What is handed to the compound file: the bytes of the units that `workbook::DumpData` makes, with stream positions filled in
    (workbook.cpp 304-315 and 336-480, Verif/Book/Model.lean); `cs` are the sizes that cells announce.  `none` is undefined behaviour, or that `fuel` calls
    were not enough. -/
def units (cs : WCell → Nat) (fuel : Nat) (s : State) : Option (List Bytes) :=
  (globals s).bind fun D =>
    match Book.run Globals.next (Sheet.next (Note.env (fun c => cellBytes s.prog.look.book.labels (Look.xf s.prog.look c) c) cs)) fuel
      (plainStart D (sheets s)) with
    | .done us s' => us.mapM (patch s'.bpos)
    | _ => none

end Xls.Desk
