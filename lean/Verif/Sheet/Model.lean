import Verif.Rows.Index
import Verif.Book.Model
import Verif.Unit.Model
/-
A worksheet as a source of records: `worksheet::DumpData` (sheetrec.cpp) with its iterators as a state machine,
and the bytes of the records it makes.

The bytes of cells, comments and comment drawings are parameters (`Env`); formulas in data validations are given
as their announced size and their bytes.  The cache `m_RBSizes` is dropped whenever a cell is
added (sheetrec.cpp 984-985), so that in one save it holds a function of the cells; across saves, and formulas that
change between them, it is in Verif/Life/Model.lean.  An iterator is the list of elements from
there to the end; dereferencing the empty list is undefined behaviour.
-/
namespace Xls.Sheet
open Xls.Cells Xls.Biff Xls.Rows Xls.Unit

variable {α ν : Type}

/-- `colinfo_t`, colinfo.h 44-51; `xf` is the index of the format. -/
structure ColInfo where
  first : Nat
  last : Nat
  width : Nat
  xf : Option Nat
  flags : Nat
deriving Repr, DecidableEq

/-- `range_t`, merged.h. -/
structure Rect where
  firstRow : Nat
  lastRow : Nat
  firstCol : Nat
  lastCol : Nat
deriving Repr, DecidableEq

/-- `HyperLink`, sheetrec.h. -/
structure Link where
  row : Nat
  col : Nat
  url : List UInt16
  mark : List UInt16
deriving Repr, DecidableEq

/-- `DataValidation`, sheetrec.h; a formula is its `GetSize()` and what its `DumpData` writes. -/
structure DVal where
  rect : Rect
  options : Nat
  promptTitle : List UInt16
  promptText : List UInt16
  errorTitle : List UInt16
  errorText : List UInt16
  cond1 : Option (Nat × Bytes)
  cond2 : Option (Nat × Bytes)

/-- What `DumpData` reads of a worksheet, sheetrec.h 208-271. -/
structure Data (α ν : Type) where
  cells : List (Cell α)
  heights : List RowHeight
  cols : List ColInfo
  notes : List ν
  merged : List Rect
  links : List Link
  dvals : List DVal
  dimension : Bytes
  defRowHeight : Nat
  defColWidth : Nat
  rowSplit : Nat
  colSplit : Nat
  active : Bool
  index : Nat

/-- The records whose bytes are made elsewhere: what `c->GetData()` makes, what `c->GetSize()` announces, and
    for comment number `idx` the drawing unit (given the sheet's number, its number of comments and the
    running shape number) and the NOTE record. -/
structure Env (α ν : Type) where
  cellData : Cell α → Bytes
  cellSize : Cell α → Nat
  drawing : (sheet count spid idx : Nat) → ν → Bytes
  noteData : Nat → ν → Bytes

/-- The records of a sheet. -/
inductive Ev (α ν : Type) where
  | bof
  | index (firstRow lastRow : Nat) (offs : List Nat)
  | defRowHeight
  | colinfo (c : ColInfo)
  | defColWidth
  | dimension
  | rb (e : Rows.Ev α)
  | drawing (spid i : Nat) (n : ν)
  | note (i : Nat) (n : ν)
  | merged (l : List Rect)
  | window2
  | pane
  | link (l : Link)
  | dvHeader (count : Nat)
  | dv (v : DVal)
  | eof

/-- `SheetRecordDumpState_t`, sheetrec.h 59-79. -/
inductive Phase
  | init | bof | index | defRowHeight | colinfo | defColWidth | dimension | rowblocks | drawings | notes
  | merged | window2 | pane | links | dvHeader | dvBody | eof | finish
deriving Repr, DecidableEq

/-- The member variables that `DumpData` changes, sheetrec.h 208-271; `noteIdx` is `m_CurrentNoteIdx`, `idxs` the
    index member of each comment object, `spid` is `currentSPIDidx` (set to 0 by the constructor only, 91). -/
structure St (α : Type) where
  phase : Phase
  cols : List ColInfo
  rb : Rows.St α
  note : Nat
  noteIdx : Nat
  idxs : List Nat
  merged : List Rect
  links : List Link
  dvals : List DVal
  spid : Nat

/-- The outcome of one pass of the `do … while(repeat)` loop. -/
inductive Pass (α ν : Type) where
  | ub
  | again (s : St α)
  | ret (e : Option (Ev α ν)) (s : St α)

/-- First and last row for the INDEX record, sheetrec.cpp 1086-1091, 1108-1113, 1265-1274. -/
def indexRows (cells : List (Cell α)) : Nat × Nat :=
  cells.foldl (fun (f, l) c => (if f > c.row then c.row else f, if l < c.row then c.row else l)) (2 ^ 32 - 1, 0)

/-- One pass of the loop of `worksheet::DumpData`, sheetrec.cpp 233-553; `pos` is `offset + writeLen`. -/
def pass (env : Env α ν) (D : Data α ν) (pos : Nat) (s : St α) : Pass α ν :=
  match s.phase with
  | .init => .again { s with
      cols := D.cols, rb := { s.rb with cur := D.cells }, note := 0, noteIdx := 0, links := D.links,
      dvals := D.dvals, merged := D.merged, phase := .bof }
  | .bof => .ret (some .bof) { s with phase := .index }
  | .index => .ret (some (.index (indexRows D.cells).1 (indexRows D.cells).2
      (indexOffsets env.cellSize pos D.cols.length D.cells))) { s with phase := .defRowHeight }
  | .defRowHeight => .ret (some .defRowHeight) { s with phase := .colinfo }
  | .colinfo =>
    if D.cols ≠ [] then
      match s.cols with
      | [] => .ub
      | c :: r => .ret (some (.colinfo c)) { s with cols := r, phase := if r = [] then .defColWidth else .colinfo }
    else .again { s with phase := .defColWidth }
  | .defColWidth => .ret (some .defColWidth) { s with phase := .dimension }
  | .dimension => .ret (some .dimension) { s with phase := .rowblocks }
  | .rowblocks =>
    if D.cells ≠ [] then
      match Rows.pass (fun c => (env.cellData c).length) D.heights pos s.rb with
      | .ub => .ub
      | .again rb => .again { s with rb := rb }
      | .ret (some e) rb => .ret (some (.rb e)) { s with rb := rb }
      | .ret none rb => .again { s with rb := rb, phase := .drawings }
    else .again { s with phase := .drawings }
  | .drawings =>
    if D.notes ≠ [] then
      if s.note ≠ D.notes.length then
        match D.notes[s.note]? with
        | none => .ub
        | some n => .ret (some (.drawing s.spid s.noteIdx n))
            { s with note := s.note + 1, idxs := s.idxs.set s.note s.noteIdx, noteIdx := (s.noteIdx + 1) % 65536,
                     -- note.cpp 179, 187: the first drawing has the group shape, too
                     spid := (s.spid + if s.noteIdx = 0 then 2 else 1) % 2 ^ 32 }
      else .again { s with note := 0, phase := .notes }
    else .again { s with phase := .notes }
  | .notes =>
    if D.notes ≠ [] then
      if s.note ≠ D.notes.length then
        match D.notes[s.note]?, s.idxs[s.note]? with
        | some n, some i => .ret (some (.note i n)) { s with note := s.note + 1 }
        | _, _ => .ub
      else .again { s with phase := .merged }
    else .again { s with phase := .merged }
  | .merged =>
    if D.merged ≠ [] then
      if s.merged.length ≠ 0 then
        .ret (some (.merged (s.merged.take (if s.merged.length > 1027 then 1027 else s.merged.length))))
          { s with merged := s.merged.drop (if s.merged.length > 1027 then 1027 else s.merged.length) }
      else .again { s with phase := .window2 }
    else .again { s with phase := .window2 }
  | .window2 => .ret (some .window2) { s with phase := .pane }
  | .pane =>
    if D.rowSplit ≠ 0 ∨ D.colSplit ≠ 0 then .ret (some .pane) { s with phase := .links }
    else .again { s with phase := .links }
  | .links =>
    if D.links ≠ [] then
      match s.links with
      | [] => .ub
      | l :: r => .ret (some (.link l)) { s with links := r, phase := if r = [] then .dvHeader else .links }
    else .again { s with phase := .dvHeader }
  | .dvHeader =>
    if D.dvals ≠ [] then .ret (some (.dvHeader D.dvals.length)) { s with phase := .dvBody }
    else .again { s with phase := .dvBody }
  | .dvBody =>
    if D.dvals ≠ [] then
      match s.dvals with
      | [] => .ub
      | v :: r => .ret (some (.dv v)) { s with dvals := r, phase := if r = [] then .eof else .dvBody }
    else .again { s with phase := .eof }
  | .eof => .ret (some .eof) { s with phase := .finish }
  | .finish => .ret none { s with phase := .init }

/-! ### Bytes of the records -/

/-- BOF, recdef.cpp 108-122; VERSION_BIFF 0x600, BOF_TYPE_WORKSHEET 0x10, BOF_TYPE_WBGLOBALS 5, recdef.h 46-58. -/
def bofPayload (typ : Nat) : Bytes :=
  leN 2 0x600 ++ leN 2 typ ++ leN 2 0x1d5f ++ leN 2 0x07cd ++ leN 4 0 ++ leN 4 0x600

/-- DEFAULTROWHEIGHT, sheetrec.cpp 307-316; DEFAULT_ROW_HEIGHT is 300/20. -/
def defRowHeightPayload (h : Nat) : Bytes := leN 2 (if h = 15 then 0 else 1) ++ leN 2 (h * 20)

/-- COLINFO, colinfo.cpp 38-56. -/
def colinfoPayload (c : ColInfo) : Bytes :=
  leN 2 c.first ++ leN 2 c.last ++ leN 2 c.width ++ leN 2 (match c.xf with | some x => x | none => 0x0F) ++
    leN 2 c.flags ++ leN 2 0

/-- MERGEDCELLS, merged.cpp 44-72 with sheetrec.cpp 441-449: the count is patched over the initial 0. -/
def mergedPayload (l : List Rect) : Bytes :=
  leN 2 l.length ++ l.flatMap fun r => leN 2 r.firstRow ++ leN 2 r.lastRow ++ leN 2 r.firstCol ++ leN 2 r.lastCol

/-- WINDOW2, recdef.cpp 242-266; flags recdef.h 199-209, COLOR_CODE_SYS_WIND_FG 0x40. -/
def window2Payload (active : Bool) : Bytes :=
  leN 2 (if active then 0x00BE ||| 0x0600 else 0x00BE) ++ leN 2 0 ++ leN 2 0 ++ leN 2 0x40 ++ leN 2 0 ++ leN 2 0 ++
    leN 2 0 ++ leN 4 0

/-- PANE, sheetrec.cpp 474-491. -/
def panePayload (rowSplit colSplit : Nat) : Bytes :=
  leN 2 colSplit ++ leN 2 rowSplit ++ leN 2 rowSplit ++ leN 2 colSplit ++
    leN 2 (if rowSplit ≠ 0 then (if colSplit ≠ 0 then 0 else 2) else 1)

/-- `StdLinkGUID`, sheetrec.cpp 1487. -/
def stdLinkGUID : Bytes := [0xd0, 0xc9, 0xea, 0x79, 0xf9, 0xba, 0xce, 0x11, 0x8c, 0x82, 0x00, 0xaa, 0x00, 0x4b, 0xa9, 0x0b]

/-- `URLMonikerGUID`, sheetrec.cpp 1488. -/
def urlMonikerGUID : Bytes := [0xe0, 0xc9, 0xea, 0x79, 0xf9, 0xba, 0xce, 0x11, 0x8c, 0x82, 0x00, 0xaa, 0x00, 0x4b, 0xa9, 0x0b]

/-- HLINK, `MakeHyperLink`, sheetrec.cpp 1490-1542; lengths are 32-bit. -/
def hlinkPayload (l : Link) : Bytes :=
  leN 2 l.row ++ leN 2 l.row ++ leN 2 l.col ++ leN 2 l.col ++ stdLinkGUID ++ leN 4 2 ++
    leN 4 (if l.mark ≠ [] then 3 ||| 8 else 3) ++ urlMonikerGUID ++ leN 4 ((l.url.length + 1) * 2) ++
    l.url.flatMap (fun c => leN 2 c.toNat) ++ leN 2 0 ++
    (if l.mark ≠ [] then leN 4 ((l.mark.length + 1) * 2 % 2 ^ 32 / 2) ++ l.mark.flatMap (fun c => leN 2 c.toNat) ++ leN 2 0
     else [])

/-- DVAL, `MakeDataValidationHeader`, sheetrec.cpp 1433-1445. -/
def dvalPayload (count : Nat) : Bytes := leN 2 0 ++ leN 4 0 ++ leN 4 0 ++ leN 4 0xFFFFFFFF ++ leN 4 count

/-- One condition of a DV record, sheetrec.cpp 1458-1477; OP_INT is 0x1E. -/
def condBytes : Option (Nat × Bytes) → Bytes
  | none => leN 2 3 ++ leN 2 0 ++ leN 1 0x1E ++ leN 2 0
  | some (n, bs) => leN 2 n ++ leN 2 0 ++ bs

/-- DV, `MakeDataValidationEntry`, sheetrec.cpp 1447-1486. -/
def dvPayload (v : DVal) : Bytes :=
  leN 4 v.options ++ strBytes v.promptTitle .len2 ++ strBytes v.errorTitle .len2 ++ strBytes v.promptText .len2 ++
    strBytes v.errorText .len2 ++ condBytes v.cond1 ++ condBytes v.cond2 ++ leN 2 1 ++
    leN 2 v.rect.firstRow ++ leN 2 v.rect.lastRow ++ leN 2 v.rect.firstCol ++ leN 2 v.rect.lastCol

/-- The bytes of a record; record types rectypes.h. -/
def Ev.bytes (env : Env α ν) (D : Data α ν) : Ev α ν → Bytes
  | .bof => enc (0x809, bofPayload 0x10)
  | .index f l o => enc (0x20B, indexPayload f l o)
  | .defRowHeight => enc (0x225, defRowHeightPayload D.defRowHeight)
  | .colinfo c => enc (0x7D, colinfoPayload c)
  | .defColWidth => enc (0x55, leN 2 D.defColWidth)
  | .dimension => enc (0x200, D.dimension)
  | .rb e => e.bytes env.cellData
  | .drawing sp i n => env.drawing D.index D.notes.length sp i n
  | .note i n => env.noteData i n
  | .merged l => enc (0xE5, mergedPayload l)
  | .window2 => enc (0x23E, window2Payload D.active)
  | .pane => enc (0x41, panePayload D.rowSplit D.colSplit)
  | .link l => enc (0x1B8, hlinkPayload l)
  | .dvHeader n => enc (0x1B2, dvalPayload n)
  | .dv v => enc (0x1BE, dvPayload v)
  | .eof => enc (0x0A, [])

/-- The backpatching levels: index.cpp 46, row.cpp (DBCELL); all others have 0. -/
def Ev.level : Ev α ν → Nat
  | .index .. => 2
  | .rb (.dbcell ..) => 1
  | _ => 0

/-- The record as a unit of the workbook stream. -/
def Ev.unit (env : Env α ν) (D : Data α ν) (e : Ev α ν) : Book.U := { data := e.bytes env D, level := e.level }

/-- A worksheet as a source for the workbook. -/
def next (env : Env α ν) (s : Data α ν × St α) (offset writeLen : Nat) : Book.Src (Data α ν × St α) :=
  match pass env s.1 (offset + writeLen) s.2 with
  | .ub => .ub
  | .again t => .again (s.1, t)
  | .ret none t => .fin (s.1, t)
  | .ret (some e) t => .unit (e.unit env s.1) (s.1, t)

end Xls.Sheet
