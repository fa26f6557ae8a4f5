import Verif.Cells.Model
import Verif.Unit.Model
/-
Cell comments: the NOTE record, the drawing unit of a comment and the workbook's drawing group (note.cpp,
datast.cpp, globalrec.h).
-/
namespace Xls.Note
open Xls.Biff Xls.Unit

/-- `NoteRec`, note.h 50-60: nine 16-bit numbers. -/
structure Anchor where
  flag : Nat
  col1 : Nat
  dx1 : Nat
  row1 : Nat
  dy1 : Nat
  col2 : Nat
  dx2 : Nat
  row2 : Nat
  dy2 : Nat
deriving Repr, DecidableEq

/-- `note_t`, note.h 76-81, without its index, and the coordinates of its base class. -/
structure Note where
  row : UInt32
  col : UInt32
  author : List UInt16
  text : List UInt16
  anchor : Anchor
  fill : UInt32
deriving Repr, DecidableEq

/-- "Author Must Be 1 to 54chars long", note.cpp 101. -/
def authorWarning : List UInt16 :=
  [65, 117, 116, 104, 111, 114, 32, 77, 117, 115, 116, 32, 66, 101, 32, 49, 32, 116, 111, 32, 53, 52, 99, 104, 97, 114, 115, 32,
    108, 111, 110, 103]

/-- "Text Must Be 1 to 2048chars long", note.cpp 107. -/
def textWarning : List UInt16 :=
  [84, 101, 120, 116, 32, 77, 117, 115, 116, 32, 66, 101, 32, 49, 32, 116, 111, 32, 50, 48, 52, 56, 99, 104, 97, 114, 115, 32,
    108, 111, 110, 103]

/-- The loop counting line breaks, note.cpp 113-122; 10 is the line feed. -/
def countNL : List UInt16 → Bool → Nat
  | [], _ => 0
  | c :: r, last => if c = 10 then (if last then 2 else 1) + countNL r true else countNL r false

/-- The loop `while(lines > 20)`, note.cpp 126-129, on 16-bit numbers; `none` if `fuel` passes do not suffice. -/
def shrink : Nat → Nat → Nat → Option (Nat × Nat)
  | 0, _, _ => none
  | fuel + 1, cols, lines => if lines > 20 then shrink fuel (cols * 2 % 65536) (lines / 2) else some (cols, lines)

/-- The constructor with `Finalize`, note.cpp 54-140. -/
def mk (row col : UInt32) (author text : List UInt16) : Option Note :=
  let author := if author.length = 0 ∨ author.length > 54 then authorWarning else author
  let text := if text.length = 0 ∨ text.length > 2048 then textWarning else text
  let total := author.length + text.length + 2
  let count := total / 11 + countNL text false
  let r := row.toNat % 65536
  let c := col.toNat % 65536
  (shrink 17 2 ((1 + (count + 1) / 2 + 1) % 65536)).map fun p =>
    { row := row, col := col, author := author, text := text, fill := 0x08000050
      anchor := ⟨3, (c + 1) % 65536, 0xCD, r, 0x27, (c + 1 + p.1) % 65536, 0x7B, (r + p.2) % 65536, 0x3B⟩ }

/-- `SetFillColor`, note.h 89. -/
def Note.setFill (n : Note) (red green blue : UInt8) : Note :=
  { n with fill := blue.toUInt32 <<< 16 ||| green.toUInt32 <<< 8 ||| red.toUInt32 }

/-- `SetNoteRect`, note.h 88. -/
def Note.setRect (n : Note) (a : Anchor) : Note := { n with anchor := a }

/-- `dumpDrawData`, note.cpp 142-157: the header of a drawing element and its contents so far. -/
def drawData (ver inst typ len : Nat) (arr : Bytes) : Bytes :=
  leN 2 ((ver &&& 0x000F) ||| (inst <<< 4)) ++ leN 2 typ ++ leN 4 len ++ arr

/-- `drawDataOPID`, note.cpp 158-162. -/
def opid (id val : Nat) : Bytes := leN 2 id ++ leN 4 val

/-- `drawingSize`, note.cpp 165. -/
def drawingSize : Nat := 8 + 128

/-- `MakeSPID`, globalrec.h 140-144; startingSPID is 24, 88. -/
def makeSPID (sheet item : Nat) : Nat := ((sheet + 1) * 1000 + 24 + item) % 2 ^ 32

/-- `dumpDrawingContainer`, note.cpp 167-181; `spid` is `currentSPIDidx`, incremented once. -/
def drawingContainer (sheet spid count : Nat) : Bytes :=
  let extra := 40 + 8
  drawData 0xf 0x0 0xf002 ((8 + 16 + extra + drawingSize * count) % 2 ^ 32) [] ++
  drawData 0x0 0x1 0xf008 8 [] ++
  leN 4 ((count + 1) % 2 ^ 32) ++
  leN 4 ((makeSPID sheet spid + count) % 2 ^ 32) ++
  drawData 0xF 0x0 0xF003 ((extra + drawingSize * count) % 2 ^ 32) [] ++
  drawData 0xF 0x0 0xF004 40 [] ++
  drawData 0x1 0x0 0xF009 16 [0, 0, 0, 0, 0, 0, 0, 0, 0, 0, 0, 0, 0, 0, 0, 0] ++
  drawData 0x2 0x0 0xF00A 8 [] ++
  leN 4 (makeSPID sheet spid) ++
  leN 4 0x05

/-- The shape's properties, note.cpp 189-197. -/
def fopt (n : Note) : Bytes :=
  opid 0x0085 0x00000001 ++ opid 0x00BF 0x000A0008 ++ opid 0x0158 0x00000000 ++ opid 0x0181 n.fill.toNat ++
  opid 0x0183 0x08000050 ++ opid 0x01BF 0x00100010 ++ opid 0x023F 0x00030003 ++ opid 0x03BF 0x00020002

/-- Where the shape is, note.cpp 200-208. -/
def anchorBytes (a : Anchor) : Bytes :=
  leN 2 a.flag ++ leN 2 a.col1 ++ leN 2 a.dx1 ++ leN 2 a.row1 ++ leN 2 a.dy1 ++ leN 2 a.col2 ++ leN 2 a.dx2 ++ leN 2 a.row2 ++ leN 2 a.dy2

/-- `draw102`, note.cpp 50-51. -/
def draw102 : Bytes := [0xBF, 0x00, 0x20, 0x00, 0x20, 0x00]

/-- `dumpDrawingText`, note.cpp 183-210. -/
def drawingText (sheet spid : Nat) (n : Note) : Bytes :=
  drawData 0xF 0x0 0xF004 (drawingSize - 8) [] ++
  drawData 0x2 0xCA 0xF00A 8 [] ++
  leN 4 (makeSPID sheet spid) ++
  leN 4 0x0A00 ++
  drawData 0x3 0x8 0xF00B 48 [] ++
  fopt n ++
  drawData 0x3 0x1 0xF122 6 draw102 ++
  drawData 0x0 0x0 0xF010 18 [] ++
  anchorBytes n.anchor ++
  drawData 0x0 0x0 0xF011 0 []

/-- The text shown: author, colon, line feed, text; note.cpp 214-219. -/
def Note.full (n : Note) : List UInt16 := n.author ++ [58, 10] ++ n.text

/-- OBJ, note.cpp 242-253. -/
def objData (idx : Nat) : Bytes :=
  leN 2 0x15 ++ leN 2 0x12 ++ leN 2 0x19 ++ leN 2 ((idx + 1) % 65536) ++ leN 2 0x6011 ++ leN 4 0 ++ leN 4 0 ++ leN 4 0 ++ leN 4 0

/-- TXO, note.cpp 269-274. -/
def txoData (n : Note) : Bytes :=
  leN 2 0x0212 ++ leN 2 0 ++ [0, 0, 0, 0, 0, 0] ++ leN 2 (n.full.length % 65536) ++ leN 2 (8 * 3) ++ [0, 0, 0, 0]

/-- The formatting runs, note.cpp 287-297. -/
def runData (n : Note) : Bytes :=
  leN 2 0 ++ leN 2 1 ++ leN 4 0 ++ leN 2 ((n.author.length + 2) % 65536) ++ leN 2 0 ++ leN 4 0 ++ leN 2 (n.full.length % 65536) ++
    leN 2 0 ++ leN 4 0

/-- What follows the first record of the unit, note.cpp 239-297: OBJ, MSODRAWING, TXO and two CONTINUE records. -/
def tail (idx : Nat) (n : Note) : Bytes :=
  leN 2 0x5D ++ leN 2 26 ++ objData idx ++
  leN 2 0xEC ++ leN 2 8 ++ drawData 0x0 0x0 0xF00D 0 [] ++
  leN 2 0x1B6 ++ leN 2 18 ++ txoData n ++
  leN 2 0x3C ++ leN 2 ((strBytes n.full .nolen).length % 65536) ++ strBytes n.full .nolen ++
  leN 2 0x3C ++ leN 2 (3 * 8) ++ runData n

/-- `MakeDrawing`, note.cpp 212-298: the unit of comment number `idx` in sheet `sheet` with `count` comments, when
    `currentSPIDidx` is `spid`; RECTYPE_MSODRAWING is 0xEC.  The counter is 32 bits wide. -/
def drawing (sheet count spid idx : Nat) (n : Note) : Bytes :=
  let body := (if idx = 0 then drawingContainer sheet spid (count % 65536) else []) ++
    drawingText sheet (if idx = 0 then (spid + 1) % 2 ^ 32 else spid) n
  leN 2 0xEC ++ leN 2 body.length ++ body ++ tail idx n

/-- `CNote::CNote`, note.cpp 373-389; RECTYPE_NOTE is 0x1C. -/
def notePayload (idx : Nat) (n : Note) : Bytes :=
  leN 2 (n.row.toNat % 65536) ++ leN 2 (n.col.toNat % 65536) ++ leN 2 0 ++ leN 2 ((idx + 1) % 65536) ++
    strBytes n.author .len2 ++ [0]

/-- `draw001`, note.cpp 40-42. -/
def draw001 : Bytes := [0xbf, 0x00, 0x08, 0x00, 0x08, 0x00, 0x81, 0x01, 0x09, 0x00, 0x00, 0x08, 0xc0, 0x01, 0x40, 0x00, 0x00, 0x08]

/-- `draw002`, note.cpp 43-45. -/
def draw002 : Bytes := [0x0d, 0x00, 0x00, 0x08, 0x0c, 0x00, 0x00, 0x08, 0x17, 0x00, 0x00, 0x08, 0xf7, 0x00, 0x00, 0x10]

/-- The clusters, note.cpp 347-355; `i` is the loop variable. -/
def clusters : Nat → List (Nat × Nat) → Bytes
  | _, [] => []
  | i, sn :: r => leN 4 (i + 1) ++ leN 4 (1 + sn.2) ++ clusters (i + 1) r

/-- `CNote::MakeDrawingGroup`, note.cpp 321-371, the unit's bytes; `notes` has sheet number and number of comments of each
    sheet that has any.  The length fields are patched in afterwards.  With an empty array `notes[count-1]` is
    undefined.  RECTYPE_MSODRAWINGGROUP is 0xEB. -/
def drawingGroup (notes : List (Nat × Nat)) : Option Bytes :=
  match notes.getLast? with
  | none => none
  | some last =>
    let count := notes.length
    let total := (notes.map (·.2)).sum
    let f006 := leN 4 (makeSPID last.1 last.2) ++ leN 4 (count + 1) ++ leN 4 (count + total) ++ leN 4 count ++ clusters 0 notes
    let body := drawData 0x0 0x0 0xf006 f006.length f006 ++ drawData 0x3 0x3 0xf00b 18 draw001 ++ drawData 0x0 0x4 0xf11e 16 draw002
    some (enc (0xEB, drawData 0xf 0x0 0xf000 body.length body))

/-- The sheets with comments, numbered from `i`, datast.cpp 471-480. -/
def withNotes : Nat → List Nat → List (Nat × Nat)
  | _, [] => []
  | i, c :: r => if c ≠ 0 then (i % 65536, c) :: withNotes (i + 1) r else withNotes (i + 1) r

/-- `CDataStorage::MakeDrawingGroup`, datast.cpp 452-489, from the note counts of the sheets (16 bits each, recdef.h 329);
    the outer `Option` is undefined behaviour, the inner one the null pointer.  The total is 32 bits wide. -/
def makeDrawingGroup (counts : List Nat) : Option (Option Bytes) :=
  if counts.sum % 2 ^ 32 ≠ 0 then (drawingGroup (withNotes 0 counts)).map some else some none

end Xls.Note
