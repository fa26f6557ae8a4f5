import Verif.Book.Model
import Verif.Sst.Model
import Verif.Note.Model
import Verif.Sheet.Model
/-
The workbook globals: `CGlobalRecords::DumpData` (globalrec.cpp) and the records it makes itself (recdef.cpp,
datast.cpp).

Fonts, formats, XF and style records are given by their payloads here; what is in them is modelled elsewhere.  Iterators
are the lists of what is still to come; dereferencing the end is undefined behaviour.
-/
namespace Xls.Globals
open Xls.Biff Xls.Unit

/-- `window1`, recdef.h 120-144; 16-bit members. -/
structure Window1 where
  horz : Nat
  vert : Nat
  width : Nat
  height : Nat
  active : Nat
  first : Nat
  tabBar : Nat
deriving Repr, DecidableEq

/-- The constructor, recdef.cpp 166-175; TWIP is 20. -/
def Window1.init : Window1 := ⟨0, 0, 0x37e0 / 20, 0x25e0 / 20, 0, 0, 500⟩

/-- `SetTabBarWidth`, recdef.h 139. -/
def Window1.setTabBar (w : Window1) (v : Nat) : Window1 := { w with tabBar := if v > 1000 then 1000 else v }

/-- WINDOW1, recdef.cpp 184-200. -/
def Window1.payload (w : Window1) : Bytes :=
  leN 2 (w.horz * 20 % 65536) ++ leN 2 (w.vert * 20 % 65536) ++ leN 2 (w.width * 20 % 65536) ++ leN 2 (w.height * 20 % 65536) ++
    leN 2 0x38 ++ leN 2 w.active ++ leN 2 w.first ++ leN 2 1 ++ leN 2 w.tabBar

/-- `boundsheet_t`, recdef.h 307-363: the name and the number of comments; all sheets are visible worksheets
    (workbook.cpp 125 and 142). -/
structure Bound where
  name : List UInt16
  notes : Nat
deriving Repr, DecidableEq

/-- BOUNDSHEET, recdef.cpp 383-405: the position is 0 until it is patched, the flags of a worksheet are 0. -/
def boundPayload (b : Bound) : Bytes := leN 4 0 ++ leN 2 0 ++ strBytes b.name .len1

/-- SUPBOOK, datast.cpp 440-450. -/
def supbookPayload (n : Nat) : Bytes := leN 2 (n % 65536) ++ [0x01] ++ [0x04]

/-- The entries of EXTERNSHEET from number `i` on, datast.cpp 497-501. -/
def externFrom : Nat → Nat → Bytes
  | _, 0 => []
  | i, n + 1 => leN 2 0 ++ leN 2 (i % 65536) ++ leN 2 (i % 65536) ++ externFrom (i + 1) n

/-- EXTERNSHEET, datast.cpp 491-503. -/
def externPayload (n : Nat) : Bytes := leN 2 (n % 65536) ++ externFrom 0 n

/-- The members of `CGlobalRecords` that are written, globalrec.h 84-193. -/
structure Data where
  window : Window1
  defFonts : List Bytes
  fonts : List Bytes
  formats : List Bytes
  defXfs : List Bytes
  xfs : List Bytes
  styles : List Bytes
  palette : Bytes
  bounds : List Bound
  labels : List (List UInt16)

/-- `m_DumpState`, globalrec.h 61-82. -/
inductive Phase
  | init | bof | codepage | window1 | datemode | defFonts | fonts | formats | defXfs | xfs | styles | palette
  | bounds | link1 | link2 | drawingGrp | sst | eof | finish
deriving Repr, DecidableEq

/-- The iterators. -/
structure St where
  phase : Phase
  defFonts : List Bytes
  fonts : List Bytes
  formats : List Bytes
  defXfs : List Bytes
  xfs : List Bytes
  styles : List Bytes
  bounds : List (Bound × Nat)

/-- A record made from its payload. -/
def unit (t : Nat) (p : Bytes) : Book.U := { data := enc (t, p) }

/-- The BOUNDSHEET record of sheet number `i`; `CBSheet` has back-patching level 3 and stays reachable through the
    `boundsheet_t` (recdef.cpp 386, globalrec.cpp 510). -/
def boundUnit (b : Bound × Nat) : Book.U := { data := enc (0x85, boundPayload b.1), tag := some b.2, level := 3 }

/-- One pass of the loop in `CGlobalRecords::DumpData`, globalrec.cpp 319-590. -/
def next (x : Data × St) : Book.Src (Data × St) :=
  let D := x.1
  let s := x.2
  match s.phase with
  | .init => .again (D, ⟨.bof, D.defFonts, D.fonts, D.formats, D.defXfs, D.xfs, D.styles, D.bounds.zipIdx⟩)
  | .bof => .unit (unit 0x809 (Sheet.bofPayload 5)) (D, { s with phase := .codepage })
  | .codepage => .unit (unit 0x42 (leN 2 1200)) (D, { s with phase := .window1 })
  | .window1 => .unit (unit 0x3D D.window.payload) (D, { s with phase := .datemode })
  | .datemode => .unit (unit 0x22 (leN 2 0)) (D, { s with phase := .defFonts })
  | .defFonts =>
    match s.defFonts with
    | [] => .ub
    | [p] => .unit (unit 0x31 p) (D, { s with phase := .fonts })
    | p :: r => .unit (unit 0x31 p) (D, { s with defFonts := r })
  | .fonts =>
    if D.fonts.isEmpty then .again (D, { s with phase := .formats })
    else
      match s.fonts with
      | [] => .ub
      | [p] => .unit (unit 0x31 p) (D, { s with phase := .formats, fonts := D.fonts })
      | p :: r => .unit (unit 0x31 p) (D, { s with fonts := r })
  | .formats =>
    if D.formats.isEmpty then .again (D, { s with phase := .defXfs })
    else
      match s.formats with
      | [] => .ub
      | [p] => .unit (unit 0x41E p) (D, { s with phase := .defXfs, formats := D.formats })
      | p :: r => .unit (unit 0x41E p) (D, { s with formats := r })
  | .defXfs =>
    match s.defXfs with
    | [] => .ub
    | [p] => .unit (unit 0xE0 p) (D, { s with phase := .xfs })
    | p :: r => .unit (unit 0xE0 p) (D, { s with defXfs := r })
  | .xfs =>
    if D.xfs.isEmpty then .again (D, { s with phase := .styles })
    else
      match s.xfs with
      | [] => .ub
      | [p] => .unit (unit 0xE0 p) (D, { s with phase := .styles, xfs := D.xfs })
      | p :: r => .unit (unit 0xE0 p) (D, { s with xfs := r })
  | .styles =>
    if D.styles.isEmpty then .again (D, { s with phase := .palette })
    else
      match s.styles with
      | [] => .ub
      | [p] => .unit (unit 0x293 p) (D, { s with phase := .palette })
      | p :: r => .unit (unit 0x293 p) (D, { s with styles := r })
  | .palette => .unit (unit 0x92 D.palette) (D, { s with phase := .bounds })
  | .bounds =>
    if D.bounds.isEmpty then .again (D, { s with phase := .link1, bounds := D.bounds.zipIdx })
    else
      match s.bounds with
      | [] => .ub
      | [b] => .unit (boundUnit b) (D, { s with phase := .link1, bounds := D.bounds.zipIdx })
      | b :: r => .unit (boundUnit b) (D, { s with bounds := r })
  | .link1 => .unit (unit 0x1AE (supbookPayload D.bounds.length)) (D, { s with phase := .link2 })
  | .link2 => .unit (unit 0x17 (externPayload D.bounds.length)) (D, { s with phase := .drawingGrp })
  | .drawingGrp =>
    match Note.makeDrawingGroup (D.bounds.map (·.notes)) with
    | none => .ub
    | some none => .again (D, { s with phase := .sst })
    | some (some bs) => .unit { data := bs } (D, { s with phase := .sst })
  | .sst =>
    if D.labels.isEmpty then .again (D, { s with phase := .eof })
    else
      match Sst.makeSST D.labels with
      | none => .ub
      | some bs => .unit { data := bs, cont := true } (D, { s with phase := .eof })
  | .eof => .unit (unit 0x0A []) (D, { s with phase := .finish })
  | .finish => .fin (D, { s with phase := .init })

end Xls.Globals
