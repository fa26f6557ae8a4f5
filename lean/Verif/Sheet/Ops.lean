import Verif.Sheet.Model
/-
The calls that change the parts of a worksheet other than its cells and comments.

Formats are represented by their index at the time of the call; their usage counts are not modelled here.
`validate` copies the two formulas' bytes: in the code the conditions are pointers to formula objects that are dumped when the
sheet is saved; formulas that change after they were given to `validate` are in Verif/Live.
-/
namespace Xls.Sheet
open Xls.Cells Xls.Biff Xls.Rows

variable {α ν : Type}

/-- The comparison `colinfosort`, colinfo.h 53-60. -/
def ColInfo.key (c : ColInfo) : Key := (c.first, 0)

/-- The comparison `rowheightsort`, row.h 105-112. -/
def heightKey (h : RowHeight) : Key := (h.row, 0)

/-- `worksheet::colwidth`, sheetrec.cpp 1304-1335. -/
def Data.colwidth (D : Data α ν) (col : UInt32) (width : UInt16) (xf : Option Nat) : Data α ν :=
  let ci : ColInfo := ⟨col.toNat, col.toNat, width.toNat, xf, 0⟩
  match setFind ColInfo.key ci.key D.cols with
  | some _ => { D with cols := (setInsert ColInfo.key ci (setErase ColInfo.key ci.key D.cols)).1 }
  | none => { D with cols := (setInsert ColInfo.key ci D.cols).1 }

/-- `worksheet::rowheight`, sheetrec.cpp 1337-1361. -/
def Data.rowheight (D : Data α ν) (row : UInt32) (height : UInt16) (xf : Option Nat) : Data α ν :=
  let rh : RowHeight := ⟨row.toNat, height.toNat, xf⟩
  match setFind heightKey (heightKey rh) D.heights with
  | some _ => { D with heights := (setInsert heightKey rh (setErase heightKey (heightKey rh) D.heights)).1 }
  | none => { D with heights := (setInsert heightKey rh D.heights).1 }

/-- `worksheet::merge`, sheetrec.cpp 1291-1302. -/
def Data.merge (D : Data α ν) (firstRow firstCol lastRow lastCol : UInt32) : Data α ν :=
  { D with merged := D.merged ++ [⟨firstRow.toNat, lastRow.toNat, firstCol.toNat, lastCol.toNat⟩] }

/-- `worksheet::hyperLink`, sheetrec.cpp 1412-1434 (row and column are cast to 16 bits there). -/
def Data.hyperLink (D : Data α ν) (row col : UInt32) (url mark : List UInt16) : Data α ν :=
  { D with links := D.links ++ [⟨row.toNat % 65536, col.toNat % 65536, url, mark⟩] }

/-- `worksheet::validate`, sheetrec.cpp 1371-1409. -/
def Data.validate (D : Data α ν) (v : DVal) : Data α ν := { D with dvals := D.dvals ++ [v] }

/-- `worksheet::defaultRowHeight`, sheetrec.h 320 (`hidden` is stored and never used). -/
def Data.setDefRowHeight (D : Data α ν) (h : UInt16) : Data α ν := { D with defRowHeight := h.toNat }

/-- `worksheet::defaultColwidth`, sheetrec.h 321. -/
def Data.setDefColWidth (D : Data α ν) (w : UInt16) : Data α ν := { D with defColWidth := w.toNat }

/-- The calls. -/
inductive Call where
  | colwidth (col : UInt32) (width : UInt16) (xf : Option Nat)
  | rowheight (row : UInt32) (height : UInt16) (xf : Option Nat)
  | merge (firstRow firstCol lastRow lastCol : UInt32)
  | hyperLink (row col : UInt32) (url mark : List UInt16)
  | validate (v : DVal)
  | defRowHeight (h : UInt16)
  | defColWidth (w : UInt16)

def Data.call (D : Data α ν) : Call → Data α ν
  | .colwidth c w x => D.colwidth c w x
  | .rowheight r h x => D.rowheight r h x
  | .merge a b c d => D.merge a b c d
  | .hyperLink r c u m => D.hyperLink r c u m
  | .validate v => D.validate v
  | .defRowHeight h => D.setDefRowHeight h
  | .defColWidth w => D.setDefColWidth w

def Data.calls (D : Data α ν) (l : List Call) : Data α ν := l.foldl Data.call D

/-- A new worksheet, sheetrec.cpp 116-170, as far as these calls are concerned. -/
def Data.fresh (D : Data α ν) : Data α ν := { D with cols := [], heights := [], merged := [], links := [], dvals := [] }

end Xls.Sheet
