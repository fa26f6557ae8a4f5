import Verif.Sheet.Model
import Verif.Book.Lemmas
/-
What a sheet's part of the workbook stream should look like: the order of its records and how to read some of
them, from the file format.
-/
namespace Xls.Sheet
open Xls.Biff Xls.Rows

variable {α ν : Type}

/-- The type of the record at the start of a unit. -/
def typeOf (bs : Bytes) : Option Nat := rdLE 2 bs 0

/-- The payload of the record at the start of a unit. -/
def payloadOf (bs : Bytes) : Option Bytes :=
  match rdLE 2 bs 2 with
  | some n => if 4 + n ≤ bs.length then some ((bs.drop 4).take n) else none
  | none => none

/-- The sections of a worksheet substream in the order of the file format: BOF, INDEX, DEFAULTROWHEIGHT, COLINFO,
    DEFCOLWIDTH, DIMENSIONS, the cell table (ROW, cells, DBCELL), drawings, NOTE, MERGEDCELLS, WINDOW2, PANE, HLINK,
    DVAL, DV, EOF. -/
def sectionOf : Nat → Option Nat
  | 0x809 => some 0
  | 0x20B => some 1
  | 0x225 => some 2
  | 0x7D => some 3
  | 0x55 => some 4
  | 0x200 => some 5
  | 0x208 => some 6
  | 0x201 => some 6
  | 0x203 => some 6
  | 0x204 => some 6
  | 0x205 => some 6
  | 0x06 => some 6
  | 0xFD => some 6
  | 0x27E => some 6
  | 0xD7 => some 6
  | 0xEC => some 7
  | 0x1C => some 8
  | 0xE5 => some 9
  | 0x23E => some 10
  | 0x41 => some 11
  | 0x1B8 => some 12
  | 0x1B2 => some 13
  | 0x1BE => some 14
  | 0x0A => some 15
  | _ => none

/-- How many records each section has, for a sheet with `rb` records in its cell table. -/
def expected (D : Data α ν) (rb : Nat) : Nat → Nat
  | 3 => D.cols.length
  | 6 => rb
  | 7 => D.notes.length
  | 8 => D.notes.length
  | 9 => (D.merged.length + 1026) / 1027
  | 11 => if D.rowSplit = 0 ∧ D.colSplit = 0 then 0 else 1
  | 12 => D.links.length
  | 13 => if D.dvals.length = 0 then 0 else 1
  | 14 => D.dvals.length
  | _ => 1

/-- The records made elsewhere have the types they should have. -/
structure Env.Typed (env : Env α ν) : Prop where
  cell : ∀ c, (typeOf (env.cellData c)).bind sectionOf = some 6
  drawing : ∀ a b c i n, (typeOf (env.drawing a b c i n)).bind sectionOf = some 7
  note : ∀ i n, (typeOf (env.noteData i n)).bind sectionOf = some 8

/-- Read the rectangles of a MERGEDCELLS payload: a count, then first row, last row, first column, last column of
    each, 16 bits each. -/
def readRects : Nat → Bytes → Option (List Rect)
  | 0, [] => some []
  | n + 1, bs =>
    match takeLE 2 bs with
    | none => none
    | some (a, b1) =>
      match takeLE 2 b1 with
      | none => none
      | some (b, b2) =>
        match takeLE 2 b2 with
        | none => none
        | some (c, b3) =>
          match takeLE 2 b3 with
          | none => none
          | some (d, b4) => (readRects n b4).map (⟨a, b, c, d⟩ :: ·)
  | 0, _ :: _ => none

def readMerged (p : Bytes) : Option (List Rect) :=
  match takeLE 2 p with
  | none => none
  | some (n, r) => readRects n r

/-- Read a COLINFO payload: first column, last column, width, format. -/
def readColInfo (p : Bytes) : Option (Nat × Nat × Nat × Nat) :=
  match rdLE 2 p 0, rdLE 2 p 2, rdLE 2 p 4, rdLE 2 p 6 with
  | some f, some l, some w, some x => if p.length = 12 then some (f, l, w, x) else none
  | _, _, _, _ => none

/-- Read the stream positions in an INDEX payload: they follow four 32-bit fields, the last of which is the
    position of the DEFCOLWIDTH record, which is read too. -/
def readU32s : Nat → Bytes → Option (List Nat)
  | 0, [] => some []
  | n + 1, bs =>
    match takeLE 4 bs with
    | none => none
    | some (a, r) => (readU32s n r).map (a :: ·)
  | 0, _ :: _ => none

def readIndex (p : Bytes) : Option (List Nat) :=
  if p.length < 12 then none else readU32s ((p.length - 12) / 4) (p.drop 12)

/-- The units of a given section. -/
def inSection (k : Nat) (us : List Book.U) : List Bytes :=
  (us.filter fun u => (typeOf u.data).bind sectionOf == some k).map (·.data)

/-- Where unit number `k` begins if the first one begins at `off`. -/
def positionOf (off : Nat) (us : List Book.U) (k : Nat) : Nat := off + ((us.take k).map (·.data.length)).sum

/-- How handing out all records ends. -/
inductive Drained (σ : Type) where
  | done (us : List Book.U) (s : σ)
  | ub
  | fuelOut

def Drained.push {σ : Type} (u : Book.U) : Drained σ → Drained σ
  | .done us s => .done (u :: us) s
  | .ub => .ub
  | .fuelOut => .fuelOut

/-- Pull records out of a sheet until it has no more, as state WB_SHEETS of `workbook::DumpData` does
    (workbook.cpp 373-412); `Book.cost` is what a record adds to the stream position there. -/
def drain {σ : Type} (snext : σ → Nat → Nat → Book.Src σ) : Nat → Nat → Nat → σ → Drained σ
  | 0, _, _, _ => .fuelOut
  | fuel + 1, off, wl, s =>
    match snext s off wl with
    | .ub => .ub
    | .again s' => drain snext fuel off wl s'
    | .unit u s' => (drain snext fuel off (wl + Book.cost u) s').push u
    | .fin s' => .done [] s'

end Xls.Sheet
