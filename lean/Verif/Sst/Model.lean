import Verif.Biff.Record
import Verif.Cells.Model
/-
The shared string table: `CDataStorage::MakeSST` (datast.cpp) and the label bookkeeping of
`CGlobalRecords` and `label_t`.

Simplification: `size_t` is `Nat`.
-/
namespace Xls.Sst
open Xls.Unit Xls.Biff Xls.Cells

/-- `MAX_RECORD_SIZE`, rectypes.h 49. -/
def maxRecordSize : Nat := 8224

/-- The replacement text `"Length too long!"`, datast.cpp 529. -/
def tooLong : List UInt16 :=
  [0x4C, 0x65, 0x6E, 0x67, 0x74, 0x68, 0x20, 0x74, 0x6F, 0x6F, 0x20, 0x6C, 0x6F, 0x6E, 0x67, 0x21]

/-- The local variables of `MakeSST`: the record's contents, `offset` and `currSize`. -/
structure St where
  buf : Bytes
  offset : Nat
  currSize : Nat
deriving Repr

/-- The choice of the text to store, datast.cpp 524-532. -/
def chosen (label : List UInt16) : List UInt16 :=
  if unicodeStringLength label .len2 > maxRecordSize then tooLong else label

/-- One pass of the loop, datast.cpp 520-548. -/
def step (st : St) (label : List UInt16) : Option St :=
  let str := chosen label
  let size := unicodeStringLength str .len2
  (if st.currSize + size > maxRecordSize + 4 then
    (setAt16 st.buf (st.currSize - 4) (st.offset + 2)).bind fun b =>
      (setAt16 (b ++ List.replicate 4 0) 0x3C b.length).map fun b' => (b', b.length)
   else some (st.buf, st.offset)).map fun (b, off) =>
    let b' := b ++ strBytes str .len2
    { buf := b', offset := off, currSize := b'.length - off }

/-- `MakeSST`, datast.cpp 506-555; the record is marked as already continued, so that the workbook writes
    it as it is.  RECTYPE_SST is 0xFC. -/
def makeSST (labels : List (List UInt16)) : Option Bytes :=
  (setAt16 [0, 0, 0, 0] 0xFC 0).bind fun b0 =>
    let b := b0 ++ leN 4 labels.length ++ leN 4 labels.length
    (labels.foldlM step { buf := b, offset := 0, currSize := b.length }).bind fun st =>
      setAt16 st.buf (st.currSize - 4) (st.offset + 2)

/-! ### Which labels are in the table

A cell holds `some text` if it is a label. -/

abbrev LCell := Cell (Option (List UInt16))

/-- `inSST`, set by `label_t::setType`, label.cpp 79-85. -/
def inSST (c : LCell) : Bool :=
  match c.val with
  | some t => decide (t.length > 255)
  | none => false

/-- `AddLabelSST`, called by the constructor of a label: label.cpp 79-85, globalrec.cpp 670-675. -/
def addLabel (sst : List LCell) (c : LCell) : List LCell :=
  if inSST c then sst ++ [c] else sst

/-- `DeleteLabelSST`, globalrec.cpp 691-700, called by the destructor of a label in the table
    (label.cpp 87-94). -/
def deleteLabel (sst : List LCell) (c : LCell) : List LCell :=
  if inSST c then sst.eraseP (fun x => x.id == c.id) else sst

/-- `GetLabelSSTIndex`, globalrec.cpp 677-689; `GLOBAL_INVALID_STORE_INDEX`, 0x80000000 (globalrec.h 57), if the label is not there;
    truncated to 32 bits by label.cpp 124. -/
def sstIndex (sst : List LCell) (c : LCell) : Nat :=
  match sst.findIdx? (fun x => x.id == c.id) with
  | some i => i % 2 ^ 32
  | none => 2 ^ 31

/-- The record of a label cell with text `t`, `CLabel::CLabel`, label.cpp 115-129.
    RECTYPE_LABELSST is 0xFD, RECTYPE_LABEL 0x204. -/
def labelRec (sst : List LCell) (c : LCell) (t : List UInt16) (xf : Nat) : Rec :=
  (if inSST c then 0xFD else 0x204,
   leN 2 c.row ++ leN 2 c.col ++ leN 2 xf ++
     (if inSST c then leN 4 (sstIndex sst c) else strBytes t .len2))

/-- The sheets (by number) and `m_Labels`. -/
structure Book where
  sheets : Nat → Sheet (Option (List UInt16)) := fun _ => {}
  labels : List LCell := []

/-- Writing a cell: the object is created (a long label registers itself), then `AddCell` deletes the cell
    it replaces.  sheetrec.cpp 797-935 and 937-986. -/
def Book.put (b : Book) (i : Nat) (c : LCell) : Option Book :=
  ((b.sheets i).addCell c).map fun (s, dead) =>
    { sheets := fun j => if j = i then s else b.sheets j
      labels := dead.foldl deleteLabel (addLabel b.labels c) }

/-- The objects that exist have different addresses. -/
def Book.Live (b : Book) (id : Nat) : Prop := ∃ i, ∃ c ∈ (b.sheets i).cells, c.id = id

/-- The books reached by a history of cell writes; a new object never has the address of one that still
    exists. -/
inductive Reach : List (Nat × LCell) → Book → Prop
  | start : Reach [] {}
  | put {h : List (Nat × LCell)} {b b' : Book} {i : Nat} {c : LCell} :
      Reach h b → ¬ b.Live c.id → b.put i c = some b' → Reach (h ++ [(i, c)]) b'

end Xls.Sst
