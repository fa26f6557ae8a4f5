import Verif.Unit.Props
import Verif.Cells.OSet
/-
The two document-summary streams: `HPSF.{h,cpp}`, `summinfo.{h,cpp}`, `docsumminfo.{h,cpp}` and
`workbook::property`.

Simplifications: `time(NULL)` and `PACKAGE_NAME` are parameters; `new` and `malloc` succeed.  The stream is
built with the record-buffer operations of `Verif.Unit.Model`, so leaving the allocation is `none`.
-/
namespace Xls.Hpsf
open Xls.Unit Xls.Cells

/-- `hpsf_t` with `hValue`, HPSF.h 64-79. -/
inductive Val
  | str (s : Bytes)
  | bool (b : Bool)
  | i16 (v : Nat)
  | i32 (v : Nat)
  | i64 (v : Nat)
  deriving DecidableEq, Repr

/-- `HPSFitem`, HPSF.h 82-110 (`offset` is only ever written). -/
structure Item where
  id : Nat
  val : Val
  deriving DecidableEq, Repr

/-- `insertsort2`, HPSF.h 112-116: by `propID`. -/
def Item.key (i : Item) : Key := (i.id, 0)

/-- `hpsfValues[variant]`, HPSF.cpp 50-56. -/
def Val.tag : Val → Nat
  | .str _ => 30
  | .bool _ => 11
  | .i16 _ => 2
  | .i32 _ => 3
  | .i64 _ => 64

/-- `HPSFitem::GetSize`, HPSF.cpp 110-140; `x & ~3ul` is `x / 4 * 4`. -/
def Val.size : Val → Nat
  | .str s => (s.length + 1 + 4 + 4 - 1) / 4 * 4 + 4
  | .bool _ => 2 + 2 + 4
  | .i16 _ => 2 + 2 + 4
  | .i32 _ => 4 + 4
  | .i64 _ => 8 + 4

/-- `hpsf_doc_t::insert`, HPSF.cpp 159-174; the fuel counts the turns of the loop. -/
def insertLoop (x : Item) : Nat → List Item → Option (List Item)
  | 0, _ => none
  | fuel + 1, l =>
    match setInsert Item.key x l with
    | (l', none) => some l'
    | (l', some old) => insertLoop x fuel (setErase Item.key old.key l')

/-- `addItem`, HPSF.h 136-141. -/
def addItem (l : List Item) (id : Nat) (v : Val) : Option (List Item) :=
  insertLoop ⟨id % 65536, v⟩ (l.length + 2) l

/-- `docType_t`, HPSF.h 58-62. -/
inductive DocType | summary | docSummary
  deriving DecidableEq, Repr

/-- `summaryFormat` and `docSummaryFormat`, HPSF.cpp 38-49. -/
def fmt : DocType → List Nat
  | .summary => [0xf29f85e0, 0x10684ff9, 0x000891ab, 0xd9b3272b]
  | .docSummary => [0xd5cdd502, 0x101b2e9c, 0x00089793, 0xaef92c2b]

/-- `SUMMARY_SIZE`, HPSF.h 48. -/
def summarySize : Nat := 4096

/-- `GetDataSize()`. -/
def sizeOf (u : CUnit) : Option Nat := u.map Store.dataSize

/-- `AddFixedDataArray`, unit.cpp 328-362, with the `size_t` arithmetic of line 343 kept: `size` may be as
    large as a wrapped subtraction makes it. -/
def addFixed64 (u : CUnit) (v : UInt8) (n : Nat) : Option CUnit :=
  u.bind fun s0 =>
    (if s0.getSize - s0.dataSize < n then s0.resize ((n + s0.dataSize) % 2 ^ 64) else some s0).bind fun s =>
      (pokeSeq s.mem s.dataSize (List.replicate n v)).map fun m =>
        some ({ s with mem := m }.setDataSize (s.dataSize + n))

/-- `a - b` on `size_t`. -/
def sub64 (a b : Nat) : Nat := (a + 2 ^ 64 - b % 2 ^ 64) % 2 ^ 64

/-- Lines 216-233 of HPSF.cpp: header, number of sections, class identifier (not `__OSX__`). -/
def headOps (dt : DocType) : List Op :=
  [.u16 0xfffe, .u16 0, .u32 2, .u32 0, .u32 0, .u32 0, .u32 0, .u32 1] ++ (fmt dt).map .u32

/-- Lines 247-256: one table entry per property. -/
def tableOps : Nat → List Item → List Op
  | _, [] => []
  | off, i :: r => .u32 i.id :: .u32 off :: tableOps (off + i.val.size) r

/-- `itemOffset` after that loop. -/
def endOffset : Nat → List Item → Nat
  | off, [] => off
  | off, i :: r => endOffset (off + i.val.size) r

/-- Lines 263-305: the typed value and its padding. -/
def valOps : Val → List Op
  | .str s => [.u32 30, .u32 (s.length + 1), .arr s, .fill 0 (1 + (4 - (s.length + 1) % 4) % 4)]
  | .bool b => [.u32 11, .u16 (if b then 0xFFFF else 0), .fill 0 2]
  | .i16 v => [.u32 2, .u16 v, .fill 0 2]
  | .i32 v => [.u32 3, .u32 v, .fill 0 0]
  | .i64 v => [.u32 64, .u64 v, .fill 0 0]

/-- `CHPSFdoc::CHPSFdoc`, HPSF.cpp 200-313. -/
def build (dt : DocType) (items : List Item) : Option CUnit :=
  (inflate none summarySize).bind fun u =>
  (runOps u (headOps dt)).bind fun u =>
  (sizeOf u).bind fun n0 =>
  (runOps u ([.u32 (n0 + 4), .u32 0, .u32 items.length] ++ tableOps (8 + items.length * 8) items)).bind fun u =>
  (setValueAt32 u (endOffset (8 + items.length * 8) items) (n0 + 4)).bind fun r =>
  (runOps r.1 (items.flatMap fun i => valOps i.val)).bind fun u =>
  (sizeOf u).bind fun n => addFixed64 u 0 (sub64 summarySize n)

/-- `property2summary`, summinfo.cpp 42-55, with the numbers of summinfo.h 41-59; index `property_t`. -/
def property2summary : List Int := [0, 4, -1, 6, -1, 18, 5, -1, 9, 3, 2]

/-- `property2docSummary`, docsumminfo.cpp 40-52, with the numbers of docsumminfo.h 38-54. -/
def property2docSummary : List Int := [-1, -1, 2, -1, 15, -1, -1, 14, -1, -1, -1]

/-- `PROP_LAST`, summinfo.h 70-83. -/
def propLast : Nat := 11

/-- The members of `workbook` that hold document properties. -/
structure Props where
  summary : List Item
  doc : List Item
  deriving DecidableEq, Repr

/-- `unix2mstime`, HPSF.cpp 176-184. -/
def unix2mstime (t : Nat) : Nat := (t * 1000000 + 11644473600000000) % 2 ^ 64 * 10 % 2 ^ 64

/-- `CSummaryInfo()` and `CDocSummaryInfo()`, summinfo.cpp 62-80, docsumminfo.cpp 60-68. -/
def Props.init (time : Nat) (package : Bytes) : Option Props :=
  (addItem [] 1 (.i16 1200)).bind fun s =>
  (addItem s 12 (.i64 (unix2mstime time))).bind fun s =>
  (addItem s 13 (.i64 (unix2mstime time))).bind fun s =>
  (addItem s 19 (.i32 0)).bind fun s =>
  (addItem s 18 (.str package)).bind fun s =>
  (addItem [] 1 (.i16 1200)).map fun d => ⟨s, d⟩

/-- `workbook::property`, workbook.cpp 240-253, with `CSummaryInfo::property` (summinfo.cpp 88-96) and
    `CDocSummaryInfo::property` (docsumminfo.cpp 77-85).  Reading past a table is `none`. -/
def Props.set (p : Props) (prop : Nat) (content : Bytes) : Option (Props × Bool) :=
  if prop ≥ propLast then some (p, false)
  else
    property2summary[prop]?.bind fun a =>
      if a > 0 then (addItem p.summary (a % 65536).toNat (.str content)).map fun l => ({ p with summary := l }, true)
      else property2docSummary[prop]?.bind fun b =>
        if b > 0 then (addItem p.doc (b % 65536).toNat (.str content)).map fun l => ({ p with doc := l }, true)
        else some (p, false)

/-- A sequence of calls. -/
def Props.run (p : Props) : List (Nat × Bytes) → Option Props
  | [] => some p
  | (k, c) :: r => (p.set k c).bind fun x => Props.run x.1 r

end Xls.Hpsf
