import Verif.Book.Model
/-
The record store in memory: `CDataStorage` and `CUnitStore` (datast.h/.cpp), the life of the `CUnit` objects made in it
(unit.cpp), and `workbook::DumpData` with the loop of `workbook::Dump` (workbook.cpp) at that level: records are objects
that are made, added, deleted, and patched through pointers.

`Book.Model` treats a record as a value; this model says when that is justified.

The record objects are numbered in the order they are made.  A record requests its storage slot in its constructor
(record.cpp 43-51), before any other object is made in the store, so object number `i` uses slot number `i`, and object
and slot are kept in one entry here.  What is written into the slot of a record while it is made is not repeated here
(C02, C03): the source of records gives the finished contents.

Undefined behaviour (`none`, `.ub`) is: deleting an object twice, using a deleted object, using an iterator beyond the end,
reading a buffer that has been freed, and using a pointer that was never set.

Simplifications: allocation never fails; `size_t` is `Nat`; `m_nDataSize` (29 bits, datast.h 88) holds every size;
XL_ASSERT does nothing.
-/
namespace Xls.Store
open Xls.Biff Xls.Book

/-- FIXEDWIDTH_STORAGEUNIT_SIZE, datast.h 50. -/
def fixedWidth : Nat := 18

/-- `CUnitStore`, datast.h 79-168: the buffer as far as it was ever written (`none`: indeterminate), `m_nDataSize`,
    `m_varying_width`. -/
structure Slot where
  buf : List (Option UInt8)
  size : Nat
  varying : Bool
deriving Repr, DecidableEq

/-- `Reset`, datast.cpp 640-652. -/
def Slot.reset : Slot := ⟨[], 0, false⟩

/-- A slot that holds `bs`, datast.cpp 607-722.  (A slot with a few bytes may also be a varying one, depending on how it
    grew; it is copied without loss in both cases.) -/
def Slot.holding (bs : List (Option UInt8)) : Slot := ⟨bs, bs.length, decide (fixedWidth < bs.length)⟩

/-- The copy constructor, datast.cpp 580-605: the union is copied as a whole; of a separate buffer only `m_nDataSize`
    bytes are copied to a new allocation of the same size. -/
def Slot.copy (s : Slot) : Slot :=
  if s.varying then { s with buf := s.buf.take s.size ++ List.replicate (s.buf.length - s.size) none } else s

/-- What `COleFileSystem` writes to the file for a slot: the first `m_nDataSize` bytes (oledoc.cpp 200-212, binfile.cpp 88-96). -/
def Slot.contents (s : Slot) : List (Option UInt8) := s.buf.take s.size

/-- A `CUnit` object and its slot: `m_Backpatching_Level`, whether `m_Index` is complemented (the record was added),
    whether the object still exists.  unit.h 57-84. -/
structure Entry where
  slot : Slot
  level : Nat
  added : Bool
  alive : Bool
deriving Repr, DecidableEq

/-- `CDataStorage`, datast.h 225-232: the entries, the capacity of the vector of slots, how often the vector was
    reallocated, `m_FlushStack` (as object numbers), `m_FlushLastEndLevel`, `m_FlushLastEndPos`, `m_DataSize`. -/
structure Mem where
  units : List Entry
  cap : Nat
  moves : Nat
  stack : List Nat
  endLevel : Nat
  endPos : Nat
  total : Nat
deriving Repr, DecidableEq

/-- The constructor, datast.cpp 82-90. -/
def Mem.init (cap : Nat) : Mem := ⟨[], cap, 0, [], 0, 0, 0⟩

/-- BACKPATCH_LEVEL_EVERYONE, datast.h 280. -/
def everyone : Nat := 0xFFFF

/-- `RequestIndex`, datast.cpp 167-177: a full vector is reallocated with the capacity `grow cap`, and its elements are
    copied and destroyed. -/
def Mem.request (grow : Nat → Nat) (m : Mem) : Mem :=
  if m.units.length < m.cap then m
  else { m with units := m.units.map (fun e => { e with slot := e.slot.copy }), cap := grow m.cap, moves := m.moves + 1 }

/-- `new` of a record with the contents `bs`: unit.cpp 53-60 (`Push`, datast.cpp 189-192), record.cpp 43-51. -/
def Mem.new (grow : Nat → Nat) (m : Mem) (level : Nat) (bs : List (Option UInt8)) : Mem :=
  let m1 := m.request grow
  { m1 with units := m1.units ++ [⟨.holding bs, level, false, true⟩], stack := m1.stack ++ [m.units.length] }

/-- The object number `i`, if it still exists. -/
def Mem.get (m : Mem) (i : Nat) : Option Entry := m.units[i]?.bind fun e => if e.alive then some e else none

/-- `delete` of a record: unit.cpp 106-126; the slot of a record that was not added is reset. -/
def Mem.delete (m : Mem) (i : Nat) : Option Mem :=
  (m.get i).map fun e =>
    { m with units := m.units.set i { e with alive := false, slot := if e.added then e.slot else .reset } }

/-- Deleting several. -/
def Mem.deletes (m : Mem) : List Nat → Option Mem
  | [] => some m
  | i :: is => (m.delete i).bind fun m1 => m1.deletes is

/-- `operator+=`, datast.cpp 116-150; indexing the vector with the complemented number of a record that was added before is
    beyond its end. -/
def Mem.add (m : Mem) (i : Nat) : Option Mem :=
  (m.get i).bind fun e =>
    if e.added then none
    else some { m with total := m.total + e.slot.size, units := m.units.set i { e with added := true } }

/-- `start` in `FlushEm`, datast.cpp 224-235. -/
def Mem.flushStart (m : Mem) (level : Nat) : Option Nat :=
  if m.endLevel = level ∧ level ≠ everyone ∧ m.endPos ≠ m.stack.length then
    (if m.endPos < m.stack.length then some (m.endPos + 1) else none)
  else some 0

/-- Whether the unit is to be deleted, datast.cpp 241; `m_FlushStack` holds existing units only. -/
def Mem.low (m : Mem) (level i : Nat) : Bool :=
  match m.get i with
  | some e => decide (e.level ≤ level)
  | none => false

/-- `FlushEm`, datast.cpp 215-279: from `start` on, units up to the level are deleted and the others moved down. -/
def Mem.flushEm (m : Mem) (level : Nat) : Option Mem :=
  (m.flushStart level).bind fun start =>
    if ((m.stack.drop start).any fun i => (m.get i).isNone) then none
    else
      let gone := (m.stack.drop start).filter (m.low level)
      let left := (m.stack.drop start).filter fun i => !m.low level i
      (m.deletes gone).map fun m1 =>
        let stack := m.stack.take start ++ left
        { m1 with stack := stack, endLevel := level, endPos := stack.length - 1 }

/-- `FlushLowerLevelUnits`, datast.cpp 281-286. -/
def Mem.flushLower (m : Mem) (i : Nat) : Option Mem :=
  (m.get i).bind fun e => if e.level > 0 then m.flushEm (e.level - 1) else some m

/-- `Clip`, datast.cpp 199-213; the slot of the record and its real payload size. -/
def Mem.clip (m : Mem) (i : Nat) : Option (Nat × Mem) :=
  (m.get i).map fun e =>
    (e.slot.size - 4,
     { m with units := m.units.set i { e with slot := { e.slot with
         buf := e.slot.buf.take 2 ++ (leN 2 maxRec).map some ++ e.slot.buf.drop 4, size := maxRec + 4 } } })

/-- `MakeCContinue(unit, pdata, size)` with `pdata` at position `pos` of the payload of that record (workbook.cpp 425,
    434, 450; continue.cpp 45-54): the pointer is computed first, then the new record requests its slot, then the bytes are
    read through the pointer.  If the vector was reallocated in between, every buffer was freed. -/
def Mem.newContinue (grow : Nat → Nat) (m : Mem) (i pos size : Nat) : Option Mem :=
  (m.get i).bind fun e =>
    if (m.request grow).moves ≠ m.moves then none
    else if 4 + pos + size ≤ e.slot.buf.length then
      let bs := (e.slot.buf.drop (4 + pos)).take size
      some (m.new grow e.level ((leN 2 0x3C ++ leN 2 size).map some ++ bs))
    else none

/-- `SetStreamPosition` of a BOUNDSHEET record, recdef.cpp 411-414 (BSHEET_OFFSET_POSITION is 4), unit.cpp 230-240; a
    position beyond the contents is not written (nothing is claimed for that here: `none`). -/
def Mem.setPosition (m : Mem) (i v : Nat) : Option Mem :=
  (m.get i).bind fun e =>
    if 8 ≤ e.slot.size then
      some { m with units := m.units.set i { e with slot := { e.slot with
        buf := e.slot.buf.take 4 ++ (leN 4 v).map some ++ e.slot.buf.drop 8 } } }
    else none

/-- The destructor, datast.cpp 92-114: all units are flushed, then the slots are reset. -/
def Mem.close (m : Mem) : Option Mem := m.flushEm everyone

/-- The stream that is written to the file: all slots in order. -/
def Mem.contents (m : Mem) : List (Option UInt8) := m.units.flatMap fun e => e.slot.contents

/-- The members of `workbook` used by `DumpData`, workbook.h 117-129, with `m_pCurrentData` as an object number; `sheetData`
    of each `boundsheet_t` (recdef.h 331), the last one set first; the store. -/
structure St (γ σ : Type) where
  phase : Phase
  prev : Phase
  g : γ
  sheets : List σ
  cur : Nat
  offset : Nat
  writeLen : Nat
  data : Option Nat
  contIdx : Nat
  realSize : Nat
  sheetData : List (Nat × Nat)
  mem : Mem

/-- The outcome of one pass. -/
inductive Pass (γ σ : Type) where
  | ub
  | again (s : St γ σ)
  | ret (u : Option Nat) (s : St γ σ)

variable {γ σ : Type}

/-- A source has made the record `u` in the store (and `SetSheetData` was called for a BOUNDSHEET record, globalrec.cpp
    510): hand it out, or go to the CONTINUE state, workbook.cpp 467-482. -/
def handle (grow : Nat → Nat) (u : U) (s : St γ σ) : Pass γ σ :=
  let id := s.mem.units.length
  let s1 := { s with mem := s.mem.new grow u.level (u.data.map some), data := some id,
                     sheetData := match u.tag with | some i => (i, id) :: s.sheetData | none => s.sheetData }
  if u.oversize then .again { s1 with prev := s.phase, phase := .cont, contIdx := 0 }
  else .ret (some id) s1

/-- The object a `boundsheet_t` points to. -/
def bound (l : List (Nat × Nat)) (i : Nat) : Option Nat := (l.find? fun p => p.1 == i).map (·.2)

/-- One pass of the loop in `workbook::DumpData`, workbook.cpp 342-483. -/
def pass (grow : Nat → Nat) (gnext : γ → Src γ) (snext : σ → Nat → Nat → Src σ) (s : St γ σ) : Pass γ σ :=
  match s.phase with
  | .init => .again { s with writeLen := 0, cur := 0, offset := 0, prev := .init, phase := .globals }
  | .globals =>
    match gnext s.g with
    | .ub => .ub
    | .again g => .again { s with g := g }
    | .fin g => .again { s with g := g, data := none, offset := s.writeLen, writeLen := 0, prev := .globals, phase := .sheets }
    | .unit u g => handle grow u { s with g := g, writeLen := s.writeLen + u.data.length }
  | .sheets =>
    match s.sheets[s.cur]? with
    | none => .ub
    | some sh =>
      match snext sh s.offset s.writeLen with
      | .ub => .ub
      | .again sh' => .again { s with sheets := s.sheets.set s.cur sh' }
      | .fin sh' =>
        match (bound s.sheetData s.cur).bind fun id => s.mem.setPosition id (s.offset % 2 ^ 32) with
        | none => .ub
        | some mem =>
          let s1 := { s with sheets := s.sheets.set s.cur sh', data := none, mem := mem }
          if s.cur + 1 < s.sheets.length % 65536 then
            .again { s1 with offset := s.offset + s.writeLen, writeLen := 0, cur := s.cur + 1 }
          else .again { s1 with prev := .sheets, phase := .finish }
      | .unit u sh' => handle grow u { s with sheets := s.sheets.set s.cur sh', writeLen := s.writeLen + u.data.length }
  | .finish => .ret none { s with data := none, prev := .finish, phase := .init }
  | .cont =>
    match s.data with
    | none => .ub
    | some id =>
      if s.contIdx = 0 then
        match s.mem.clip id with
        | none => .ub
        | some (real, mem) => .ret (some id) { s with realSize := real, contIdx := 1, mem := mem }
      else if s.realSize / maxRec > s.contIdx then
        match s.mem.newContinue grow id (s.contIdx * maxRec) maxRec with
        | none => .ub
        | some mem =>
          .ret (some s.mem.units.length)
            { s with contIdx := s.contIdx + 1, mem := mem,
                     writeLen := if s.prev = .sheets then s.writeLen + 4 else s.writeLen }
      else
        let csize := s.realSize - s.contIdx * maxRec
        let s1 := { s with phase := s.prev, prev := .cont, data := none, contIdx := 0 }
        if csize ≠ 0 then
          match s.mem.newContinue grow id (s.contIdx * maxRec) csize with
          | none => .ub
          | some mem => .ret (some s.mem.units.length) { s1 with mem := mem }
        else .again s1

/-- How the dump ends. -/
inductive Outcome (γ σ : Type) where
  | done (s : St γ σ)
  | ub
  | fuelOut

/-- The loop of `workbook::Dump`, workbook.cpp 302-313: each record is added, and units of lower level are flushed. -/
def run (grow : Nat → Nat) (gnext : γ → Src γ) (snext : σ → Nat → Nat → Src σ) : Nat → St γ σ → Outcome γ σ
  | 0, _ => .fuelOut
  | fuel + 1, s =>
    match pass grow gnext snext s with
    | .ub => .ub
    | .again s' => run grow gnext snext fuel s'
    | .ret none s' => .done s'
    | .ret (some id) s' =>
      match (s'.mem.add id).bind fun m => m.flushLower id with
      | none => .ub
      | some m => run grow gnext snext fuel { s' with mem := m }

/-- The store and the workbook at the start of `Dump`; `cap` is the estimate of workbook.cpp 272-291. -/
def St.start (g : γ) (sheets : List σ) (cap : Nat) : St γ σ :=
  ⟨.init, .init, g, sheets, 0, 0, 0, none, 0, 0, [], .init cap⟩

end Xls.Store
