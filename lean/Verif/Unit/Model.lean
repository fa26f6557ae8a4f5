import Verif.Base.Bytes
/-
The growable byte buffer behind every record: `CUnitStore` (datast.h/.cpp) driven by `CUnit`
(unit.h/.cpp).

Simplifications: `malloc`/`realloc` always succeed.  Memory that was never written is `none`, an
access outside the allocation is an undefined-behaviour outcome (`none` of the whole operation).
`XL_ASSERT` is a no-op (release build).
-/
namespace Xls.Unit

/-- `FIXEDWIDTH_STORAGEUNIT_SIZE`, datast.h (18 bytes of inline storage). -/
def fixedWidth : Nat := 18

/-- One cell of memory: `none` is uninitialised. -/
abbrev Mem := List (Option UInt8)

/-- `CUnitStore`, datast.h 79-101: the flag `m_varying_width`, the storage itself (its length is
    `FIXEDWIDTH_STORAGEUNIT_SIZE` or `s.vary.m_nSize`), and the 29-bit `m_nDataSize`. -/
structure Store where
  varying : Bool
  mem : Mem
  dataSize : Nat

/-- `CUnitStore::GetSize`, datast.h 141-149. -/
def Store.getSize (s : Store) : Nat := if s.varying then s.mem.length else fixedWidth

/-- `CUnitStore::SetDataSize`, datast.h 134-139: `m_nDataSize` is a 29-bit field. -/
def Store.setDataSize (s : Store) (n : Nat) : Store := { s with dataSize := n % 2 ^ 29 }

/-- `CUnitStore::Prepare`, datast.cpp 607-638: inline storage is zeroed, heap storage is not. -/
def prepare (min : Nat) : Store :=
  if min ≤ fixedWidth then { varying := false, mem := List.replicate fixedWidth (some 0), dataSize := 0 }
  else { varying := true, mem := List.replicate min none, dataSize := 0 }

/-- `realloc`/`malloc`+`memcpy` of the first `keep` bytes into a block of `n` bytes. -/
def regrow (m : Mem) (keep n : Nat) : Mem :=
  (m.take (min keep n)) ++ List.replicate (n - min keep n) none

/-- `CUnitStore::Resize`, datast.cpp 654-693.  Copying `m_nDataSize` bytes into a smaller block is
    undefined behaviour. -/
def Store.resize (s : Store) (newlen : Nat) : Option Store :=
  if s.varying = false then
    if newlen > fixedWidth then
      if s.dataSize ≤ newlen then
        some { s with varying := true, mem := regrow s.mem s.dataSize newlen }
      else none
    else some s
  else if newlen ≠ s.mem.length then
    some { s with mem := regrow s.mem s.mem.length newlen }
  else some s

/-- `data[i] = v`; outside the allocation it is undefined behaviour. -/
def poke (m : Mem) (i : Nat) (v : UInt8) : Option Mem :=
  if i < m.length then some (m.set i (some v)) else none

/-- `for (...) data[i++] = *p++`. -/
def pokeSeq (m : Mem) (i : Nat) : Bytes → Option Mem
  | [] => some m
  | b :: r => (poke m i b).bind fun m' => pokeSeq m' (i + 1) r

/-- A `CUnit`: `none` while `m_Index == INVALID_STORE_INDEX` (unit.cpp 53-60), afterwards its store. -/
abbrev CUnit := Option Store

/-- Outcome of an operation: `none` is undefined behaviour, otherwise the new unit and the error
    code (0 is `NO_ERRORS`). -/
abbrev Res := Option (CUnit × Int)

/-- `CUnit::Inflate`, unit.cpp 626-654. -/
def inflate (u : CUnit) (newsize : Nat) : Option CUnit :=
  match u with
  | none => some (some (prepare newsize))
  | some s => (s.resize newsize).map some

/-- `CUnit::AddValue8`, unit.cpp 393-412.  On a unit without storage `GetSize()` indexes the store
    vector with an invalid index: undefined behaviour. -/
def addValue8 (u : CUnit) (v : UInt8) : Option CUnit :=
  u.bind fun s0 =>
    (if s0.dataSize ≥ s0.getSize then s0.resize (s0.dataSize + 1) else some s0).bind fun s =>
      (poke s.mem s.dataSize v).map fun m => some ({ s with mem := m }.setDataSize (s.dataSize + 1))

/-- `AddValue16`, unit.cpp 152-160. -/
def addValue16 (u : CUnit) (v : Nat) : Option CUnit :=
  (addValue8 u (byteK 0 v)).bind fun u => addValue8 u (byteK 1 v)

/-- `AddValue32`, unit.cpp 162-172. -/
def addValue32 (u : CUnit) (v : Nat) : Option CUnit :=
  (addValue8 u (byteK 0 v)).bind fun u => (addValue8 u (byteK 1 v)).bind fun u =>
  (addValue8 u (byteK 2 v)).bind fun u => addValue8 u (byteK 3 v)

/-- `AddValue64`, unit.cpp 174-189 (`AddValue64FP`, 213-218, passes the IEEE bit pattern here). -/
def addValue64 (u : CUnit) (v : Nat) : Option CUnit :=
  (addValue8 u (byteK 0 v)).bind fun u => (addValue8 u (byteK 1 v)).bind fun u =>
  (addValue8 u (byteK 2 v)).bind fun u => (addValue8 u (byteK 3 v)).bind fun u =>
  (addValue8 u (byteK 4 v)).bind fun u => (addValue8 u (byteK 5 v)).bind fun u =>
  (addValue8 u (byteK 6 v)).bind fun u => addValue8 u (byteK 7 v)

/-- The common tail of `AddDataArray`/`AddFixedDataArray`/`AddUnicodeString`: make room for `room`
    more bytes, store `bs` one byte at a time, set the data size. -/
def addRoomed (s0 : Store) (room : Nat) (bs : Bytes) : Option CUnit :=
  (if s0.getSize - s0.dataSize < room then s0.resize (room + s0.dataSize) else some s0).bind fun s =>
    (pokeSeq s.mem s.dataSize bs).map fun m =>
      some ({ s with mem := m }.setDataSize (s.dataSize + bs.length))

/-- `AddDataArray`, unit.cpp 285-326 (with a non-NULL source). -/
def addDataArray (u : CUnit) (bs : Bytes) : Option CUnit :=
  match u with
  | none => addRoomed (prepare bs.length) bs.length bs
  | some s => addRoomed s bs.length bs

/-- `AddFixedDataArray`, unit.cpp 328-362. -/
def addFixedDataArray (u : CUnit) (v : UInt8) (n : Nat) : Option CUnit :=
  match u with
  | none => addRoomed (prepare n) n (List.replicate n v)
  | some s => addRoomed s n (List.replicate n v)

/-- The bytes a reader of the unit sees: `GetBuffer()[0 .. GetDataSize())`; `none` if one of them
    was never written. -/
def Store.contents (s : Store) : Option Bytes :=
  if s.dataSize ≤ s.mem.length then (s.mem.take s.dataSize).mapM id else none

def contents (u : CUnit) : Option Bytes := u.bind Store.contents

/-- `Append`, unit.cpp 690-702, of another unit with contents `bs`. -/
def append (u : CUnit) (bs : Bytes) : Option CUnit :=
  u.bind fun s =>
    (if s.getSize - s.dataSize < bs.length then s.resize (s.dataSize + bs.length) else some s).bind
      fun s => addDataArray (some s) bs

/-- `SetValueAt8`, unit.cpp 130-150; error −3 is `ERR_INVALID_INDEX` (unit.h 45). -/
def setValueAt8 (u : CUnit) (v : UInt8) (index : Nat) : Res :=
  u.bind fun s =>
    if index < s.dataSize then (poke s.mem index v).map fun m => (some { s with mem := m }, 0)
    else some (some s, -3)

/-- 32-bit wrap-around of `index + k` (`index` is `unsigned32_t`). -/
def idx32 (i k : Nat) : Nat := (i + k) % 2 ^ 32

/-- `SetValueAt16`, unit.cpp 220-228; error −100 is `GENERAL_ERROR`. -/
def setValueAt16 (u : CUnit) (v : Nat) (index : Nat) : Res :=
  (setValueAt8 u (byteK 0 v) index).bind fun (u, e0) =>
  (setValueAt8 u (byteK 1 v) (idx32 index 1)).bind fun (u, e1) =>
  some (u, if e0 ≠ 0 ∨ e1 ≠ 0 then -100 else 0)

/-- `SetValueAt32`, unit.cpp 230-240. -/
def setValueAt32 (u : CUnit) (v : Nat) (index : Nat) : Res :=
  (setValueAt8 u (byteK 0 v) index).bind fun (u, e0) =>
  (setValueAt8 u (byteK 1 v) (idx32 index 1)).bind fun (u, e1) =>
  (setValueAt8 u (byteK 2 v) (idx32 index 2)).bind fun (u, e2) =>
  (setValueAt8 u (byteK 3 v) (idx32 index 3)).bind fun (u, e3) =>
  some (u, if e0 ≠ 0 ∨ e1 ≠ 0 ∨ e2 ≠ 0 ∨ e3 ≠ 0 then -100 else 0)

/-- `operator[]`, unit.cpp 656-667: no bounds check beyond the assertion. -/
def at? (u : CUnit) (i : Nat) : Option UInt8 :=
  u.bind fun s => (s.mem[i]?).bind id

/-- `GetValue16From`, unit.cpp 242-250. -/
def getValue16From (u : CUnit) (i : Nat) : Option Nat :=
  (at? u i).bind fun a => (at? u (idx32 i 1)).map fun b => (a.toNat + b.toNat * 256) % 65536

/-- `GetValue32From`, unit.cpp 252-261. -/
def getValue32From (u : CUnit) (i : Nat) : Option Nat :=
  (at? u i).bind fun a => (at? u (idx32 i 1)).bind fun b =>
  (at? u (idx32 i 2)).bind fun c => (at? u (idx32 i 3)).map fun d =>
    (a.toNat + b.toNat * 256 + c.toNat * 65536 + d.toNat * 16777216) % 2 ^ 32

/-- `SetArrayAt`, unit.cpp 367-391: grows the allocation if needed but never the data size. -/
def setArrayAt (u : CUnit) (bs : Bytes) (index : Nat) : Option CUnit :=
  u.bind fun s0 =>
    (if s0.getSize < bs.length + index then s0.resize (bs.length + index) else some s0).bind fun s =>
      (pokeSeq s.mem index bs).map fun m => some { s with mem := m }

/-- `CUnitStore` copy constructor, datast.cpp 580-605, run when the store vector reallocates: a heap
    block keeps its size but only the first `m_nDataSize` bytes are copied. -/
def Store.relocate (s : Store) : Store :=
  if s.varying then { s with mem := regrow s.mem s.dataSize s.mem.length } else s

/-! ### Strings -/

/-- `XlsUnicodeStringFormat_t`, unit.h 117-122. -/
inductive Fmt | len2 | len1 | nolen
  deriving DecidableEq, Repr

/-- `CGlobalRecords::IsASCII(u16string)`, globalrec.cpp 904-918: or all units together. -/
def isASCII (s : List UInt16) : Bool := (s.foldl (· ||| ·) 0) ≤ 0x7F

/-- `UnicodeStringLength`, unit.cpp 587-624. -/
def unicodeStringLength (s : List UInt16) : Fmt → Nat
  | .len2 => s.length + 2 + 1 + (if isASCII s then 0 else s.length)
  | .len1 => s.length + 1 + 1 + (if isASCII s then 0 else s.length)
  | .nolen => s.length + 1 + (if isASCII s then 0 else s.length)

/-- Length prefix and flag byte, unit.cpp 535-560. -/
def strHeader (s : List UInt16) : Fmt → Bytes
  | .len2 => [byteK 0 s.length, byteK 1 s.length, if isASCII s then 0 else 1]
  | .len1 => [byteK 0 s.length, if isASCII s then 0 else 1]
  | .nolen => [if isASCII s then 0 else 1]

/-- The character loop, unit.cpp 562-581. -/
def strChars (s : List UInt16) : Bytes :=
  if isASCII s then s.map (fun c => c.toUInt8)
  else s.flatMap (fun c => [byteK 0 c.toNat, byteK 1 c.toNat])

/-- The bytes `AddUnicodeString(u16string)` stores. -/
def strBytes (s : List UInt16) (f : Fmt) : Bytes := strHeader s f ++ strChars s

/-- `AddUnicodeString(u16string)`, unit.cpp 511-585: the room reserved is the predicted length, the
    bytes stored are `strBytes`. -/
def addUnicodeString (u : CUnit) (s : List UInt16) (f : Fmt) : Option CUnit :=
  u.bind fun st => addRoomed st (unicodeStringLength s f) (strBytes s f)

end Xls.Unit
