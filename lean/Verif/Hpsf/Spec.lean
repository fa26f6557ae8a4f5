import Verif.Base.Bytes
/-
A reader for OLE property sets, written from the format: header, one section, a table of
(identifier, offset) pairs, typed values.  Offsets count from the start of the section.
-/
namespace Xls.Spec.PropSet

/-- The property types that occur in summary streams. -/
inductive Value
  /-- VT_LPSTR: characters without the terminator -/
  | lpstr (s : Bytes)
  /-- VT_BOOL -/
  | bool (b : Bool)
  /-- VT_I2 -/
  | i2 (v : Nat)
  /-- VT_I4 -/
  | i4 (v : Nat)
  /-- VT_FILETIME -/
  | filetime (v : Nat)
  deriving DecidableEq, Repr

/-- A counted string: `n` bytes of which the last is NUL. -/
def readLpstr (bs : Bytes) : Option Value :=
  (takeLE 4 bs).bind fun (n, r) =>
    (takeN n r).bind fun (s, _) => if s.getLast? = some 0 then some (.lpstr s.dropLast) else none

/-- The typed value at the start of `bs`. -/
def readValue (bs : Bytes) : Option Value :=
  (takeLE 4 bs).bind fun (t, r) =>
    if t = 30 then readLpstr r
    else if t = 11 then
      (takeLE 2 r).bind fun (v, _) => if v = 0xFFFF then some (.bool true) else if v = 0 then some (.bool false) else none
    else if t = 2 then (takeLE 2 r).map fun (v, _) => .i2 v
    else if t = 3 then (takeLE 4 r).map fun (v, _) => .i4 v
    else if t = 64 then (takeLE 8 r).map fun (v, _) => .filetime v
    else none

/-- `n` table entries. -/
def readTable : Nat → Bytes → Option (List (Nat × Nat))
  | 0, _ => some []
  | n + 1, bs =>
    (takeLE 4 bs).bind fun (id, r) => (takeLE 4 r).bind fun (off, r) =>
      (readTable n r).map fun t => (id, off) :: t

/-- One property as found in a stream. -/
structure Found where
  id : Nat
  offset : Nat
  value : Value
  deriving DecidableEq, Repr

/-- The section: its own length, the number of properties, the table; every value starts on a multiple of
    four after the table and inside the section. -/
def readSection (bs : Bytes) : Option (List Found) :=
  (takeLE 4 bs).bind fun (len, r) => (takeLE 4 r).bind fun (n, r) =>
    if len ≤ bs.length then
      (readTable n r).bind fun t => t.mapM fun (id, off) =>
        if off % 4 = 0 ∧ 8 + 8 * n ≤ off ∧ off ≤ len then
          (readValue ((bs.take len).drop off)).map fun v => ⟨id, off, v⟩
        else none
    else none

/-- A property-set stream with one section: its format identifier and its properties. -/
def read (bs : Bytes) : Option (Bytes × List Found) :=
  (takeLE 2 bs).bind fun (order, r) => (takeLE 2 r).bind fun (version, r) =>
  (takeN 4 r).bind fun (_, r) => (takeN 16 r).bind fun (_, r) =>
  (takeLE 4 r).bind fun (sections, r) =>
    if order = 0xFFFE ∧ version = 0 ∧ sections = 1 then
      (takeN 16 r).bind fun (fmtid, r) => (takeLE 4 r).bind fun (off, _) =>
        if off ≤ bs.length then (readSection (bs.drop off)).map fun ps => (fmtid, ps) else none
    else none

/-- FMTID_SummaryInformation, {F29F85E0-4FF9-1068-AB91-08002B27B3D9}. -/
def fmtidSummary : Bytes :=
  [0xE0, 0x85, 0x9F, 0xF2, 0xF9, 0x4F, 0x68, 0x10, 0xAB, 0x91, 0x08, 0x00, 0x2B, 0x27, 0xB3, 0xD9]

/-- FMTID_DocSummaryInformation, {D5CDD502-2E9C-101B-9397-08002B2CF9AE}. -/
def fmtidDocSummary : Bytes :=
  [0x02, 0xD5, 0xCD, 0xD5, 0x9C, 0x2E, 0x1B, 0x10, 0x93, 0x97, 0x08, 0x00, 0x2B, 0x2C, 0xF9, 0xAE]

/-- Where the format keeps each kind of property: summary stream (`false`) or document summary stream
    (`true`) and the identifier.  The kinds are numbered as in the public header: author 1, category 2,
    comments 3, company 4, creating application 5, keywords 6, manager 7, revision 8, subject 9, title 10. -/
def place : Nat → Option (Bool × Nat)
  | 1 => some (false, 4)
  | 2 => some (true, 2)
  | 3 => some (false, 6)
  | 4 => some (true, 15)
  | 5 => some (false, 18)
  | 6 => some (false, 5)
  | 7 => some (true, 14)
  | 8 => some (false, 9)
  | 9 => some (false, 3)
  | 10 => some (false, 2)
  | _ => none

/-- The last content given for a kind. -/
def lastSet (kind : Nat) : List (Nat × Bytes) → Option Bytes
  | [] => none
  | (k, c) :: r => (lastSet kind r).or (if k = kind then some c else none)

/-- The value with identifier `id`. -/
def valueOf (id : Nat) (ps : List Found) : Option Value := (ps.find? (·.id == id)).map (·.value)

end Xls.Spec.PropSet
