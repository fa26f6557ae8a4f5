import Verif.Base.Bytes
/-
Reader-side rules for strings in BIFF8 records, and the abstract meaning of append operations.
Written from the file format, without reference to the writer.
-/
namespace Xls.Spec

/-- `n` characters stored one byte each (high byte 0) or two bytes each, little-endian. -/
def readChars (wide : Bool) : Nat → Bytes → Option (List UInt16 × Bytes)
  | 0, bs => some ([], bs)
  | n + 1, bs =>
    match wide, bs with
    | false, b :: r => (readChars false n r).map fun (cs, r') => (UInt16.ofNat b.toNat :: cs, r')
    | true, b :: b' :: r =>
      (readChars true n r).map fun (cs, r') => (UInt16.ofNat (b.toNat + 256 * b'.toNat) :: cs, r')
    | _, _ => none

/-- Option-flags byte, then the characters: bit 0 tells compressed (0) from 16-bit (1). -/
def readFlagged (n : Nat) (bs : Bytes) : Option (List UInt16 × Bytes) :=
  match bs with
  | 0 :: r => readChars false n r
  | 1 :: r => readChars true n r
  | _ => none

/-- Unicode string with a 16-bit character count. -/
def readStr2 (bs : Bytes) : Option (List UInt16 × Bytes) :=
  (takeLE 2 bs).bind fun (n, r) => readFlagged n r

/-- Unicode string with an 8-bit character count. -/
def readStr1 (bs : Bytes) : Option (List UInt16 × Bytes) :=
  (takeLE 1 bs).bind fun (n, r) => readFlagged n r

end Xls.Spec
