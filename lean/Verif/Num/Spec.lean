import Verif.Base.Bytes
/-
How a reader of the file format decodes number, boolean, error and blank cells ([MS-XLS] 2.4.180 Number, 2.5.217
RkNumber, 2.4.24 BoolErr, 2.4.20 Blank) and what the bits of a double mean (IEEE 754 binary64).
-/
namespace Xls.Num

/-- IEEE 754 binary64: the value of the pattern `b` is `m * 2^e / 2^1075`; infinities and NaNs have none. -/
def dblParts (b : Nat) : Option (Int × Nat) :=
  let e : Nat := b / 2 ^ 52 % 2048
  let m : Nat := b % 2 ^ 52
  let sig : Int := if e = 0 then (m : Int) else 2 ^ 52 + (m : Int)
  if e = 2047 then none else some (if b / 2 ^ 63 % 2 = 1 then -sig else sig, if e = 0 then 1 else e)

/-- The pattern `b` denotes the integer `z`. -/
def Denotes (b : Nat) (z : Int) : Prop := ∃ m e, dblParts b = some (m, e) ∧ m * 2 ^ e = z * 2 ^ 1075

/-- What a number cell holds for a reader: an integer, a double, or one of those to be divided by 100. -/
inductive Value where
  | int (z : Int)
  | int100 (z : Int)
  | dbl (bits : Nat)
  | dbl100 (bits : Nat)
deriving Repr, DecidableEq

/-- The value is the integer `z`. -/
def Value.Is (z : Int) : Value → Prop
  | .int x => x = z
  | .int100 x => x = 100 * z
  | .dbl b => Denotes b z
  | .dbl100 b => Denotes b (100 * z)

/-- RkNumber: bit 0 says divide by 100, bit 1 says signed 30-bit integer, otherwise the upper 30 bits of a double. -/
def rkValue (v : Nat) : Value :=
  if v / 2 % 2 = 1 then
    let z : Int := if v / 4 < 2 ^ 29 then (v / 4 : Nat) else (v / 4 : Nat) - 2 ^ 30
    if v % 2 = 1 then .int100 z else .int z
  else if v % 2 = 1 then .dbl100 (v / 4 * 4 * 2 ^ 32) else .dbl (v / 4 * 4 * 2 ^ 32)

/-- What a cell record holds. -/
inductive Content where
  | number (v : Value)
  | bool (b : Bool)
  | error (code : Nat)
  | blank
deriving Repr, DecidableEq

/-- A cell as read: row, column, format index, content. -/
structure ReadCell where
  row : Nat
  col : Nat
  xf : Nat
  content : Content
deriving Repr, DecidableEq

/-- The content of a number, boolean, error or blank cell from what follows the first three fields. -/
def readContent (typ : Nat) (p : Bytes) : Option Content :=
  match typ with
  | 0x203 => (takeLE 8 p).bind fun (b, p) => if p = [] then some (.number (.dbl b)) else none
  | 0x27E => (takeLE 4 p).bind fun (v, p) => if p = [] then some (.number (rkValue v)) else none
  | 0x205 =>
    match p with
    | [v, 0] => if v = 0 then some (.bool false) else if v = 1 then some (.bool true) else none
    | [v, 1] => some (.error v.toNat)
    | _ => none
  | 0x201 => if p = [] then some .blank else none
  | _ => none

/-- Read a number, boolean, error or blank cell from a record's type and payload. -/
def readCell (typ : Nat) (p : Bytes) : Option ReadCell :=
  (takeLE 2 p).bind fun (row, p) => (takeLE 2 p).bind fun (col, p) => (takeLE 2 p).bind fun (xf, p) =>
    (readContent typ p).map fun c => ⟨row, col, xf, c⟩

end Xls.Num
