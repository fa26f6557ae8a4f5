import Verif.Unit.Model
/-
Conversion of the texts a caller passes (byte strings, wide strings) to the 16-bit strings the library keeps.

`iconv` is a parameter: `some f` is a build with a working `iconv` in which `f` is what the conversion call returns (`none` for
the result `(size_t)-1`), `none` a build without it.  Whether a plain `char` is signed is a parameter as well.
-/
namespace Xls.Text

/-- `(unsigned16_t)*cBegin++` on a `char`: a signed one is sign-extended.  globalrec.cpp 859, 881 -/
def widen (signed : Bool) (b : UInt8) : UInt16 := if signed && 0x80 ≤ b then 0xFF00 ||| b.toUInt16 else b.toUInt16

/-- The text stored when a conversion fails.  globalrec.cpp 42 -/
def convFail : List UInt16 := [105, 99, 111, 110, 118, 32, 102, 97, 105, 108, 101, 100, 33]

/-- `CGlobalRecords::char2str16`, both variants: with `iconv` only texts with a byte above 0x7F are converted by it.
    globalrec.cpp 808-865 (with), 867-889 (without) -/
def char2str16 (signed : Bool) (conv : Option (Bytes → Option (List UInt16))) (s : Bytes) : List UInt16 :=
  match conv with
  | none => s.map (widen signed)
  | some f => if (s.foldl (· ||| ·) 0) &&& 0x80 ≠ 0 then (f s).getD convFail else s.map (widen signed)

/-- `CGlobalRecords::wide2str16`, both variants; `unichar_t` is `wchar_t` (32 bits).
    globalrec.cpp 751-783 (with), 787-804 (without); xlstypes.h 143 -/
def wide2str16 (conv : Option (List UInt32 → Option (List UInt16))) (s : List UInt32) : List UInt16 :=
  match conv with
  | none => s.map (·.toUInt16)
  | some f => (f s).getD convFail

/-- `CGlobalRecords::IsASCII(const std::string&)`: the OR of the (possibly sign-extended) characters.  globalrec.cpp 888-902 -/
def isAsciiBytes (signed : Bool) (s : Bytes) : Bool := (s.foldl (fun a b => a ||| widen signed b) (0 : UInt16)) ≤ 0x7F

/-- `CGlobalRecords::str16toascii`.  globalrec.cpp 724-745 -/
def str16toascii (s : List UInt16) : Bytes := s.map fun c => if 0x7F < c then 63 else c.toUInt8

/-- The room `AddUnicodeString(const std::string&)` asks for an ASCII text.  unit.cpp 432-453 -/
def asciiLength (s : Bytes) : Unit.Fmt → Nat
  | .len2 => 2 + 1 + s.length
  | .len1 => 1 + 1 + s.length
  | .nolen => 0 + 1 + s.length

/-- The length prefix and flag it writes.  unit.cpp 470-494 -/
def asciiHeader (s : Bytes) : Unit.Fmt → Bytes
  | .len2 => [byteK 0 s.length, byteK 1 s.length, 0]
  | .len1 => [byteK 0 s.length, 0]
  | .nolen => [0]

/-- `AddUnicodeString(CGlobalRecords&, const std::string&, …)`: ASCII texts are stored directly, others converted first.
    unit.cpp 414-508 -/
def addString (signed : Bool) (conv : Option (Bytes → Option (List UInt16))) (u : Unit.CUnit) (s : Bytes) (f : Unit.Fmt) :
    Option Unit.CUnit :=
  if isAsciiBytes signed s then u.bind fun st => Unit.addRoomed st (asciiLength s f) (asciiHeader s f ++ s)
  else Unit.addUnicodeString u (char2str16 signed conv s) f

end Xls.Text
