import Verif.Base.Bytes
/-
What an XF record says, from the file format ([MS-XLS] 2.4.353, 2.5.20): bit fields counted from the least significant
bit of little-endian words.
-/
namespace Xls.Xf

/-- `w` bits of a word from bit `s` on. -/
def bits (word s w : Nat) : Nat := word / 2 ^ s % 2 ^ w

/-- One line of the border: its style and colour. -/
structure Line where
  style : Nat
  color : Nat
deriving Repr, DecidableEq

/-- The contents of an XF record. -/
structure Seen where
  font : Nat
  format : Nat
  locked : Bool
  hidden : Bool
  isStyle : Bool
  prefix123 : Bool
  parent : Nat
  halign : Nat
  wrap : Bool
  valign : Nat
  justLast : Bool
  orient : Nat
  indent : Nat
  shrink : Bool
  unused5 : Bool
  direction : Nat
  unused8 : Nat
  usesFormat : Bool
  usesFont : Bool
  usesAlign : Bool
  usesBorder : Bool
  usesPattern : Bool
  usesProtect : Bool
  left : Line
  right : Line
  top : Line
  bottom : Line
  diagonal : Line
  diagWhich : Nat
  hasExt : Bool
  pattern : Nat
  fg : Nat
  bg : Nat
  button : Nat
deriving Repr, DecidableEq

/-- Read the 20 bytes of payload. -/
def readXf (bs : Bytes) : Option Seen := do
  let (font, bs) ← takeLE 2 bs
  let (format, bs) ← takeLE 2 bs
  let (p, bs) ← takeLE 2 bs
  let (a, bs) ← takeLE 4 bs
  let (b1, bs) ← takeLE 4 bs
  let (b2, bs) ← takeLE 4 bs
  let (c, bs) ← takeLE 2 bs
  if bs ≠ [] then none
  else
    some {
      font := font, format := format
      locked := bits p 0 1 == 1, hidden := bits p 1 1 == 1, isStyle := bits p 2 1 == 1, prefix123 := bits p 3 1 == 1
      parent := bits p 4 12
      halign := bits a 0 3, wrap := bits a 3 1 == 1, valign := bits a 4 3, justLast := bits a 7 1 == 1
      orient := bits a 8 8
      indent := bits a 16 4, shrink := bits a 20 1 == 1, unused5 := bits a 21 1 == 1, direction := bits a 22 2
      unused8 := bits a 24 2
      usesFormat := bits a 26 1 == 1, usesFont := bits a 27 1 == 1, usesAlign := bits a 28 1 == 1
      usesBorder := bits a 29 1 == 1, usesPattern := bits a 30 1 == 1, usesProtect := bits a 31 1 == 1
      left := ⟨bits b1 0 4, bits b1 16 7⟩, right := ⟨bits b1 4 4, bits b1 23 7⟩
      top := ⟨bits b1 8 4, bits b2 0 7⟩, bottom := ⟨bits b1 12 4, bits b2 7 7⟩
      diagonal := ⟨bits b2 21 4, bits b2 14 7⟩, diagWhich := bits b1 30 2
      hasExt := bits b2 25 1 == 1, pattern := bits b2 26 6
      fg := bits c 0 7, bg := bits c 7 7, button := bits c 14 2 }

end Xls.Xf
