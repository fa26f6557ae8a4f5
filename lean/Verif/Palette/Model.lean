import Verif.Biff.Record
/-
`colors_t` and `CPalette` (colors.h/.cpp).
-/
namespace Xls.Palette
open Xls.Biff Xls.Unit

/-- `color_entry_t`, colors.h 141-147. -/
structure Entry where
  r : UInt8
  g : UInt8
  b : UInt8
  nuttin : UInt8
deriving Repr, DecidableEq

/-- `default_palette`, colors.cpp 41-57. -/
def defaultPalette : List Entry :=
  [⟨0x00, 0x00, 0x00, 0⟩, ⟨0xff, 0xff, 0xff, 0⟩, ⟨0xff, 0x00, 0x00, 0⟩, ⟨0x00, 0xff, 0x00, 0⟩,
   ⟨0x00, 0x00, 0xff, 0⟩, ⟨0xff, 0xff, 0x00, 0⟩, ⟨0xff, 0x00, 0xff, 0⟩, ⟨0x00, 0xff, 0xff, 0⟩,
   ⟨0x80, 0x00, 0x00, 0⟩, ⟨0x00, 0x80, 0x00, 0⟩, ⟨0x00, 0x00, 0x80, 0⟩, ⟨0x80, 0x80, 0x00, 0⟩,
   ⟨0x80, 0x00, 0x80, 0⟩, ⟨0x00, 0x80, 0x80, 0⟩, ⟨0xc0, 0xc0, 0xc0, 0⟩, ⟨0x80, 0x80, 0x80, 0⟩,
   ⟨0x99, 0x99, 0xff, 0⟩, ⟨0x99, 0x33, 0x66, 0⟩, ⟨0xff, 0xff, 0xcc, 0⟩, ⟨0xcc, 0xff, 0xff, 0⟩,
   ⟨0x66, 0x00, 0x66, 0⟩, ⟨0xff, 0x80, 0x80, 0⟩, ⟨0x00, 0x66, 0xcc, 0⟩, ⟨0xcc, 0xcc, 0xff, 0⟩,
   ⟨0x00, 0x00, 0x80, 0⟩, ⟨0xff, 0x00, 0xff, 0⟩, ⟨0xff, 0xff, 0x00, 0⟩, ⟨0x00, 0xff, 0xff, 0⟩,
   ⟨0x80, 0x00, 0x80, 0⟩, ⟨0x80, 0x00, 0x00, 0⟩, ⟨0x00, 0x80, 0x80, 0⟩, ⟨0x00, 0x00, 0xff, 0⟩,
   ⟨0x00, 0xcc, 0xff, 0⟩, ⟨0xcc, 0xff, 0xff, 0⟩, ⟨0xcc, 0xff, 0xcc, 0⟩, ⟨0xff, 0xff, 0x99, 0⟩,
   ⟨0x99, 0xcc, 0xff, 0⟩, ⟨0xff, 0x99, 0xcc, 0⟩, ⟨0xcc, 0x99, 0xff, 0⟩, ⟨0xe3, 0xe3, 0xe3, 0⟩,
   ⟨0x33, 0x66, 0xff, 0⟩, ⟨0x33, 0xcc, 0xcc, 0⟩, ⟨0x99, 0xcc, 0x00, 0⟩, ⟨0xff, 0xcc, 0x00, 0⟩,
   ⟨0xff, 0x99, 0x00, 0⟩, ⟨0xff, 0x66, 0x00, 0⟩, ⟨0x66, 0x66, 0x99, 0⟩, ⟨0x96, 0x96, 0x96, 0⟩,
   ⟨0x00, 0x33, 0x66, 0⟩, ⟨0x33, 0x99, 0x66, 0⟩, ⟨0x00, 0x33, 0x00, 0⟩, ⟨0x33, 0x33, 0x00, 0⟩,
   ⟨0x99, 0x33, 0x00, 0⟩, ⟨0x99, 0x33, 0x66, 0⟩, ⟨0x33, 0x33, 0x99, 0⟩, ⟨0x33, 0x33, 0x33, 0⟩]

/-- `colors`, colors.h 162-163: NULL until the first colour is set. -/
abbrev Colors := Option (List Entry)

/-- `setColor`, colors.cpp 69-88; the arguments are 8-bit. -/
def setColor (c : Colors) (r g b idx : UInt8) : Colors × Bool :=
  if idx < 0x8 || idx ≥ 56 + 8 then (c, false)
  else (some ((c.getD defaultPalette).set (idx.toNat - 8) ⟨r, g, b, 0⟩), true)

/-- A call of `workbook::setColor` (workbook.cpp 235-238). -/
structure Call where
  r : UInt8
  g : UInt8
  b : UInt8
  idx : UInt8
deriving Repr, DecidableEq

/-- All calls in order, with what they return. -/
def run (c : Colors) : List Call → Colors × List Bool
  | [] => (c, [])
  | k :: r => ((run (setColor c k.r k.g k.b k.idx).1 r).1, (setColor c k.r k.g k.b k.idx).2 :: (run (setColor c k.r k.g k.b k.idx).1 r).2)

/-- `GetData` (colors.cpp 90-93) and the appends of `CPalette` (105-114). -/
def recordOps (c : Colors) : List Unit.Op :=
  [.u16 56, .arr ((c.getD defaultPalette).flatMap fun e => [e.r, e.g, e.b, e.nuttin])]

def payload (c : Colors) : Bytes := (recordOps c).flatMap Unit.Op.bytes

end Xls.Palette
