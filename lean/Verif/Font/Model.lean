import Verif.Biff.Record
import Verif.Xf.Model
/-
`font_t` (font.h/.cpp): the attributes of a font, their setters and getters, and the FONT record.

The name is given by its 16-bit units: `AddUnicodeString(…, const std::string&, …)` (unit.cpp 414-505) writes the same
bytes as the 16-bit variant for ASCII names, and converts the others before calling it.  An enumerator beyond its
enumeration is read past the end of a table (`none`).  `attributes` is 16 bits wide.
-/
namespace Xls.Font
open Xls.Biff Xls.Unit

/-- `font_t` without the usage counter and the index, font.h 270-283. -/
structure Font where
  name : List UInt16
  height : Nat
  bold : Nat
  script : Nat
  attrs : Nat
  color : Nat
  underline : Nat
  family : Nat
  charset : Nat
deriving Repr, DecidableEq

/-- BOLD_OPTION_TABLE, font.cpp 42-47 with font.h 46-49. -/
def boldTable : List Nat := [700, 550, 400, 800]
/-- SCRIPT_OPTION_TABLE, font.cpp 49-53 with font.h 61-63. -/
def scriptTable : List Nat := [0, 1, 2]
/-- UNDERLINE_OPTION_TABLE, font.cpp 55-61 with font.h 73-77. -/
def underlineTable : List Nat := [0, 1, 2, 0x21, 0x22]

/-- "Verdana". -/
def verdana : List UInt16 := [0x56, 0x65, 0x72, 0x64, 0x61, 0x6e, 0x61]

/-- The constructor for user fonts, font.cpp 135-150, with the defaults of font.h 92-101. -/
def fresh : Font := ⟨verdana, 0xc8, 400, 0, 0, 0x7fff, 0, 0, 1⟩

/-- The pattern of `SetItalic` and friends: `attributes |= m` or `attributes &= ~m`. -/
def setAttr (f : Font) (m : Nat) (b : Bool) : Font :=
  { f with attrs := if b then f.attrs ||| m else f.attrs &&& (0xFFFF ^^^ m) }

/-- FONT_ATTR_…, font.h 119-126. -/
def aItalic : Nat := 0x02
def aStrike : Nat := 0x08
def aOutline : Nat := 0x10
def aShadow : Nat := 0x20

/-- The setters of `font_t`; `bold`, `underline`, `script` and `color` take an enumerator. -/
inductive FOp
  | name (s : List UInt16) | height (h : Nat)
  | bold (n : Nat) | underline (n : Nat) | script (n : Nat) | color (n : Nat) | colorIdx (c : Nat)
  | italic (b : Bool) | strike (b : Bool) | outline (b : Bool) | shadow (b : Bool)
  | family (v : Nat) | charset (v : Nat)
deriving Repr, DecidableEq

/-- SetItalic … SetShadow 235-279, SetName 294, SetHeight 301, SetBoldStyle 313, SetUnderlineStyle 333, SetScriptStyle 345,
    SetColor 357 and 363, SetFamily 390, SetCharset 401 (font.cpp). -/
def FOp.run (f : Font) : FOp → Option Font
  | .name s => some { f with name := s }
  | .height h => some { f with height := h }
  | .bold n => (boldTable[n]?).map fun v => { f with bold := v }
  | .underline n => (underlineTable[n]?).map fun v => { f with underline := v }
  | .script n => (scriptTable[n]?).map fun v => { f with script := v }
  | .color n => (Xf.colorTable[n]?).map fun v => { f with color := v }
  | .colorIdx c => some { f with color := c }
  | .italic b => some (setAttr f aItalic b)
  | .strike b => some (setAttr f aStrike b)
  | .outline b => some (setAttr f aOutline b)
  | .shadow b => some (setAttr f aShadow b)
  | .family v => some { f with family := v }
  | .charset v => some { f with charset := v }

def runAll (f : Font) : List FOp → Option Font
  | [] => some f
  | o :: r => (o.run f).bind fun f => runAll f r

/-- GetItalic, GetStrikeout, GetOutline, GetShadow, font.cpp 413-416. -/
def getAttr (f : Font) (m : Nat) : Bool := f.attrs &&& m != 0

/-- The appends of the `CFont` constructor, font.cpp 423-440. -/
def recordOps (f : Font) : List Unit.Op :=
  [.u16 f.height, .u16 f.attrs, .u16 f.color, .u16 f.bold, .u16 f.script, .u8 (byteK 0 f.underline), .u8 (byteK 0 f.family),
    .u8 (byteK 0 f.charset), .u8 0, .str f.name .len1]

/-- The payload of the FONT record (0x31). -/
def payload (f : Font) : Bytes := (recordOps f).flatMap Unit.Op.bytes

/-- The five default fonts, globalrec.cpp 84-123, made by the constructor font.cpp 172-209. -/
def defaults : List Font :=
  [⟨verdana, 200, 400, 0, 0, 0, 0, 0, 1⟩, ⟨verdana, 200, 700, 0, 1, 0, 0, 0, 1⟩, ⟨verdana, 200, 400, 0, 2, 0, 0, 0, 1⟩,
   ⟨verdana, 200, 700, 0, 3, 0, 0, 0, 1⟩, ⟨verdana, 200, 400, 0, 0, 0, 0, 0, 1⟩]

end Xls.Font
