import Verif.Base.Bytes
/-
What a caller means: a text is a list of Unicode characters (`Char` is a Unicode scalar value), passed as UTF-8 bytes or as wide
characters; the file format keeps UTF-16.
-/
namespace Xls.Text.Spec

/-- The UTF-8 bytes of a text. -/
def utf8 (cs : List Char) : Bytes := cs.flatMap String.utf8EncodeChar

/-- The wide characters of a text. -/
def wide (cs : List Char) : List UInt32 := cs.map (·.val)

/-- UTF-16: one unit below 0x10000, otherwise a surrogate pair. -/
def utf16Char (c : Char) : List UInt16 :=
  let v := c.val.toNat
  if v < 0x10000 then [UInt16.ofNat v]
  else [UInt16.ofNat (0xD800 + (v - 0x10000) / 1024), UInt16.ofNat (0xDC00 + (v - 0x10000) % 1024)]

def utf16 (cs : List Char) : List UInt16 := cs.flatMap utf16Char

/-- Only ASCII characters. -/
def Ascii (cs : List Char) : Prop := ∀ c ∈ cs, c.val.toNat < 0x80

/-- Only characters of the basic plane. -/
def Basic (cs : List Char) : Prop := ∀ c ∈ cs, c.val.toNat < 0x10000

/-- What `iconv` promises for UTF-8 to UCS-2: texts of the basic plane are converted, others are refused. -/
structure IconvBytes (f : Bytes → Option (List UInt16)) : Prop where
  basic : ∀ cs, Basic cs → f (utf8 cs) = some (utf16 cs)
  other : ∀ cs, ¬ Basic cs → f (utf8 cs) = none

/-- The same for wide characters to UCS-2. -/
structure IconvWide (f : List UInt32 → Option (List UInt16)) : Prop where
  basic : ∀ cs, Basic cs → f (wide cs) = some (utf16 cs)
  other : ∀ cs, ¬ Basic cs → f (wide cs) = none

end Xls.Text.Spec
