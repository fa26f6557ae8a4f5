import Verif.Xf.Model
import Verif.Font.Model
import Verif.Num.Model
/-
The getters of formats, fonts and number cells: extformat.cpp, font.cpp, number.h, cbridge.cpp.
-/
namespace Xls.Ask
open Xls.Xf Xls.Font Xls.Num

/-! ### Formats -/

/-- `GetFormat`, extformat.cpp 717-727: the loop from FMT_GENERAL (0) to FMT_TEXT (35) over `format2index`, then
    FMT_GENERAL.  `n` is how many numbers are left. -/
def getFormatFrom (x : Xf) : Nat → Nat → Nat
  | 0, _ => 0
  | n + 1, k => if format2index k = some x.formatIndex then k else getFormatFrom x n (k + 1)

/-- `GetFormat`, extformat.cpp 717-727. -/
def getFormat (x : Xf) : Nat := getFormatFrom x 36 0

/-- The other getters of `xf_t`, extformat.cpp 529-532 (flags), 652-659 (font), 712-715 (format), 801-817 (borders),
    921-924, 939-942, 956-959, 974-977, 999-1002, 1024-1027, 1042-1045, 1058-1061, 1074-1077, 1090-1093. -/
structure FormatReport where
  fontIndex : Nat
  formatIndex : Nat
  format : Nat
  halign : Nat
  valign : Nat
  indent : Nat
  orient : Nat
  fg : Nat
  bg : Nat
  fill : Nat
  locked : Bool
  hidden : Bool
  wrap : Bool
  bstyle : Side → Nat
  bcolor : Side → Nat
  flags : Nat

/-- The getters one after the other. -/
def askFormat (x : Xf) : FormatReport where
  fontIndex := Xf.fontIndex x
  formatIndex := x.formatIndex
  format := getFormat x
  halign := x.halign
  valign := x.valign
  indent := x.indent
  orient := x.orient
  fg := x.fg
  bg := x.bg
  fill := x.fill
  locked := x.locked
  hidden := x.hidden
  wrap := x.wrap
  bstyle := x.bstyle.get
  bcolor := x.bcolor.get
  flags := x.flags

/-! ### Fonts -/

/-- What the getters of `font_t` answer. -/
structure FontReport where
  name : List UInt16
  height : Nat
  bold : Nat
  underline : Nat
  script : Nat
  color : Nat
  italic : Bool
  strike : Bool
  outline : Bool
  shadow : Bool
  family : Nat
  charset : Nat
deriving DecidableEq

/-- GetHeight 307, GetBoldStyle 327, GetUnderlineStyle 339, GetScriptStyle 351, GetColorIdx 369, GetFamily 396, GetCharset
    407, GetName and the switches 412-416 (font.cpp). -/
def askFont (f : Font) : FontReport where
  name := f.name
  height := f.height
  bold := f.bold
  underline := f.underline
  script := f.script
  color := f.color
  italic := getAttr f aItalic
  strike := getAttr f aStrike
  outline := getAttr f aOutline
  shadow := getAttr f aShadow
  family := f.family
  charset := f.charset

/-- `strlen`: the bytes before the first 0 (`c_str` appends one). -/
def cText (name : Bytes) : Bytes := name.takeWhile (· ≠ 0)

/-- Writing into a buffer from its start; writing past its end is undefined. -/
def copyTo (dst src : Bytes) : Option Bytes := if src.length ≤ dst.length then some (src ++ dst.drop src.length) else none

/-- `xlsFontGetName`, cbridge.cpp 436-444, on a buffer of `dst.length` bytes, with `size` for `dstsize`;
    `dst[dstsize - 1]` with `dstsize = 0` is outside the buffer. -/
def getName (name dst : Bytes) (size : Nat) : Option Bytes :=
  let len := if (cText name).length + 1 > size then size else (cText name).length + 1
  (copyTo dst (((cText name) ++ [0]).take len)).bind fun d =>
    if 0 < size ∧ size ≤ d.length then some (d.set (size - 1) 0) else none

/-! ### Numbers -/

/-- `(signed32_t)d` for a `double`: the fraction is discarded; undefined when the result is not a `signed32_t` (C++11
    4.9 [conv.fpint]), so also for infinities and NaNs (exponent 2047). -/
def truncDbl (b : Nat) : Option Int :=
  let e : Nat := b / 2 ^ 52 % 2048
  let sig : Nat := if e = 0 then b % 2 ^ 52 else 2 ^ 52 + b % 2 ^ 52
  let e : Nat := if e = 0 then 1 else e
  let q : Nat := if e ≤ 1075 then sig / 2 ^ (1075 - e) else sig * 2 ^ (e - 1075)
  let z : Int := if b / 2 ^ 63 % 2 = 1 then -(q : Int) else (q : Int)
  if b / 2 ^ 52 % 2048 = 2047 then none else if -2147483648 ≤ z ∧ z < 2147483648 then some z else none

/-- `GetDouble`, and `GetNumber(double)`, number.h 72-76 and 83. -/
def getDouble : Number → Nat
  | .dbl b => b
  | .int z => dblOfInt z

/-- `GetInt`, and `GetNumber(signed32_t)`, number.h 77-81 and 84. -/
def getInt : Number → Option Int
  | .dbl b => truncDbl b
  | .int z => some z

/-- `GetIsDouble`, number.h 82. -/
def isDouble : Number → Bool
  | .dbl _ => true
  | .int _ => false

end Xls.Ask
