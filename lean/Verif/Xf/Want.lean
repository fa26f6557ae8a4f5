import Verif.Xf.Model
import Verif.Xf.Spec
/-
What a history of format calls asks for, attribute by attribute: the last call about an attribute decides it, and
calls about other attributes do not matter.  Codes are those of [MS-XLS] 2.4.353 and 2.5.11.
-/
namespace Xls.Xf.Spec

/-- The value given by the last call that `pick` recognises. -/
def last {α : Type} (pick : Op → Option α) (d : α) (ops : List Op) : α := ops.foldl (fun a o => (pick o).getD a) d

/-- Text direction of ORI_NONE, ORI_TOPBOTTOMTXT, ORI_90NOCLOCKTXT, ORI_90CLOCKTXT. -/
def orientCode : Nat → Nat
  | 1 => 255
  | 2 => 90
  | 3 => 180
  | _ => 0

/-- Pattern numbers (fls) of FILL_NONE, FILL_SOLID, FILL_ATEN75, FILL_ATEN50, FILL_ATEN25, FILL_ATEN12, FILL_ATEN06 and the
    twelve hatches, in the order of the enumeration. -/
def fillCode (n : Nat) : Nat :=
  if n = 2 then 3 else if n = 3 then 2 else if n = 5 then 17 else if n = 6 then 18 else if n ≤ 4 then n else n - 2

/-- Palette index of a colour name (in the order of `color_name_t`); `c50_…` says which colour that is. -/
def colorCode (n : Nat) : Nat :=
  (#[0,
    8, 60, 59, 58, 56, 18, 62, 63, 16, 53, 19, 17, 21, 12, 54, 23, 10, 52, 50, 57, 49, 48, 20, 55,
    14, 51, 13, 11, 15, 40, 61, 22, 45, 47, 43, 42, 41, 44, 46, 9,
    24, 25, 26, 27, 28, 29, 30, 31, 32, 33, 34, 35, 36, 37, 38, 39, 64, 65] : Array Nat).getD n 0

/-- Built-in number formats: 0 to 22, then 37 to 49 ([MS-XLS] 2.4.126); a number beyond the enumeration means "General". -/
def formatCode (n : Nat) : Nat := if n < 23 then n else if n < 36 then n + 14 else 0

/-- Font record number as BIFF counts it (4 does not exist). -/
def fontCode (p : Nat) : Nat := if p < 4 then p else p + 1

/-- The arguments are of the types of the C++ functions: enumerators within their enumeration, 8- and 16-bit numbers,
    fonts and formats that exist in a workbook with less than 2^16 of them. -/
def Valid : Op → Prop
  | .font (some p) => p < 65535
  | .font none => True
  | .formatIndex i => i < 65536
  | .format _ => True
  | .userFormat (some k) => k < 65372
  | .userFormat none => True
  | .halign n => n < 7
  | .valign n => n < 4
  | .indent n => n < 19
  | .orient n => n < 4
  | .fg n => n < 59
  | .bg n => n < 59
  | .fgIdx c => c < 256
  | .bgIdx c => c < 256
  | .fill n => n < 19
  | .locked _ => True
  | .hidden _ => True
  | .wrap _ => True
  | .bstyle _ n => n < 8
  | .bcolor _ n => n < 59
  | .bcolorIdx _ c => c < 256

def pickFont : Op → Option Nat
  | .font (some p) => some (fontCode p)
  | .font none => some 0
  | _ => none

def pickFormat : Op → Option Nat
  | .formatIndex i => some i
  | .format n => some (formatCode n)
  | .userFormat (some k) => some (164 + k)
  | _ => none

def pickHAlign : Op → Option Nat | .halign n => some n | _ => none
def pickVAlign : Op → Option Nat | .valign n => some n | _ => none
def pickIndent : Op → Option Nat | .indent n => some n | _ => none
def pickOrient : Op → Option Nat | .orient n => some (orientCode n) | _ => none
def pickFill : Op → Option Nat | .fill n => some (fillCode n) | _ => none
def pickFg : Op → Option Nat | .fg n => some (colorCode n) | .fgIdx c => some c | _ => none
def pickBg : Op → Option Nat | .bg n => some (colorCode n) | .bgIdx c => some c | _ => none
def pickLocked : Op → Option Bool | .locked b => some b | _ => none
def pickHidden : Op → Option Bool | .hidden b => some b | _ => none
def pickWrap : Op → Option Bool | .wrap b => some b | _ => none

/-- A side of the border: the last style, and the last colour; a side given a style while it has no colour (0) takes
    the automatic one, 0x40. -/
def lineStep (s : Side) (l : Line) : Op → Line
  | .bstyle t n => if t = s then ⟨n, if l.color = 0 then 0x40 else l.color⟩ else l
  | .bcolor t n => if t = s then ⟨l.style, colorCode n⟩ else l
  | .bcolorIdx t c => if t = s then ⟨l.style, c⟩ else l
  | _ => l

/-- Colours are seven bits wide in the record. -/
def line (s : Side) (ops : List Op) : Line :=
  let l := ops.foldl (lineStep s) ⟨0, 0⟩
  ⟨l.style, l.color % 128⟩

/-- Did the call ask for something other than the default?  One question per group of attributes. -/
def setsFont : Op → Bool | .font (some _) => true | _ => false
def setsFormat : Op → Bool
  | .formatIndex i => i != 0
  | .format n => formatCode n != 0
  | .userFormat (some _) => true
  | _ => false
def setsAlign : Op → Bool
  | .halign n => n != 0
  | .valign n => n != 2
  | .indent n => n != 0
  | .orient n => n != 0
  | .wrap b => b
  | _ => false
def setsBorder : Op → Bool
  | .bstyle _ n => n != 0
  | .bcolor _ n => n != 0
  | .bcolorIdx _ c => c != 0
  | _ => false
def setsPattern : Op → Bool
  | .fg n => n != 57
  | .bg n => n != 58
  | .fgIdx _ => true
  | .bgIdx _ => true
  | .fill n => n != 0
  | _ => false
def setsProtect : Op → Bool
  | .locked b => !b
  | .hidden b => b
  | _ => false

/-- What the record of a new cell format must say after the calls `ops`. -/
def want (ops : List Op) : Seen :=
  let ind := last pickIndent 0 ops
  let diag := line .diagonals ops
  { font := last pickFont 0 ops
    format := last pickFormat 0 ops
    locked := last pickLocked true ops
    hidden := last pickHidden false ops
    isStyle := false, prefix123 := false, parent := 0
    halign := last pickHAlign 0 ops
    wrap := last pickWrap false ops
    valign := last pickVAlign 2 ops
    justLast := false
    orient := last pickOrient 0 ops
    indent := if ind < 16 then ind else 0
    shrink := ind == 16
    unused5 := false
    direction := if ind = 17 then 1 else if ind = 18 then 2 else 0
    unused8 := 0
    usesFormat := ops.any setsFormat
    usesFont := ops.any setsFont
    usesAlign := ops.any setsAlign
    usesBorder := ops.any setsBorder
    usesPattern := ops.any setsPattern
    usesProtect := ops.any setsProtect
    left := line .left ops, right := line .right ops, top := line .top ops, bottom := line .bottom ops
    diagonal := diag, diagWhich := if diag.style = 0 then 0 else 3
    hasExt := false
    pattern := last pickFill 0 ops
    fg := last pickFg 64 ops % 128
    bg := last pickBg 65 ops % 128
    button := 0 }

end Xls.Xf.Spec
