import Verif.Biff.Record
/-
`xf_t` (extformat.h/.cpp): the attributes of a cell format, their setters, and the XF record made from them.

An enumerator is given by its number; a number beyond the enumeration makes the lookup tables be read past their
end (the `XL_ASSERT`s are off in release builds), which is `none` here.  A pointer to a font is the position of the
font in "default fonts, then user fonts", a pointer to a number format its position among the user formats; NULL is
`none`.  `xfi` is left out: apart from the constructors, only `SetParent`/`AtuneXF` look at it, and `SetParent` with a
parent always throws (`xf_init_t::operator=`, extformat.cpp 269-273).
-/
namespace Xls.Xf
open Xls.Biff

/-- `border_side_t`, extformat.h 136-144. -/
inductive Side | bottom | top | left | right | diagonals
deriving Repr, DecidableEq

/-- `unsigned8_t border_…[_NUM_BORDERS]`, extformat.h 583-584. -/
structure Five where
  bottom : Nat
  top : Nat
  left : Nat
  right : Nat
  diagonals : Nat
deriving Repr, DecidableEq

def Five.get (f : Five) : Side → Nat
  | .bottom => f.bottom | .top => f.top | .left => f.left | .right => f.right | .diagonals => f.diagonals

def Five.set (f : Five) (s : Side) (v : Nat) : Five :=
  match s with
  | .bottom => { f with bottom := v }
  | .top => { f with top := v }
  | .left => { f with left := v }
  | .right => { f with right := v }
  | .diagonals => { f with diagonals := v }

/-- `xf_t` without the usage counter and the index, extformat.h 556-586.  `flags` and the codes are 8-bit. -/
structure Xf where
  formatIndex : Nat
  font : Option Nat
  format : Option Nat
  halign : Nat
  valign : Nat
  indent : Nat
  orient : Nat
  fill : Nat
  fg : Nat
  bg : Nat
  locked : Bool
  hidden : Bool
  wrap : Bool
  isCell : Bool
  isUser : Bool
  bstyle : Five
  bcolor : Five
  flags : Nat
deriving Repr, DecidableEq

/-- extformat.cpp 51-60 with extformat.h 146-152. -/
def halignTable : List Nat := [0, 1, 2, 3, 4, 5, 6]
/-- extformat.cpp 62-68 with extformat.h 166-169. -/
def valignTable : List Nat := [0, 1, 2, 3]
/-- extformat.cpp 70-91 with extformat.h 237-257. -/
def indentTable : List Nat := [0, 1, 2, 3, 4, 5, 6, 7, 8, 9, 10, 11, 12, 13, 14, 15, 0x10, 0x40, 0x80]
/-- extformat.cpp 93-99 with extformat.h 220-223. -/
def orientTable : List Nat := [0, 255, 90, 180]
/-- extformat.cpp 101-169 (the same as font.cpp 64-132) with colors.h 46-114. -/
def colorTable : List Nat :=
  [0,
   0x08, 0x3c, 0x3b, 0x3a, 0x38, 0x12, 0x3e, 0x3f,
   0x10, 0x35, 0x13, 0x11, 0x15, 0x0c, 0x36, 0x17,
   0x0a, 0x34, 0x32, 0x39, 0x31, 0x30, 0x14, 0x37,
   0x0e, 0x33, 0x0d, 0x0b, 0x0f, 0x28, 0x3d, 0x16,
   0x2d, 0x2f, 0x2b, 0x2a, 0x29, 0x2c, 0x2e, 0x09,
   0x18, 0x19, 0x1a, 0x1b, 0x1c, 0x1d, 0x1e, 0x1f,
   0x20, 0x21, 0x22, 0x23, 0x24, 0x25, 0x26, 0x27,
   0x40, 0x41]
/-- extformat.cpp 171-192 with extformat.h 66-84. -/
def fillTable : List Nat :=
  [0, 1, 3, 2, 4, 0x11, 0x12, 5, 6, 7, 8, 9, 0xa, 0xb, 0xc, 0xd, 0xe, 0xf, 0x10]
/-- extformat.cpp 194-204 with extformat.h 110-117. -/
def borderTable : List Nat := [0, 1, 2, 3, 4, 5, 6, 7]
/-- format.cpp 40-78 with format.h 47-84. -/
def formatTable : List Nat :=
  [0, 1, 2, 3, 4, 5, 6, 7, 8, 9, 0xa, 0xb, 0xc, 0xd, 0xe, 0xf, 0x10, 0x11, 0x12, 0x13, 0x14, 0x15, 0x16,
   0x25, 0x26, 0x27, 0x28, 0x29, 0x2a, 0x2b, 0x2c, 0x2d, 0x2e, 0x2f, 0x30, 0x31]

/-- XF_ALIGN_ATR…, extformat.h 209-214. -/
def atrNum : Nat := 0x04
def atrFont : Nat := 0x08
def atrAlc : Nat := 0x10
def atrBdr : Nat := 0x20
def atrPat : Nat := 0x40
def atrProt : Nat := 0x80
/-- XF_ALIGN_ALL, extformat.h 215. -/
def atrAll : Nat := 0xFC

/-- `SetFlag`, extformat.cpp 486-514. -/
def setFlag (x : Xf) (f : Nat) : Xf := { x with flags := if x.isCell then x.flags ||| f else x.flags &&& (0xFF ^^^ f) }

/-- `ClearFlag`, extformat.cpp 516-527. -/
def clearFlag (x : Xf) (f : Nat) : Xf := { x with flags := if !x.isCell then x.flags ||| f else x.flags &&& (0xFF ^^^ f) }

/-- The `if(… != xfiInit.…) SetFlag(…)` of the setters. -/
def flagIf (c : Bool) (f : Nat) (x : Xf) : Xf := if c then setFlag x f else x

/-- `SetFont`, extformat.cpp 631-645; the usage counters are in `Styles`. -/
def setFont (x : Xf) (f : Option Nat) : Xf := { flagIf (f != none) atrFont x with font := f }

/-- `SetFormatIndex`, extformat.cpp 661-669. -/
def setFormatIndex (x : Xf) (i : Nat) : Xf := { flagIf (i != 0) atrNum x with formatIndex := i, format := none }

/-- `format2index`, format.cpp 80-87. -/
def format2index (n : Nat) : Option Nat := formatTable[if n % 65536 > 35 then 0 else n]?

/-- `SetFormat(format_number_t)`, extformat.cpp 671-686. -/
def setFormat (x : Xf) (n : Nat) : Option Xf :=
  (format2index (if n > 35 then 0 else n)).map fun i => { flagIf (i != 0) atrNum x with formatIndex := i, format := none }

/-- The index of user format number `k`: `AddFormat`, globalrec.cpp 647-651, counting from FMT_CODE_FIRST_USER
    (globalrec.cpp 199, format.h 86) in 16 bits. -/
def formatIndexOf (k : Nat) : Nat := (164 + k) % 65536

/-- The index of the font at position `p`: 0 to 3 and 5 for the default fonts (globalrec.cpp 90-126), from 6 on for user
    fonts (`AddFont`, globalrec.cpp 653-657), in 16 bits. -/
def fontIndexOf (p : Nat) : Nat := if p < 4 then p else (p + 1) % 65536

/-- `SetFormat(format_t*)` with a format, extformat.cpp 688-710. -/
def setUserFormat (x : Xf) (k : Nat) : Xf :=
  { flagIf (formatIndexOf k != 0) atrNum x with formatIndex := formatIndexOf k, format := some k }

/-- `SetBorderStyle`, extformat.cpp 756-771. -/
def setBorderStyle (x : Xf) (s : Side) (n : Nat) : Option Xf :=
  (borderTable[n]?).bind fun c =>
    let x1 := { x with bstyle := x.bstyle.set s c }
    let x2 := flagIf (c != 0) atrBdr x1
    if x2.isCell && x2.bcolor.get s == 0 then (colorTable[57]?).map fun a => { x2 with bcolor := x2.bcolor.set s a }
    else some x2

/-- `SetBorderColor(…, unsigned8_t)`, extformat.cpp 786-795. -/
def setBorderColorIdx (x : Xf) (s : Side) (c : Nat) : Xf := flagIf (c != 0) atrBdr { x with bcolor := x.bcolor.set s c }

/-- `SetBorderColor(…, color_name_t)`, extformat.cpp 773-784. -/
def setBorderColor (x : Xf) (s : Side) (n : Nat) : Option Xf := (colorTable[n]?).map (setBorderColorIdx x s)

/-- `SetHAlign`, extformat.cpp 909-919; the default is HALIGN_GENERAL (219). -/
def setHAlign (x : Xf) (n : Nat) : Option Xf := (halignTable[n]?).map fun c => { flagIf (n != 0) atrAlc x with halign := c }

/-- `SetVAlign`, extformat.cpp 927-937; the default is VALIGN_BOTTOM (220). -/
def setVAlign (x : Xf) (n : Nat) : Option Xf := (valignTable[n]?).map fun c => { flagIf (n != 2) atrAlc x with valign := c }

/-- `SetIndent`, extformat.cpp 944-954. -/
def setIndent (x : Xf) (n : Nat) : Option Xf := (indentTable[n]?).map fun c => { flagIf (n != 0) atrAlc x with indent := c }

/-- `SetTxtOrientation`, extformat.cpp 962-972. -/
def setOrient (x : Xf) (n : Nat) : Option Xf := (orientTable[n]?).map fun c => { flagIf (n != 0) atrAlc x with orient := c }

/-- `SetFillFGColor(color_name_t)`, extformat.cpp 980-990; the default is CLR_SYS_WIND_FG (226). -/
def setFg (x : Xf) (n : Nat) : Option Xf := (colorTable[n]?).map fun c => { flagIf (n != 57) atrPat x with fg := c }

/-- `SetFillFGColor(unsigned8_t)`, extformat.cpp 992-997. -/
def setFgIdx (x : Xf) (c : Nat) : Xf := { setFlag x atrPat with fg := c }

/-- `SetFillBGColor(color_name_t)`, extformat.cpp 1005-1015; the default is CLR_SYS_WIND_BG (227). -/
def setBg (x : Xf) (n : Nat) : Option Xf := (colorTable[n]?).map fun c => { flagIf (n != 58) atrPat x with bg := c }

/-- `SetFillBGColor(unsigned8_t)`, extformat.cpp 1017-1022. -/
def setBgIdx (x : Xf) (c : Nat) : Xf := { setFlag x atrPat with bg := c }

/-- `SetFillStyle`, extformat.cpp 1030-1040. -/
def setFill (x : Xf) (n : Nat) : Option Xf := (fillTable[n]?).map fun c => { flagIf (n != 0) atrPat x with fill := c }

/-- `SetLocked`, extformat.cpp 1048-1056; locked by default (215). -/
def setLocked (x : Xf) (b : Bool) : Xf := { flagIf (b != true) atrProt x with locked := b }

/-- `SetHidden`, extformat.cpp 1064-1072. -/
def setHidden (x : Xf) (b : Bool) : Xf := { flagIf (b != false) atrProt x with hidden := b }

/-- `SetWrap`, extformat.cpp 1080-1088. -/
def setWrap (x : Xf) (b : Bool) : Xf := { flagIf (b != false) atrAlc x with wrap := b }

/-- The member initialisers of the constructor, extformat.cpp 321-353. -/
def blank (user cell master : Bool) : Xf :=
  ⟨0, none, none, 0, 2, 0, 0, 0, 0, 0, false, false, false, cell, user, ⟨0, 0, 0, 0, 0⟩, ⟨0, 0, 0, 0, 0⟩,
    if cell || master then 0 else atrAll⟩

/-- The loop over the borders in the constructor, extformat.cpp 369-372. -/
def initBorders (x : Xf) : List Side → Option Xf
  | [] => some x
  | s :: r => (setBorderStyle x s 0).bind fun x => (setBorderColor x s 0).bind fun x => initBorders x r

/-- The constructor, extformat.cpp 321-377, on the values of `xf_init_t` (211-236): those are `xfiInit`'s for cells, and
    for styles too, because the default XF of which `GetDefaultXFshadow` (303-314) takes the values was built from
    `xfiInit`, or is NULL for the XFs before it. -/
def new (user cell master : Bool) : Option Xf :=
  (setHAlign (setFormatIndex (blank user cell master) 0) 0).bind fun x =>
  (setVAlign x 2).bind fun x =>
  (setIndent x 0).bind fun x =>
  (setOrient x 0).bind fun x =>
  (setFg x 57).bind fun x =>
  (setBg x 58).bind fun x =>
  (setFill x 0).bind fun x =>
  initBorders (setWrap (setHidden (setLocked x true) false) false) [.bottom, .top, .left, .right, .diagonals]

/-- The copy constructor without the usage counters, extformat.cpp 384-424. -/
def dup (x : Xf) : Xf :=
  let x1 := setFont { x with font := none, format := none, isCell := true, isUser := true } x.font
  match x.format with
  | none => x1
  | some k => setUserFormat x1 k

/-- The public setters of `xf_t` (extformat.h 471-535), which are also the format operations of a cell (cell.h 95-112). -/
inductive Op
  | font (f : Option Nat)
  | formatIndex (i : Nat)
  | format (n : Nat)
  | userFormat (k : Option Nat)
  | halign (n : Nat) | valign (n : Nat) | indent (n : Nat) | orient (n : Nat)
  | fg (n : Nat) | fgIdx (c : Nat) | bg (n : Nat) | bgIdx (c : Nat) | fill (n : Nat)
  | locked (b : Bool) | hidden (b : Bool) | wrap (b : Bool)
  | bstyle (s : Side) (n : Nat) | bcolor (s : Side) (n : Nat) | bcolorIdx (s : Side) (c : Nat)
deriving Repr, DecidableEq

def Op.run (x : Xf) : Op → Option Xf
  | .font f => some (setFont x f)
  | .formatIndex i => some (setFormatIndex x i)
  | .format n => setFormat x n
  | .userFormat none => some x
  | .userFormat (some k) => some (setUserFormat x k)
  | .halign n => setHAlign x n
  | .valign n => setVAlign x n
  | .indent n => setIndent x n
  | .orient n => setOrient x n
  | .fg n => setFg x n
  | .fgIdx c => some (setFgIdx x c)
  | .bg n => setBg x n
  | .bgIdx c => some (setBgIdx x c)
  | .fill n => setFill x n
  | .locked b => some (setLocked x b)
  | .hidden b => some (setHidden x b)
  | .wrap b => some (setWrap x b)
  | .bstyle s n => setBorderStyle x s n
  | .bcolor s n => setBorderColor x s n
  | .bcolorIdx s c => some (setBorderColorIdx x s c)

def runAll (x : Xf) : List Op → Option Xf
  | [] => some x
  | o :: r => (o.run x).bind fun x => runAll x r

/-! ### The record -/

/-- `GetValue16From`, a change, `SetValueAt16`. -/
def upd16 (off : Nat) (f : Nat → Nat) (bs : Bytes) : Option Bytes := (rdLE 2 bs off).bind fun v => setAt16 bs (f v) off
/-- `GetValue32From`, a change, `SetValueAt32`. -/
def upd32 (off : Nat) (f : Nat → Nat) (bs : Bytes) : Option Bytes := (rdLE 4 bs off).bind fun v => setAt32 bs (f v) off

/-- `(value & ~mask) | ((v << sh) & mask)` in `n`-bit words. -/
def put (n mask v sh word : Nat) : Nat := (word &&& ((2 ^ n - 1) ^^^ mask)) ||| ((v <<< sh) % 2 ^ n &&& mask)

/-- `if(b) value |= mask; else value &= ~mask`. -/
def putFlag (n mask : Nat) (b : Bool) (word : Nat) : Nat := if b then word ||| mask else word &&& ((2 ^ n - 1) ^^^ mask)

/-- `value &= ~(m1|m2); value |= ((v1 << s1) & m1) | ((v2 << s2) & m2)`, extformat.cpp 1424-1428 and 1436-1439. -/
def put2 (n m1 v1 s1 m2 v2 s2 word : Nat) : Nat :=
  (word &&& ((2 ^ n - 1) ^^^ (m1 ||| m2))) ||| (((v1 <<< s1) % 2 ^ n &&& m1) ||| ((v2 <<< s2) % 2 ^ n &&& m2))

/-- `InitDummy`, extformat.cpp 1154-1182. -/
def dummy (cell : Bool) : Bytes :=
  if cell then [0, 0, 0, 0, 0, 0, 0, 0, 0, 0, 0, 0, 0, 0, 0, 0, 0, 0, 0, 0]
  else [0, 0, 0, 0, 0xf4, 0xff, 0x20, 0, 0, 0xfc, 0, 0, 0, 0, 0, 0, 0, 0, 0xc0, 0x20]

/-- The mask in `SetIndent`, extformat.cpp 1308-1333. -/
def indentMask (v : Nat) : Nat :=
  if v &&& 0x0F != 0 then 0x0F
  else if v &&& 0x10 != 0 then 0x10
  else if v &&& (0x00 ||| 0x40 ||| 0x80) != 0 then 0xC0
  else 0x0F ||| 0x10 ||| 0xC0

/-- `GetFontIndex`, extformat.cpp 652-659. -/
def fontIndex (x : Xf) : Nat :=
  match x.font with
  | none => 0
  | some p => fontIndexOf p

/-- The `CExtFormat` constructor, extformat.cpp 1106-1144, with the setters 1200-1459 in the order they are called. -/
def steps (x : Xf) : List (Bytes → Option Bytes) :=
  [fun bs => setAt16 bs (fontIndex x) 4,
   fun bs => setAt16 bs x.formatIndex 6,
   upd32 10 (put 32 0x7 x.halign 0),
   upd32 10 (put 32 0x70 x.valign 4),
   upd32 10 (put 32 (indentMask x.indent <<< 16) x.indent 16),
   upd32 10 (put 32 0xFF00 x.orient 8),
   upd16 22 (put 16 0x7f x.fg 0),
   upd16 22 (put 16 0x3f80 x.bg 7),
   upd32 18 (put 32 0xFC000000 x.fill 26),
   upd16 8 (putFlag 16 0x1 x.locked),
   upd16 8 (putFlag 16 0x2 x.hidden),
   upd32 10 (putFlag 32 0x8 x.wrap),
   upd32 14 (put 32 0xF000 x.bstyle.bottom 12),
   upd32 18 (put 32 0x3f80 x.bcolor.bottom 7),
   upd32 14 (put 32 0xF00 x.bstyle.top 8),
   upd32 18 (put 32 0x7f x.bcolor.top 0),
   upd32 14 (put2 32 0x7f0000 x.bcolor.left 16 0xF x.bstyle.left 0),
   upd32 14 (put2 32 0x3f800000 x.bcolor.right 23 0xF0 x.bstyle.right 4),
   upd32 10 (put 32 0xFC000000 x.flags 24),
   fun bs => if x.isCell then upd16 8 (put 16 0xFFF0 0 4) bs else some bs]

def runSteps : List (Bytes → Option Bytes) → Bytes → Option Bytes
  | [], bs => some bs
  | f :: r, bs => (f bs).bind (runSteps r)

/-- The XF record of `x`: header, the initial payload and the steps. -/
def record (x : Xf) : Option Bytes := runSteps (steps x) (enc (0xE0, dummy x.isCell))

end Xls.Xf
