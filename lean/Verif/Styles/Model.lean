import Verif.Xf.Model
import Verif.Font.Model
/-
The style objects of a workbook together: fonts and cell formats with their usage counters (`font_t`, `xf_t`,
`CGlobalRecords`), and the cells that point to them (`cell_t`, cell.cpp).

A pointer is a position: fonts are numbered "default fonts, then m_Fonts", formats "default XFs, then m_XFs", cells in the
order of their creation.  Usage counters are unbounded (32-bit in the code).  The usage counters of number formats are left
out: nothing reads them except `UnMarkUsed` itself.  A row or column that is given a format counts as a cell here: it marks
the format used (sheetrec.cpp 1308-1312, 1342-1346); what happens when it is replaced is in Verif/Prog/Model.lean.
`none` is undefined behaviour: a lookup table read past its end, or a dangling pointer.
-/
namespace Xls.Styles
open Xls.Xf (Xf)
open Xls.Font (Font FOp)

/-- A font object: its value, `index` and `m_usage_counter`. -/
structure FEnt where
  font : Font
  index : Nat
  usage : Nat
deriving Repr, DecidableEq

/-- A format object.  `used` is not in the code: it records that the object was given to a cell at some time. -/
structure XEnt where
  xf : Xf
  index : Nat
  usage : Nat
  used : Bool
deriving Repr, DecidableEq

/-- The objects of a workbook; `fontNext`/`xfNext` are the 16-bit counters `fontIndex`/`xfIndex`; a destroyed cell is
    `none`. -/
structure State where
  fonts : List FEnt
  fontNext : Nat
  xfs : List XEnt
  xfNext : Nat
  cells : List (Option Nat)
deriving Repr, DecidableEq

/-- `font_t::MarkUsed`, font.cpp 214-217. -/
def markFont (s : State) (p : Nat) : State :=
  { s with fonts := s.fonts.modify p fun f => { f with usage := f.usage + 1 } }

/-- `font_t::UnMarkUsed`, font.cpp 219-224. -/
def unmarkFont (s : State) (p : Nat) : State :=
  { s with fonts := s.fonts.modify p fun f => { f with usage := f.usage - 1 } }

def markFont? (s : State) : Option Nat → State
  | none => s
  | some p => markFont s p

def unmarkFont? (s : State) : Option Nat → State
  | none => s
  | some p => unmarkFont s p

/-- `xf_t::MarkUsed`, extformat.cpp 584-587. -/
def markXf (s : State) (q : Nat) : State :=
  { s with xfs := s.xfs.modify q fun e => { e with usage := e.usage + 1, used := true } }

/-- `xf_t::UnMarkUsed`, extformat.cpp 589-604. -/
def unmarkXf (s : State) (q : Nat) : Option State :=
  (s.xfs[q]?).map fun e =>
    let s1 := { s with xfs := s.xfs.modify q fun e => { e with usage := e.usage - 1 } }
    if e.usage - 1 = 0 then unmarkFont? s1 e.xf.font else s1

/-- `CGlobalRecords::AddXFormat`, globalrec.cpp 664-668. -/
def addXf (s : State) (x : Xf) : State :=
  { s with xfs := s.xfs ++ [⟨x, s.xfNext, 0, false⟩], xfNext := (s.xfNext + 1) % 65536 }

/-- `CGlobalRecords::AddFont`, globalrec.cpp 653-657. -/
def addFont (s : State) (f : Font) : State :=
  { s with fonts := s.fonts ++ [⟨f, s.fontNext, 0⟩], fontNext := (s.fontNext + 1) % 65536 }

/-- `xf_t::xfDup`, extformat.h 455-459, with the copy constructor extformat.cpp 384-424: the font of the copy is marked, and
    the copy comes last. -/
def dupXf (s : State) (q : Nat) : Option State :=
  (s.xfs[q]?).map fun e => addXf (markFont? s e.xf.font) (Xf.dup e.xf)

/-- A setter on the format object `q`: as in `Xf.Op.run`; `SetFont` moves the usage mark (extformat.cpp 631-645). -/
def setOn (s : State) (q : Nat) (o : Xf.Op) : Option State :=
  (s.xfs[q]?).bind fun e =>
  (o.run e.xf).map fun x =>
    let s1 := { s with xfs := s.xfs.modify q fun e => { e with xf := x } }
    match o with
    | .font f => markFont? (unmarkFont? s1 e.xf.font) f
    | _ => s1

/-- `CGlobalRecords::findXF(tempXF)` where `tempXF` is the last format, globalrec.cpp 920-946: the first format of m_XFs equal
    to it (`xf_t::operator==`, extformat.cpp 859-907, compares everything but the index and the usage), in which case the
    last one is deleted. -/
def findXf (s : State) : Option (Nat × State) :=
  (s.xfs[s.xfs.length - 1]?).map fun t =>
    match (s.xfs.drop 21).findIdx? fun e => e.xf == t.xf with
    | none => (s.xfs.length - 1, s)
    | some i =>
      if 21 + i = s.xfs.length - 1 then (21 + i, s)
      else (21 + i, { s with xfs := s.xfs.take (s.xfs.length - 1), xfNext := (s.xfNext + 65535) % 65536 })

/-- The end of every format operation of a cell, cell.cpp 82-84: give up the old format, look for an equal one, use it. -/
def settle (s : State) (c q : Nat) : Option State :=
  (unmarkXf s q).bind fun s =>
  (findXf s).map fun r => markXf { r.2 with cells := r.2.cells.set c (some r.1) } r.1

/-- The format operations of a cell, cell.cpp 76-272. -/
def cellOp (s : State) (c : Nat) (o : Xf.Op) : Option State :=
  (s.cells[c]?).join.bind fun q =>
  (dupXf s q).bind fun s1 =>
  (setOn s1 s.xfs.length o).bind fun s2 => settle s2 c q

/-- `set_cell_font`, cell.cpp 277-296. -/
def setCellFont (s : State) (c : Nat) : Option State :=
  (s.cells[c]?).join.bind fun q =>
  (dupXf s q).bind fun s1 =>
  (s1.xfs[s.xfs.length]?).bind fun t =>
  (match t.xf.font with
    | none => (s1.fonts[0]?).bind fun d => setOn (addFont s1 d.font) s.xfs.length (.font (some s1.fonts.length))
    | some p => (s1.fonts[p]?).bind fun f =>
        if f.usage > 1 then setOn (addFont s1 f.font) s.xfs.length (.font (some s1.fonts.length)) else some s1).bind fun s2 =>
  settle s2 c q

/-- A setter on the font object `p`. -/
def setFontOn (s : State) (p : Nat) (o : FOp) : Option State :=
  (s.fonts[p]?).bind fun f => (o.run f.font).map fun v => { s with fonts := s.fonts.modify p fun f => { f with font := v } }

/-- The font operations of a cell, cell.cpp 298-371. -/
def cellFont (s : State) (c : Nat) (o : FOp) : Option State :=
  (setCellFont s c).bind fun s1 =>
  (s1.cells[c]?).join.bind fun q =>
  (s1.xfs[q]?).bind fun e => e.xf.font.bind fun p => setFontOn s1 p o

/-- A new cell with a format, or with the default one (XF 15): `cell_t::cell_t`, cell.cpp 37-46. -/
def newCell (s : State) (q : Option Nat) : State :=
  markXf { s with cells := s.cells ++ [some (q.getD 15)] } (q.getD 15)

/-- `cell_t::~cell_t`, cell.cpp 48-51. -/
def destroy (s : State) (c : Nat) : Option State :=
  (s.cells[c]?).join.bind fun q => unmarkXf { s with cells := s.cells.set c none } q

/-- `cell_t::SetXF` with a format, cell.cpp 373-381. -/
def setXf (s : State) (c q : Nat) : Option State :=
  (s.cells[c]?).join.bind fun old => unmarkXf (markXf { s with cells := s.cells.set c (some q) } q) old

/-- What a program can do with styles. -/
inductive Action
  /-- `workbook::font(name)`, workbook.cpp 163-170 -/
  | newFont (name : List UInt16)
  /-- `workbook::font(fontnum)`, workbook.cpp 172-175: a copy of one of the five default fonts -/
  | stockFont (n : Nat)
  /-- `font_t::fontDup`, font.h 198-202 -/
  | copyFont (p : Nat)
  /-- a setter of `font_t` called by the program -/
  | font (p : Nat) (o : FOp)
  /-- `workbook::xformat()`, workbook.cpp 203-208 -/
  | newXf
  /-- `xf_t::xfDup`, extformat.h 455-459 -/
  | copyXf (q : Nat)
  /-- a setter of `xf_t` called by the program -/
  | xf (q : Nat) (o : Xf.Op)
  | newCell (q : Option Nat)
  | destroy (c : Nat)
  | setXf (c q : Nat)
  /-- `cell_t::SetXF` as `range::cellcolor` and `range::boxer` call it (range.cpp 87 and 149): with a format that they found to be what
      the calls `ops` make of the format of the cell (Verif/Range/Model.lean).  `ops` is not in the code; it says what the call is for. -/
  | adopt (c q : Nat) (ops : List Xf.Op)
  | cell (c : Nat) (o : Xf.Op)
  | cellFont (c : Nat) (o : FOp)
deriving Repr

/-- One action.  `CGlobalRecords::fontdup` reads `m_DefaultFonts` without a check (globalrec.cpp 719-722); the copy constructor of `font_t` calls
    `AddFont` (font.cpp 152-167). -/
def step (s : State) : Action → Option State
  | .newFont n => some (addFont s { Font.fresh with name := n })
  | .stockFont n => if n < 5 then (s.fonts[n]?).map fun f => addFont s f.font else none
  | .copyFont p => (s.fonts[p]?).map fun f => addFont s f.font
  | .font p o => setFontOn s p o
  | .newXf => (Xf.new true true false).map (addXf s)
  | .copyXf q => dupXf s q
  | .xf q o => setOn s q o
  | .newCell q => some (newCell s q)
  | .destroy c => destroy s c
  | .setXf c q => setXf s c q
  | .adopt c q _ => setXf s c q
  | .cell c o => cellOp s c o
  | .cellFont c o => cellFont s c o

/-- Several actions. -/
def steps (s : State) : List Action → Option State
  | [] => some s
  | a :: r => (step s a).bind fun s => steps s r

/-! ### The workbook as constructed -/

/-- The font of default format `i`, globalrec.cpp 134-177. -/
def defaultFontOf (i : Nat) : Option Nat :=
  if i = 0 then none else if i ≤ 2 then some 1 else if i ≤ 4 then some 2 else if i = 15 then none
  else if 16 ≤ i then some 4 else some 0

/-- The number format of default format `i`, globalrec.cpp 158-176: FMT_CURRENCY7, 5, 8, 6, FMT_PERCENT1 (format.h 92-130). -/
def defaultFormatOf (i : Nat) : Option Nat :=
  if i = 16 then some 29 else if i = 17 then some 27 else if i = 18 then some 30 else if i = 19 then some 28
  else if i = 20 then some 9 else none

/-- One round of the loop, globalrec.cpp 128-196. -/
def addDefault (s : State) (i : Nat) : Option State :=
  (Xf.new false (i == 15) (i == 0)).bind fun x0 =>
  let x1 := match defaultFontOf i with | none => x0 | some p => Xf.setFont x0 (some p)
  let x2 := if defaultFontOf i = some 4 then Xf.clearFlag x1 Xf.atrFont else x1
  (match defaultFormatOf i with | none => some x2 | some n => Xf.setFormat x2 n).map fun x3 =>
    let s1 := markFont? s (defaultFontOf i)
    { s1 with xfs := s1.xfs ++ [(⟨x3, i, 2, true⟩ : XEnt)] }

/-- `CGlobalRecords::CGlobalRecords`, globalrec.cpp 84-196; after the loop `xfIndex` is 21. -/
def init : Option State :=
  ((List.range 21).foldl (fun (s : Option State) i => s.bind fun s => addDefault s i)
    (some { fonts := Font.defaults.zipWith (fun f i => (⟨f, i, 2⟩ : FEnt)) [0, 1, 2, 3, 5], fontNext := 6, xfs := [], xfNext := 21, cells := [] }))

end Xls.Styles
