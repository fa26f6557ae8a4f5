import Verif.Mirror.Effects
import Verif.Area.Model
import Verif.Range.Spec
/-
C78: what a call on a range makes of the answers of the objects, said without the workbook.
-/
namespace Xls.Touch
open Xls.Range (Rect RangeOp)
open Xls.Ask (FormatReport FontReport)
open Xls.Cells (Key)
open Xls.Whole (Val)
open Xls.Xf.Spec

/-- The predefined number format (format.h 47-84) whose built-in number is `i`, General when there is none. -/
def predefined (i : Nat) : Nat := if i < 23 then i else if 37 ≤ i ∧ i < 50 then i - 14 else 0

/-- Another value at `s`. -/
def put (f : Xf.Side → Nat) (s : Xf.Side) (v : Nat) : Xf.Side → Nat := fun d => if d = s then v else f d

/-- What a setter makes of the answers of a format, but for the flags that say which attributes were given.  A border that had no colour gets the automatic
    one (0x40) with its style. -/
def told (r : FormatReport) : Xf.Op → FormatReport
  | .font none => { r with fontIndex := 0 }
  | .font (some p) => { r with fontIndex := fontCode p }
  | .formatIndex i => { r with formatIndex := i, format := predefined i }
  | .format n => { r with formatIndex := formatCode n, format := if n < 36 then n else 0 }
  | .userFormat none => r
  | .userFormat (some k) => { r with formatIndex := 164 + k, format := 0 }
  | .halign n => { r with halign := n }
  | .valign n => { r with valign := n }
  | .indent n => { r with indent := if n = 17 then 64 else if n = 18 then 128 else n }
  | .orient n => { r with orient := orientCode n }
  | .fg n => { r with fg := colorCode n }
  | .fgIdx c => { r with fg := c }
  | .bg n => { r with bg := colorCode n }
  | .bgIdx c => { r with bg := c }
  | .fill n => { r with fill := fillCode n }
  | .locked b => { r with locked := b }
  | .hidden b => { r with hidden := b }
  | .wrap b => { r with wrap := b }
  | .bstyle s n => { r with bstyle := put r.bstyle s n, bcolor := if r.bcolor s = 0 then put r.bcolor s 0x40 else r.bcolor }
  | .bcolor s n => { r with bcolor := put r.bcolor s (colorCode n) }
  | .bcolorIdx s c => { r with bcolor := put r.bcolor s c }

/-- The flags of the attributes that a setter gives ([MS-XLS] 2.5.20 CellXF: number format 4, font 8, alignment 16, borders 32, pattern 64,
    protection 128). -/
def given (o : Xf.Op) : Nat :=
  if setsFormat o then 4 else if setsFont o then 8 else if setsAlign o then 16 else if setsBorder o then 32 else if setsPattern o then 64
  else if setsProtect o then 128 else 0

def noFlags (r : FormatReport) : FormatReport := { r with flags := 0 }

/-- The answers `r` became `r'` by the calls `ops`.  The flags of what was given are added; those of the number format and of the font may be added by
    the copy. -/
def Became (r : FormatReport) (ops : List Xf.Op) (r' : FormatReport) : Prop :=
  noFlags r' = noFlags (ops.foldl told r) ∧ ∃ m ∈ [0, 4, 8, 12], r'.flags = ops.foldl (fun f o => f ||| given o) (r.flags ||| m)

/-- What a setter of a font makes of its answers. -/
def fontTold (r : FontReport) : Font.FOp → FontReport
  | .name s => { r with name := s }
  | .height h => { r with height := h }
  | .bold n => { r with bold := Font.Spec.weightOf n }
  | .underline n => { r with underline := Font.Spec.underlineOf n }
  | .script n => { r with script := n }
  | .color n => { r with color := colorCode n }
  | .colorIdx c => { r with color := c }
  | .italic b => { r with italic := b }
  | .strike b => { r with strike := b }
  | .outline b => { r with outline := b }
  | .shadow b => { r with shadow := b }
  | .family v => { r with family := v }
  | .charset v => { r with charset := v }

/-- The format calls that an operation on the rectangle `r` stands for at the place `k`.  For the box it is what the code does: the second colour is taken for the
    foreground (see `c53_background`). -/
def placeOps (r : Rect) (k : Key) : RangeOp → List Xf.Op
  | .call o => [o]
  | .font _ => []
  | .color n => [.fg n, .fill 1]
  | .box b =>
    (if k.1 = r.firstRow then [.bstyle .top b.border, .bcolor .top b.color] else []) ++
    (if k.1 = r.lastRow then [.bstyle .bottom b.border, .bcolor .bottom b.color] else []) ++
    (if k.2 = r.firstCol then [.bstyle .left b.border, .bcolor .left b.color] else []) ++
    (if k.2 = r.lastCol then [.bstyle .right b.border, .bcolor .right b.color] else []) ++ [.fg b.fg, .fg b.bg, .fill b.fill]

/-! ### The answers at a place -/

/-- The cell object at a place of a sheet. -/
def cellAt (s : Desk.State) (i : Nat) (k : Key) : Option (Cells.Cell (Nat × Val)) := (s.prog.look.book.sheets i).findCell k.1 k.2

/-- The value at a place, and what the getters of the cell's format and font answer. -/
def placeAnswers (s : Desk.State) (i : Nat) (k : Key) : Option (Val × FormatReport × FontReport) :=
  (cellAt s i k).bind fun x => (Mirror.cellAnswers s.prog.look.styles x.id).map fun a => (x.val.2, a.2)

/-- The same for a blank cell that nothing was done with: it has the default format (15). -/
def blankAnswers (s : Desk.State) : Option (Val × FormatReport × FontReport) :=
  (s.prog.look.styles.xfs[15]?).bind fun e => (s.prog.look.styles.fonts[e.xf.font.getD 0]?).map fun f => (.blank, Ask.askFormat e.xf, Ask.askFont f.font)

/-- What is at a place, or would be if a blank cell were written there. -/
def before (s : Desk.State) (i : Nat) (k : Key) : Option (Val × FormatReport × FontReport) :=
  (placeAnswers s i k).or (blankAnswers s)

/-- The answers of the font that a cell has after an operation with formats: those of the font that was given (font 0 for none), the old ones otherwise. -/
def fontAfter (s : Desk.State) : RangeOp → FontReport → FontReport
  | .call (.font p), g => (Mirror.fontAnswers s.prog.look.styles (p.getD 0)).getD g
  | _, g => g

/-- What an operation with formats on a rectangle `r` of sheet `i` does to all the answers. -/
structure Changed (i : Nat) (r : Rect) (o : RangeOp) (s t : Desk.State) : Prop where
  /-- every place inside has a cell: the old value, or a blank one, with the format changed by the calls -/
  inside : ∀ k, Range.Spec.Inside r k → ∃ v f g f', before s i k = some (v, f, g) ∧ placeAnswers t i k = some (v, f', fontAfter s o g) ∧
    Became f (placeOps r k o) f'
  /-- all other places of all sheets are as before -/
  outside : ∀ j k, ¬ (j = i ∧ Range.Spec.Inside r k) → placeAnswers t j k = placeAnswers s j k
  /-- all other cell objects too -/
  others : ∀ d, d < s.prog.look.styles.cells.length → (∀ k, Range.Spec.Inside r k → ∀ x, cellAt s i k = some x → x.id ≠ d) →
    Mirror.cellAnswers t.prog.look.styles d = Mirror.cellAnswers s.prog.look.styles d
  /-- no format object changes -/
  formats : ∀ q, q < s.prog.look.styles.xfs.length → Mirror.formatAnswers t.prog.look.styles q = Mirror.formatAnswers s.prog.look.styles q
  /-- nor does a font object -/
  fonts : ∀ p, Mirror.fontAnswers t.prog.look.styles p = Mirror.fontAnswers s.prog.look.styles p

/-! ### Font functions on a range -/

/-- The number of the font object of the cell at a place, or of the default format where there is no cell. -/
def fontAt (s : Desk.State) (i : Nat) (k : Key) : Option Nat :=
  (match cellAt s i k with | some x => (s.prog.look.styles.cells[x.id]?).join | none => some 15 : Option Nat).bind fun q =>
  (s.prog.look.styles.xfs[q]?).map fun e => e.xf.font.getD 0

/-- The same for a cell object. -/
def fontOf (s : Desk.State) (d : Nat) : Option Nat :=
  (s.prog.look.styles.cells[d]?).join.bind fun q => (s.prog.look.styles.xfs[q]?).map fun e => e.xf.font.getD 0

/-- The answers of a format but for its font and the flags. -/
def noFont (r : FormatReport) : FormatReport := { r with fontIndex := 0, flags := 0 }

/-- The answers of a format whose font may be another object. -/
def Refonted (f f' : FormatReport) : Prop := noFont f' = noFont f ∧ ∃ m ∈ [0, 4, 8, 12], f'.flags = f.flags ||| m

/-- What a font function on a rectangle `r` of sheet `i` does to all the answers. -/
structure FontChanged (i : Nat) (r : Rect) (o : Font.FOp) (s t : Desk.State) : Prop where
  /-- every place inside has a cell: the old value, or a blank one, with the font changed by the call -/
  inside : ∀ k, Range.Spec.Inside r k → ∃ v f g f', before s i k = some (v, f, g) ∧ placeAnswers t i k = some (v, f', fontTold g o) ∧ Refonted f f'
  /-- all other places of all sheets are as before, unless their font is that of a place inside; then the font may have been changed, too -/
  outside : ∀ j k, ¬ (j = i ∧ Range.Spec.Inside r k) → placeAnswers t j k = placeAnswers s j k ∨
    ((∃ k', Range.Spec.Inside r k' ∧ fontAt s i k' = fontAt s j k) ∧
      placeAnswers t j k = (placeAnswers s j k).map fun a => (a.1, a.2.1, fontTold a.2.2 o))
  /-- all other cell objects too -/
  others : ∀ d, d < s.prog.look.styles.cells.length → (∀ k, Range.Spec.Inside r k → ∀ x, cellAt s i k = some x → x.id ≠ d) →
    Mirror.cellAnswers t.prog.look.styles d = Mirror.cellAnswers s.prog.look.styles d ∨
    ((∃ k', Range.Spec.Inside r k' ∧ fontAt s i k' = fontOf s d) ∧
      Mirror.cellAnswers t.prog.look.styles d = (Mirror.cellAnswers s.prog.look.styles d).map fun a => (a.1, a.2.1, fontTold a.2.2 o))
  /-- no format object changes -/
  formats : ∀ q, q < s.prog.look.styles.xfs.length → Mirror.formatAnswers t.prog.look.styles q = Mirror.formatAnswers s.prog.look.styles q
  /-- no font object changes but those of places inside -/
  fonts : ∀ p, p < s.prog.look.styles.fonts.length → Mirror.fontAnswers t.prog.look.styles p = Mirror.fontAnswers s.prog.look.styles p ∨
    ((∃ k', Range.Spec.Inside r k' ∧ fontAt s i k' = some p) ∧
      Mirror.fontAnswers t.prog.look.styles p = (Mirror.fontAnswers s.prog.look.styles p).map fun g => fontTold g o)

end Xls.Touch
