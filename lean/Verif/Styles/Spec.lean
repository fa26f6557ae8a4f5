import Verif.Styles.Model
import Verif.Xf.Want
import Verif.Font.Spec
/-
What a program asks for when it works with fonts, formats and cells: every object has its own list of calls.

A font is known by the calls on it; a format or cell by the calls on it and its font, which is either the program's font
object it was last given (later changes of that object show) or a font of its own.  Handles are the positions of the objects,
as in the model; nothing here refers to sharing, usage counters or the search for equal formats.
-/
namespace Xls.Styles.Spec
open Xls.Font (FOp)

/-- The font a list of calls begins with: the workbook's default font, a copy of one of its five built-in fonts, or a new font with a name. -/
inductive Base
  | dflt
  | stock (n : Nat)
  | named (n : List UInt16)
deriving Repr, DecidableEq

/-- "Verdana" is the default font; a new font has the automatic colour. -/
def Base.name : Base → List UInt16
  | .named n => n
  | _ => [0x56, 0x65, 0x72, 0x64, 0x61, 0x6e, 0x61]

def Base.color : Base → Nat
  | .named _ => 0x7fff
  | _ => 0

/-- Built-in fonts 1 and 3 are bold, 2 and 3 are italic. -/
def Base.bold : Base → Bool
  | .stock n => n == 1 || n == 3
  | _ => false

def Base.italic : Base → Bool
  | .stock n => n == 2 || n == 3
  | _ => false

structure FontH where
  base : Base
  calls : List FOp
deriving Repr, DecidableEq

inductive Ref
  | own (h : FontH)
  | shared (p : Nat)
deriving Repr, DecidableEq

structure Look where
  calls : List Xf.Op
  font : Ref
deriving Repr, DecidableEq

/-- A new format, or a cell with no format given: the default font. -/
def plain : Look := ⟨[], .own ⟨.dflt, []⟩⟩

/-- The program's fonts, its formats, and the cells. -/
structure State where
  fonts : Nat → Option FontH
  formats : Nat → Option Look
  cells : Nat → Option Look

def start : State := ⟨fun _ => none, fun _ => none, fun _ => none⟩

def upd {α : Type} (f : Nat → Option α) (k : Nat) (v : Option α) : Nat → Option α := fun i => if i = k then v else f i

/-- A format call. -/
def onCall (l : Look) (o : Xf.Op) : Look :=
  ⟨l.calls ++ [o], match o with | .font none => .own ⟨.dflt, []⟩ | .font (some p) => .shared p | _ => l.font⟩

/-- What the font of a look is at present. -/
def fontOf (s : State) (l : Look) : Option FontH :=
  match l.font with
  | .own h => some h
  | .shared p => s.fonts p

/-- A font call on a cell: from then on the cell has a font of its own, and says so (the `.font (some 0)` stands for "a font
    was set"; which object it is does not matter). -/
def onFontCall (s : State) (l : Look) (o : FOp) : Option Look :=
  (fontOf s l).map fun h => ⟨l.calls ++ [.font (some 0)], .own ⟨h.base, h.calls ++ [o]⟩⟩

/-- One action; `h` is the handle a new object gets. -/
def step (h : Nat) (s : State) : Action → State
  | .newFont n => { s with fonts := upd s.fonts h (some ⟨.named n, []⟩) }
  | .stockFont n => { s with fonts := upd s.fonts h (some ⟨.stock n, []⟩) }
  | .copyFont p => { s with fonts := upd s.fonts h (s.fonts p) }
  | .font p o => { s with fonts := upd s.fonts p ((s.fonts p).map fun f => ⟨f.base, f.calls ++ [o]⟩) }
  | .newXf => { s with formats := upd s.formats h (some plain) }
  | .copyXf q => { s with formats := upd s.formats h (s.formats q) }
  | .xf q o => { s with formats := upd s.formats q ((s.formats q).map (onCall · o)) }
  | .newCell none => { s with cells := upd s.cells h (some plain) }
  | .newCell (some q) => { s with cells := upd s.cells h (s.formats q) }
  | .destroy c => { s with cells := upd s.cells c none }
  | .setXf c q => { s with cells := upd s.cells c (s.formats q) }
  | .adopt c _ ops => { s with cells := upd s.cells c ((s.cells c).map (ops.foldl onCall ·)) }
  | .cell c o => { s with cells := upd s.cells c ((s.cells c).map (onCall · o)) }
  | .cellFont c o => { s with cells := upd s.cells c ((s.cells c).bind (onFontCall s · o)) }

/-- What a reader should find in the FONT record of a font; the lowest bit of the attributes, which has no meaning any more ([MS-XLS] 2.4.122, `unused1`),
    is set for the built-in fonts that are bold. -/
def wantFont (h : FontH) : Font.Seen :=
  { Font.Spec.want h.calls with
    weight := Font.Spec.last Font.Spec.pickBold (if h.base.bold then 700 else 400) h.calls
    italic := Font.Spec.last Font.Spec.pickItalic h.base.italic h.calls
    otherAttrs := [if h.base.bold then 1 else 0, 0, 0]
    color := Font.Spec.last Font.Spec.pickColor h.base.color h.calls
    name := Font.Spec.last Font.Spec.pickName h.base.name h.calls }

/-- What a reader should find in the XF record of a look, apart from the font number; the diagonals are never written
    (`c28_diagonal_lost`). -/
def wantXf (l : Look) : Xf.Seen := { Xf.Spec.want l.calls with font := 0, diagonal := ⟨0, 0⟩, diagWhich := 0 }

end Xls.Styles.Spec
