import Verif.Range.Model
import Verif.Styles.Spec
/-
What a program asks for when it writes and formats cells of a sheet: a map from coordinates to what the cell holds and the
list of calls that concern it.
-/
namespace Xls.Range.Spec
open Xls.Styles.Spec (FontH Look plain upd onCall onFontCall)
open Xls.Cells (Key)

structure State (κ : Type) where
  fonts : Nat → Option FontH
  formats : Nat → Option Look
  grid : Key → Option (Option κ × Look)

def start (κ : Type) : State κ := ⟨fun _ => none, fun _ => none, fun _ => none⟩

/-- Change the cell at `k`; if there is none, a blank one. -/
def here {κ : Type} (g : Key → Option (Option κ × Look)) (f : Look → Look) (k : Key) : Option (Option κ × Look) :=
  match g k with
  | none => some (none, f plain)
  | some (v, l) => some (v, f l)

def Inside (r : Rect) (k : Key) : Prop := r.firstRow ≤ k.1 ∧ k.1 ≤ r.lastRow ∧ r.firstCol ≤ k.2 ∧ k.2 ≤ r.lastCol

instance (r : Rect) (k : Key) : Decidable (Inside r k) := inferInstanceAs (Decidable (_ ∧ _ ∧ _ ∧ _))

/-- A font call, as in `Styles.Spec.onFontCall`; a cell always has a font. -/
def fontCall (fonts : Nat → Option FontH) (o : Font.FOp) (l : Look) : Look :=
  (onFontCall ⟨fonts, fun _ => none, fun _ => none⟩ l o).getD l

/-- What an operation on the rectangle `r` is for the cell at `k`.  For the box it is what the code does: the second colour is
    taken for the foreground (see `c53_background`). -/
def rangeCalls (fonts : Nat → Option FontH) (r : Rect) (k : Key) : RangeOp → Look → Look
  | .call o, l => onCall l o
  | .font o, l => fontCall fonts o l
  | .color n, l => [Xf.Op.fg n, .fill 1].foldl onCall l
  | .box b, l =>
    ((if k.1 = r.firstRow then [Xf.Op.bstyle .top b.border, .bcolor .top b.color] else []) ++
     (if k.1 = r.lastRow then [Xf.Op.bstyle .bottom b.border, .bcolor .bottom b.color] else []) ++
     (if k.2 = r.firstCol then [Xf.Op.bstyle .left b.border, .bcolor .left b.color] else []) ++
     (if k.2 = r.lastCol then [Xf.Op.bstyle .right b.border, .bcolor .right b.color] else []) ++
     [Xf.Op.fg b.fg, .fg b.bg, .fill b.fill]).foldl onCall l

def set {κ : Type} (g : Key → Option (Option κ × Look)) (k : Key) (v : Option (Option κ × Look)) : Key → Option (Option κ × Look) :=
  fun i => if i = k then v else g i

/-- One action; `h` is the handle a new font or format gets. -/
def step {κ : Type} (h : Nat) (s : State κ) : Act κ → State κ
  | .newFont n => { s with fonts := upd s.fonts h (some ⟨.named n, []⟩) }
  | .font p o => { s with fonts := upd s.fonts p ((s.fonts p).map fun f => ⟨f.base, f.calls ++ [o]⟩) }
  | .newXf => { s with formats := upd s.formats h (some plain) }
  | .xf q o => { s with formats := upd s.formats q ((s.formats q).map (onCall · o)) }
  | .put row col v none => { s with grid := set s.grid (row, col) (some (v, plain)) }
  | .put row col v (some q) => { s with grid := set s.grid (row, col) ((s.formats q).map fun l => (v, l)) }
  | .cell row col o => { s with grid := set s.grid (row, col) ((s.grid (row, col)).map fun c => (c.1, onCall c.2 o)) }
  | .cellFont row col o => { s with grid := set s.grid (row, col) ((s.grid (row, col)).map fun c => (c.1, fontCall s.fonts o c.2)) }
  | .range r o => { s with grid := fun k => if Inside r k then here s.grid (rangeCalls s.fonts r k o) k else s.grid k }

end Xls.Range.Spec
