import Verif.Look.Model
import Verif.Styles.Props
import Verif.Whole.Lemmas
import Verif.Whole.File
import Verif.NumFmt.Props
/-
What a program asks for, and what a reader of the file finds.
-/
namespace Xls.Look
open Xls.Whole Xls.Cells Xls.Biff
open Xls.Styles (Action)
open Xls.Styles.Spec (upd fontOf wantXf wantFont)

/-- The writes, in order, the looks of all fonts, formats and cells, and the codes of the number formats. -/
structure Asked where
  writes : List (Nat × Cell Val)
  looks : Styles.Spec.State
  codes : List (List UInt16)

/-- One call: a cell that is written starts with the look of the format it is given; the cell it replaces is gone. -/
def ask (s : State) (A : Asked) : Call → Asked
  | .put i row col v q =>
    let k := s.styles.cells.length
    let L := Styles.Spec.step k A.looks (.newCell q)
    ⟨A.writes ++ [(i, ⟨k, row, col, v⟩)],
      match lastWrite A.writes i row col with
      | none => L
      | some d => { L with cells := upd L.cells d.id none }, A.codes⟩
  | .style a => ⟨A.writes, Styles.Spec.step (Styles.handle s.styles a) A.looks a, A.codes⟩
  | .format code => { A with codes := A.codes ++ [code] }

/-- The program's number format that is in force after some calls: number in the order of creation. -/
def codeOf (calls : List Xf.Op) : Option Nat :=
  calls.foldl (fun k o => match o with | .userFormat (some k) => some k | .formatIndex _ => none | .format _ => none | _ => k) none

/-- The payloads of the records of one type. -/
def ofType (t : Nat) (G : List Rec) : List Bytes := (G.filter (·.1 == t)).map (·.2)

/-- The FONT, FORMAT and XF records of the workbook globals. -/
structure Records where
  fonts : List Bytes
  formats : List Bytes
  xfs : List Bytes

def openStyles (w : Bytes) : Option Records := (Save.readSub w).map fun G => ⟨ofType 0x31 G, ofType 0x41E G, ofType 0xE0 G⟩

/-- The cells `xs` read from sheet `i` are those that the program wrote last on each place, each with its content and, following
    its format number into the XF records and from there into the FONT records, with the look that the program asked for; where that is a
    number format of the program's, its number leads to the FORMAT record with its code. -/
def Shown (ar : Nat → Option Nat) (A : Asked) (R : Records) (i : Nat) (xs : List ReadCell) : Prop :=
  xs.Pairwise (fun a b => a.row < b.row ∨ a.row = b.row ∧ a.col < b.col) ∧
  ∀ row col, match lastWrite A.writes i row col with
    | none => ∀ x ∈ xs, ¬ (x.row = row ∧ x.col = col)
    | some c => ∃ x ∈ xs, x.row = row ∧ x.col = col ∧ Holds ar i c.val x.content ∧
        ∃ l h, A.looks.cells c.id = some l ∧ fontOf A.looks l = some h ∧
          Styles.readLook R.fonts R.xfs x.xf = some (wantXf l, wantFont h) ∧
          ∀ k code, codeOf l.calls = some k → A.codes[k]? = some code → NumFmt.lookup R.formats (wantXf l).format = some code

end Xls.Look
