import Verif.Prog.Model
import Verif.Look.Spec
import Verif.Page.RowSpec
/-
What a program on a workbook asks for, and what a reader finds in the records of columns and rows.
-/
namespace Xls.Prog
open Xls.Page (Act latest)
open Xls.Styles.Spec (fontOf wantXf wantFont)

/-- What was asked for of cells, fonts and formats, and the calls on each sheet; giving a size to a column or row changes no look. -/
structure Asked where
  look : Look.Asked
  acts : Nat → List Act

def ask (s : State) (A : Asked) : Call → Asked
  | .look c => { A with look := Look.ask s.look A.look c }
  | .page i a => { A with acts := put A.acts i (A.acts i ++ [a]) }

/-- The format a call gives to a column or row. -/
def gives (row : Bool) (n : Nat) (a : Act) : Option (Option Nat) := if row then (a.height n).map (·.2) else (a.column n).map (·.2)

/-- The record number `x`, with the font it names, shows the format `y` as the program asked for it, or the look of a new cell if there
    is none. -/
def FormatShown (A : Look.Asked) (R : Look.Records) (x : Nat) : Option Nat → Prop
  | none => Styles.readLook R.fonts R.xfs x = some (wantXf Styles.Spec.plain, wantFont ⟨.dflt, []⟩)
  | some q => ∃ l h, A.looks.formats q = some l ∧ fontOf A.looks l = some h ∧ Styles.readLook R.fonts R.xfs x = some (wantXf l, wantFont h) ∧
      ∀ k code, Look.codeOf l.calls = some k → A.codes[k]? = some code → NumFmt.lookup R.formats (wantXf l).format = some code

end Xls.Prog
