import Verif.Again.Model
import Verif.Desk.Props
/-
What calls and saves in any order ask for.
-/
namespace Xls.Again
open Xls.Biff
open Xls.Desk (Call names)

def Event.call? : Event → Option Call
  | .call c => some c
  | .save .. => none

/-- The calls, without the saves. -/
def calls (evs : List Event) : List Call := evs.filterMap Event.call?

/-- For each save that can write: the calls made before it (a workbook without sheets, or a file that cannot be opened, is not written). -/
def saves (before : List Call) : List Event → List (List Call)
  | [] => []
  | .call c :: r => saves (before ++ [c]) r
  | .save opens _ :: r => if opens = true ∧ names before ≠ [] then before :: saves before r else saves before r

/-- The calls before a save are within the conditions of C65. -/
structure Within (p0 : Prog.State) (calls : List Call) : Prop where
  modest : Prog.Modest (Prog.asked p0 Prog.nothing (calls.filterMap Call.inner))
  formats : ∀ d, Desk.steps (Desk.start p0) calls = some d → d.prog.look.styles.xfs.length ≤ 65536

end Xls.Again
