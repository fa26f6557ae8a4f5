import Verif.Area.Model
import Verif.Range.Loop
import Verif.Desk.Spec
import Verif.Prog.Spec
/-
What a program with operations on ranges asks for.
-/
namespace Xls.Area
open Xls.Range (Rect RangeOp keys)
open Xls.Range.Spec (rangeCalls)
open Xls.Whole Xls.Cells
open Xls.Styles.Spec (Look plain upd)

/-- What an operation on a range is for one place `k` of sheet `i`: the cell that is there, or a new blank one, gets another look.  The number is the handle
    of the next new cell. -/
def askPlace (i : Nat) (f : Key → Look → Look) (p : Nat × Look.Asked) (k : Key) : Nat × Look.Asked :=
  match lastWrite p.2.writes i k.1 k.2 with
  | some d => (p.1, { p.2 with looks := { p.2.looks with cells := upd p.2.looks.cells d.id ((p.2.looks.cells d.id).map (f k)) } })
  | none => (p.1 + 1, { p.2 with writes := p.2.writes ++ [(i, ⟨p.1, k.1, k.2, .blank⟩)]
                                 looks := { p.2.looks with cells := upd p.2.looks.cells p.1 (some (f k plain)) } })

/-- For all places of a rectangle, row by row. -/
def askRange (n i : Nat) (r : Rect) (o : RangeOp) (A : Look.Asked) : Look.Asked :=
  ((keys r).foldl (askPlace i fun k => rangeCalls A.looks.fonts r k o) (n, A)).2

def ask (s : Desk.State) (A : Prog.Asked) : Call → Prog.Asked
  | .desk (.on c) => Prog.ask s.prog A c
  | .desk _ => A
  | .range i r o => { A with look := askRange s.prog.look.styles.cells.length i r o A.look }

/-- What a program asked for; new objects have the handles they really got. -/
def asked (s : Desk.State) (A : Prog.Asked) : List Call → Prog.Asked
  | [] => A
  | c :: r => match step s c with
    | none => A
    | some t => asked t (ask s A c) r

/-- For the sheet table, the window, the used ranges, … an operation on a range is a blank cell on each of its places. -/
def frame : Call → List Desk.Call
  | .desk c => [c]
  | .range i r _ => (keys r).map fun k => blankAt i k.1 k.2

/-- What a place of a sheet holds, and how it looks. -/
def grid (A : Look.Asked) (i : Nat) (k : Key) : Option (Val × Look) :=
  (lastWrite A.writes i k.1 k.2).bind fun d => (A.looks.cells d.id).map fun l => (d.val, l)

end Xls.Area
