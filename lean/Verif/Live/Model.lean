import Verif.Area.Model
import Verif.Formula.Stack
/-
Formulas that are built call by call and can still change: `worksheet::formula_data` makes an object (sheetrec.cpp 789-795) that belongs to the sheet;
cells (formula_cell.h, `stack`) and validations (sheetrec.h 185-186, `cond1` and `cond2`) hold pointers to it, and its bytes are taken when the
workbook is saved.

Everything else is as in Verif/Area/Model.lean.  `Whole.Val` and `Sheet.DVal` have no pointers: a pointer to formula number `h` is represented by `h` zero
bytes, until the workbook is saved.
-/
namespace Xls.Live
open Xls.Biff Xls.Whole
open Xls.Page (Act)
open Xls.Sheet (DVal)

/-- The workbook, whose cells and validations hold pointers; and the formula objects: the sheet that each was made for, and its data. -/
structure State where
  desk : Desk.State
  formulas : List (Nat × Formula.Stack)

inductive Call
  /-- any other call; it mentions no formula object -/
  | other (c : Area.Call)
  /-- `worksheet::formula_data`, sheetrec.cpp 789-795 -/
  | make (i : Nat)
  /-- a call on a formula object, formula.h 71-86 -/
  | push (h : Nat) (c : Formula.Call)
  /-- `worksheet::formula` with a formula object, sheetrec.cpp 922-928 -/
  | cell (i row col : Nat) (array : Bool) (h : Nat) (q : Option Nat)
  /-- `worksheet::validate`, sheetrec.cpp 1372-1408; the conditions are `c1` and `c2`, and not those of `v` -/
  | validate (i : Nat) (v : DVal) (c1 c2 : Option Nat)

/-- A pointer. -/
def ptr (h : Nat) : Bytes := List.replicate h 0

/-- `dv->cond1 = cond1`, sheetrec.cpp 1381-1382. -/
def point (v : DVal) (c1 c2 : Option Nat) : DVal := { v with cond1 := c1.map fun h => (0, ptr h), cond2 := c2.map fun h => (0, ptr h) }

/-- A call that mentions no formula object. -/
def bare : Area.Call → Bool
  | .desk (.on (.look (.put _ _ _ (.tokens ..) _))) => false
  | .desk (.on (.page _ (.call (.validate v)))) => v.cond1.isNone && v.cond2.isNone
  | _ => true

/-- One call; `none` if a program cannot make it, because it names a sheet or formula that was not made.  sheetrec.cpp 789-795, 922-928, 1372-1408 -/
def step (s : State) : Call → Option State
  | .other c => if bare c then (Area.step s.desk c).map fun d => { s with desk := d } else none
  | .make i => if i < s.desk.wb.sheets.length then some { s with formulas := s.formulas ++ [(i, {})] } else none
  | .push h c => (s.formulas[h]?).map fun f => { s with formulas := s.formulas.set h (f.1, (f.2.push (some f.1) c).1) }
  | .cell i row col a h q =>
    if h < s.formulas.length then
      (Area.step s.desk (.desk (.on (.look (.put i row col (.tokens a (ptr h)) q))))).map fun d => { s with desk := d }
    else none
  | .validate i v c1 c2 =>
    if (c1.all (· < s.formulas.length) && c2.all (· < s.formulas.length)) then
      (Area.step s.desk (.desk (.on (.page i (.call (.validate (point v c1 c2))))))).map fun d => { s with desk := d }
    else none

def steps (s : State) : List Call → Option State
  | [] => some s
  | c :: r => (step s c).bind fun s => steps s r

/-- A new workbook, workbook.cpp 60-85. -/
def init : Option State := Desk.init.map fun d => ⟨d, []⟩

/-! ### Saving -/

/-- What a pointer leads to: `formula_t::DumpData`, formula.cpp 323-327. -/
def deref (F : List (Nat × Formula.Stack)) (p : Bytes) : Bytes := ((F[p.length]?).map (·.2.bytes)).getD []

/-- A cell: `formula_cell_t::DumpData`, formula_cell.cpp 134-144. -/
def valOf (F : List (Nat × Formula.Stack)) : Val → Val
  | .tokens a p => .tokens a (deref F p)
  | v => v

/-- A condition: `GetSize` and `DumpData`, sheetrec.cpp 1464-1466 and 1474-1476, formula.cpp 323-332. -/
def condOf (F : List (Nat × Formula.Stack)) (c : Option (Nat × Bytes)) : Option (Nat × Bytes) :=
  c.map fun x => ((deref F x.2).length, deref F x.2)

/-- A validation, sheetrec.cpp 1448-1485. -/
def actOf (F : List (Nat × Formula.Stack)) : Act → Act
  | .call (.validate v) => .call (.validate { v with cond1 := condOf F v.cond1, cond2 := condOf F v.cond2 })
  | a => a

/-- A sheet with what its cells point to. -/
def sheetOf (f : Val → Val) (s : Cells.Sheet (Nat × Val)) : Cells.Sheet (Nat × Val) :=
  { s with cells := s.cells.map fun c => ⟨c.id, c.row, c.col, (c.val.1, f c.val.2)⟩
           notes := s.notes.map fun c => ⟨c.id, c.row, c.col, (c.val.1, f c.val.2)⟩ }

/-- The workbook with what cells and validations point to. -/
def resolve (f : Val → Val) (g : Act → Act) (s : Desk.State) : Desk.State :=
  { s with prog := { s.prog with
      look := { s.prog.look with book := { s.prog.look.book with sheets := fun i => sheetOf f (s.prog.look.book.sheets i) } }
      acts := fun i => (s.prog.acts i).map g } }

/-- What is handed to the compound file (Verif/Desk/Model.lean): while saving, the pointers of cells and validations are followed. -/
def units (cs : WCell → Nat) (fuel : Nat) (s : State) : Option (List Bytes) :=
  Desk.units cs fuel (resolve (valOf s.formulas) (actOf s.formulas) s.desk)

end Xls.Live
