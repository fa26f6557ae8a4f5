import Verif.Rows.Model
/-
What the records of the row blocks say, for C17 and C18.
-/
namespace Xls.Rows
open Xls.Cells

variable {α : Type}

/-- The cells among the records. -/
def cellsIn : List (Ev α) → List (Cell α)
  | [] => []
  | .cell c :: r => c :: cellsIn r
  | _ :: r => cellsIn r

/-- The ROW records among the records: number, first column, last column, height setting. -/
def rowsIn : List (Ev α) → List (Nat × Nat × Nat × Option RowHeight)
  | [] => []
  | .row n f l h :: r => (n, f, l, h) :: rowsIn r
  | _ :: r => rowsIn r

/-- The row blocks: the records before each DBCELL record, and the distance which that gives; `none` if
    something follows the last one. -/
def blocksIn : List (Ev α) → List (Ev α) → Option (List (List (Ev α) × Nat))
  | [], [] => some []
  | _ :: _, [] => none
  | acc, .dbcell start _ :: r => (blocksIn [] r).map ((acc.reverse, start) :: ·)
  | acc, e :: r => blocksIn (e :: acc) r

/-- The rows that need a ROW record, in order: those with cells, and those with a height setting that lie
    before the last row with cells. -/
structure RowList (cells : List (Cell α)) (heights : List RowHeight) (R : List Nat) : Prop where
  incr : R.Pairwise (· < ·)
  mem : ∀ n, n ∈ R ↔ (∃ c ∈ cells, c.row = n) ∨ ((∃ h ∈ heights, h.row = n) ∧ ∃ c ∈ cells, n < c.row)

/-- How many cells lie below row `n`. -/
def after (cells : List (Cell α)) (n : Nat) : Nat := (cells.filter (fun c => decide (n < c.row))).length

/-- No group of 16 rows (counted from the first row on) consists of rows without cells while two or more
    cells are still to come. -/
def NoStall (cells : List (Cell α)) (R : List Nat) : Prop :=
  ∀ k n, R[16 * k + 15]? = some n → (∃ c ∈ cells, c.row ∈ (R.drop (16 * k)).take 16) ∨ after cells n ≤ 1

/-- No group of 16 rows is followed by exactly one cell. -/
def NoLone (cells : List (Cell α)) (R : List Nat) : Prop :=
  ∀ k n, R[16 * k + 15]? = some n → after cells n ≠ 1

end Xls.Rows
