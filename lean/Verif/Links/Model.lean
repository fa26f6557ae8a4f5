import Verif.Formula.Model
/-
The nodes that refer to cells are made from cell objects (formula_expr.cpp 307-376); the index of a cell's sheet is taken then.
-/
namespace Xls.Links
open Xls.Formula

/-- What a node takes from a cell object: `GetRow`, `GetCol`, and `GetWorksheet()->GetIndex()` if the cell is on a sheet. -/
structure At where
  row : Nat
  col : Nat
  sheet : Option Nat
deriving Repr, DecidableEq

/-- `cell_deref_node_t`, formula_expr.cpp 307-316. -/
def refNode (c : At) (mode cls : Nat) : Expr := .ref c.row c.col c.sheet mode cls

/-- `cellarea_deref_node_t`, formula_expr.cpp 358-365; the sheet of the second cell is kept in `lridx_`, and `PushAreaReference` does
    nothing with it (formula.cpp 188). -/
def areaNode (c d : At) (mode cls : Nat) : Expr := .area c.row c.col c.sheet d.row d.col mode cls

end Xls.Links
