import Verif.Sst.Model
import Verif.Num.Model
import Verif.Formula.Model
/-
Cells of every kind on the sheets of one workbook: what the worksheet calls store (sheetrec.cpp 797-935), and the record that
each cell object makes when the workbook is saved (the `GetData` of label.cpp, number.cpp, boolean.cpp, err.cpp, blank.cpp and
formula_cell.cpp).

Simplification: a cell's format is a number given from outside (`GetXFIndex`, cell.cpp 53-61; modelled in Verif/Styles).
-/
namespace Xls.Whole
open Xls.Unit Xls.Biff Xls.Cells

/-- What the user writes into a cell, sheetrec.cpp 797-935: `blank`, `label` (as 16-bit units), `number(double)` (its bits),
    `number(signed32_t)`, `number(unsigned32_t)`, `boolean`, `error`, `formula(expression_node_t*)` and `formula(formula_t*)`
    (the bytes that the `formula_t` holds). -/
inductive Val where
  | blank
  | text (t : List UInt16)
  | double (bits : Nat)
  | signed (z : Int)
  | unsigned (n : Nat)
  | bool (b : Bool)
  | error (code : Nat)
  | expr (array : Bool) (e : Formula.Expr)
  | tokens (array : Bool) (tok : Bytes)

/-- The text of a label. -/
def Val.label : Val → Option (List UInt16)
  | .text t => some t
  | _ => none

/-- A cell object: what it holds and `ws`, the number of the sheet it was added to (cell.h 92). -/
abbrev WCell := Cell (Nat × Val)

/-- The cell as the string table sees it. -/
def toL (c : WCell) : Sst.LCell := ⟨c.id, c.row, c.col, c.val.2.label⟩

/-- `pcell->ws = this`, sheetrec.cpp 981; sheets are numbered from 0 in the order of creation, workbook.cpp 119 and 136. -/
def stamp (i : Nat) (c : Cell Val) : WCell := ⟨c.id, c.row, c.col, (i, c.val)⟩

/-- The records of a cell with format number `xf` when the string table lists `labels`; `none`: undefined behaviour in the dump
    of an expression.  label.cpp 115-129, number.cpp 103-131, boolean.cpp 59-74, err.cpp 60-75, blank.cpp 64-77,
    formula_cell.cpp 133-216; `MakeC...` in datast.cpp. -/
def cellRecords (labels : List Sst.LCell) (xf : Nat) (c : WCell) : Option (List Rec) :=
  match c.val.2 with
  | .blank => some [Num.blankRecord c.row c.col xf]
  | .text t => some [Sst.labelRec labels (toL c) t xf]
  | .double b => some [Num.numberRecord c.row c.col xf (Num.ofDouble b)]
  | .signed z => some [Num.numberRecord c.row c.col xf (Num.ofSigned z)]
  | .unsigned n => some [Num.numberRecord c.row c.col xf (Num.ofUnsigned n)]
  | .bool b => some [Num.boolRecord c.row c.col xf b]
  | .error code => some [Num.errRecord c.row c.col xf code]
  | .expr array e =>
    (Formula.dump (some c.val.1) e).map fun p => Formula.formulaRecords c.row c.col xf array (Formula.estimate e) p.1
  | .tokens array tok => some (Formula.formulaRecords c.row c.col xf array Formula.stackEstimate tok)

/-- The bytes of a cell's unit (nothing, where the code would be undefined). -/
def cellBytes (labels : List Sst.LCell) (xf : Nat) (c : WCell) : Bytes :=
  ((cellRecords labels xf c).getD []).flatMap enc

/-- `label_t::GetSize`, label.cpp 96-109. -/
def labelSize (t : List UInt16) : Nat :=
  if t.length > 255 then 4 + 8 else 4 + 6 + (2 + 1 + t.length * (if isASCII t then 1 else 2))

/-- `GetSize` of each kind of cell: blank.h 53-56, label.cpp 96-109, number.h 59, boolean.h 51-54, err.h 64,
    formula_cell.cpp 102-126; `none`: undefined behaviour. -/
def announced (c : WCell) : Option Nat :=
  match c.val.2 with
  | .blank => some Num.blankSize
  | .text t => some (labelSize t)
  | .double b => some (Num.numberSize (Num.ofDouble b))
  | .signed z => some (Num.numberSize (Num.ofSigned z))
  | .unsigned n => some (Num.numberSize (Num.ofUnsigned n))
  | .bool _ => some Num.boolSize
  | .error _ => some Num.errSize
  | .expr _ e => Formula.cellSize e
  | .tokens _ tok => some (Formula.stackSize tok)

/-- The sheets (by number) and `m_Labels`. -/
structure Book where
  sheets : Nat → Sheet (Nat × Val) := fun _ => {}
  labels : List Sst.LCell := []

/-- Writing a cell on sheet `i`: the object is created (a long label registers itself), then `AddCell` deletes the cell it
    replaces (a long label leaves the table).  sheetrec.cpp 797-935 and 937-986, label.cpp 79-94. -/
def Book.put (b : Book) (i : Nat) (c : Cell Val) : Option Book :=
  ((b.sheets i).addCell (stamp i c)).map fun (s, dead) =>
    { sheets := fun j => if j = i then s else b.sheets j
      labels := dead.foldl (fun l d => Sst.deleteLabel l (toL d)) (Sst.addLabel b.labels (toL (stamp i c))) }

/-- A comment on sheet `i`: `AddNote`, sheetrec.cpp 881-897 and 988-1033. -/
def Book.note (b : Book) (i : Nat) (c : Cell Val) : Option Book :=
  ((b.sheets i).addNote (stamp i c)).map fun (s, _) => { b with sheets := fun j => if j = i then s else b.sheets j }

/-- The cell objects that exist. -/
def Book.Live (b : Book) (id : Nat) : Prop := ∃ i, ∃ c ∈ (b.sheets i).cells, c.id = id

/-- The books reached by a history of cell writes (and comments in between); a new object never has the address of a cell that
    still exists. -/
inductive Reach : List (Nat × Cell Val) → Book → Prop
  | start : Reach [] {}
  | put {h : List (Nat × Cell Val)} {b b' : Book} {i : Nat} {c : Cell Val} :
      Reach h b → ¬ b.Live c.id → b.put i c = some b' → Reach (h ++ [(i, c)]) b'
  | note {h : List (Nat × Cell Val)} {b b' : Book} {i : Nat} {c : Cell Val} :
      Reach h b → b.note i c = some b' → Reach h b'

end Xls.Whole
