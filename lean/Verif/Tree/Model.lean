import Verif.Formula.Model
/-
Formulas as the caller builds them: expression objects that point at each other, the cells they are given to, and when they are destroyed.
A handle is the position of an object among those made; a run of the library that touches a destroyed object, destroys one twice or never returns is `none`.
-/
namespace Xls.Tree
open Xls.Biff Xls.Formula

/-- What the calls of `expression_node_factory_t` make, formula_expr.cpp 1043-1132: the node classes of formula_expr.h 66-345 with
    pointers to the arguments.  `func true` is `n_ary_func_node_t`, `func false` the classes for none, one and two arguments. -/
inductive Made where
  | bool (b : Bool)
  | int (z : Int)
  | num (bits : Nat)
  | err (code : Nat)
  | missing
  | text (s : List UInt16)
  | ref (row col : Nat) (sheet : Option Nat) (mode cls : Nat)
  | area (row col : Nat) (sheet : Option Nat) (lrow lcol : Nat) (mode cls : Nat)
  | un (op : Nat) (a : Nat)
  | bin (op : Nat) (a b : Nat)
  | func (nary : Bool) (code cls : Nat) (args : List Nat)
deriving DecidableEq, Repr

/-- `GetNumberOfChilds` and `GetChild`, formula_expr.cpp 59-68, 452-463, 538-549, 884-893, 906-914, 944-952. -/
def Made.kids : Made → List Nat
  | .un _ a => [a]
  | .bin _ a b => [a, b]
  | .func _ _ _ args => args
  | _ => []

/-- An object: with `arg_arrsize` of `n_ary_func_node_t` (formula_expr.h 347). -/
structure Obj where
  made : Made
  room : Nat := 0
deriving DecidableEq, Repr

/-- The expression objects: `none` for one that was destroyed.  `log`: the objects destroyed, in order.
    (An address used again for a new object is not modelled: the new object has a handle of its own.) -/
structure Heap where
  objs : List (Option Obj) := []
  log : List Nat := []
deriving DecidableEq, Repr

/-- Following a pointer; `none`: the object is gone. -/
def Heap.live (H : Heap) (n : Nat) : Option Obj := H.objs[n]?.join

/-- `delete this`, formula_expr.cpp 85; `none`: deleted for the second time. -/
def Heap.delete (H : Heap) (n : Nat) : Option Heap := (H.live n).map fun _ => ⟨H.objs.set n none, H.log ++ [n]⟩

/-- `expression_node_t::DestroyAST`, formula_expr.cpp 70-86: the children from the last to the first, then the object itself.
    The number says how many calls the stack has room for. -/
def destroy : Nat → Heap → Nat → Option Heap
  | 0, _, _ => none
  | k + 1, H, n => (H.live n).bind fun o => (o.made.kids.reverse.foldlM (destroy k) H).bind fun H' => H'.delete n

/-- What the constructors make: the operators are checked (formula_expr.cpp 429-446, 504-532; `none`: it throws), and the number
    of arguments of `n_ary_func_node_t` is cut to 16 bits (formula_expr.cpp 916-935). -/
def construct : Made → Option Obj
  | .un op a => if op ∈ [0x12, 0x13, 0x14, 0x15] then some ⟨.un op a, 0⟩ else none
  | .bin op a b =>
    if op ∈ [3, 5, 4, 6, 7, 8, 0xA, 9, 0xB, 0xC, 0xD, 0xE, 0xF, 0x10, 0x11] then some ⟨.bin op a b, 0⟩ else none
  | .func true code cls args => some ⟨.func true code cls (args.take (args.length % 65536)), args.length % 65536⟩
  | m => some ⟨m, 0⟩

/-- The array of `PushArg` made larger, formula_expr.cpp 956-969: by two, until there is room.  The size is a 16-bit number:
    past 65535 it begins again at 0 or 1, no size that it takes is enough, and the loop does not end: `none`. -/
def grow (count room : Nat) : Option Nat :=
  if count < room then some room
  else if room + 2 * ((count - room) / 2 + 1) < 65536 then some (room + 2 * ((count - room) / 2 + 1)) else none

/-- `n_ary_func_node_t::PushArg`, formula_expr.cpp 954-974. -/
def push (H : Heap) (h k : Nat) : Option Heap :=
  (H.live h).bind fun o => match o.made with
    | .func true code cls args =>
      (grow args.length o.room).map fun room => { H with objs := H.objs.set h (some ⟨.func true code cls (args ++ [k]), room⟩) }
    | _ => none

/-- `GetResultEstimate` of each node class looks at the node alone (as in `Formula.estimate`): formula_expr.cpp 129-132, 157-160,
    187-190, 214-217, 240-243, 290-293, 335-344, 395-404, 416-427, 616-815. -/
def Made.estimate : Made → Estimate
  | .bool b => ⟨.bool b, false, false⟩
  | .int z => ⟨.int z, false, false⟩
  | .num b => ⟨.dbl b, false, false⟩
  | .err c => ⟨.err c, false, false⟩
  | .missing => ⟨.err 0x2A, false, false⟩
  | .text s => ⟨.str s, false, false⟩
  | .ref .. | .area .. | .un .. | .bin .. => ⟨.err 0x0F, false, true⟩
  | .func _ code _ _ => funcEstimate code

/-- The tokens each node class adds after those of its children: formula_expr.cpp 140-143, 171-174, 198-201, 225-228, 251-254,
    301-304, 352-355, 389-393, 476-502, 564-602, 854-862.  `none`: `1U << chcnt` with more than 31 arguments. -/
def Made.token (own : Option Nat) : Made → Option Push
  | .bool b => some (leN 1 0x1D ++ leN 1 (if b then 1 else 0), false)
  | .int z => some (pushInt z, false)
  | .num b => some (leN 1 0x1F ++ leN 8 b, false)
  | .err c => some (leN 1 0x1C ++ leN 1 c, false)
  | .missing => some (leN 1 0x16, false)
  | .text s => some (pushText s, false)
  | .ref r c sh m k => some (pushRef own r c sh m k, false)
  | .area r c sh lr lc m k => some (pushArea own r c sh lr lc m k, false)
  | .un op _ => some (leN 1 op, false)
  | .bin op _ _ => some (leN 1 op, false)
  | .func _ code cls args =>
    (varBranch code args.length).map fun v => if v then pushFuncVar code args.length cls else pushFunc code cls

/-- The tokens of the children, one after the other. -/
def joined : List (Option Push) → Option Push
  | [] => some ([], false)
  | d :: r => d.bind fun x => (joined r).map fun y => x.then y

/-- `DumpData` with `include_subtree` of each node class: the children from the first to the last, then the node's own tokens;
    formula_expr.cpp 476-484, 564-574, 839-852.  The outer `none`: an object that is gone was read, or there is no end to it. -/
def dumpH (own : Option Nat) : Nat → Heap → Nat → Option (Option Push)
  | 0, _, _ => none
  | k + 1, H, n => (H.live n).bind fun o => (o.made.kids.mapM (dumpH own k H)).map fun ds =>
      (joined ds).bind fun x => (o.made.token own).map fun y => x.then y

/-- Sheet, row and column. -/
abbrev Place := Nat × Nat × Nat

/-- A `formula_cell_t` made from an expression, formula_cell.h 50-70; `xf` stands for its format. -/
structure Cell where
  place : Place
  root : Nat
  array : Bool := false
  auto : Bool := false
  xf : Nat := 15
deriving DecidableEq, Repr

/-- `CFormula` for the cell, formula_cell.cpp 92-99, 133-216: the estimate of the root, then the dump of the tree. -/
def cellH (k : Nat) (H : Heap) (c : Cell) : Option (Option Bytes) :=
  (H.live c.root).bind fun o => (dumpH (some c.place.1) k H c.root).map fun d =>
    d.map fun p => formulaUnit c.place.2.1 c.place.2.2 c.xf c.array o.made.estimate p.1

/-- The order in which the cells are stored: sheet by sheet, by row and column (`insertsort`, cell.h 136-149). -/
def before (a b : Place) : Bool :=
  decide (a.1 < b.1 ∨ (a.1 = b.1 ∧ (a.2.1 < b.2.1 ∨ (a.2.1 = b.2.1 ∧ a.2.2 < b.2.2))))

/-- Insertion into the ordered set of cells; there is no cell at this place. -/
def insertCell (c : Cell) : List Cell → List Cell
  | [] => [c]
  | d :: r => if before c.place d.place then c :: d :: r else d :: insertCell c r

/-- `files`: what the saves so far wrote for the formula cells. -/
structure St where
  heap : Heap := {}
  cells : List Cell := []
  files : List (List (Place × Option Bytes)) := []
deriving DecidableEq, Repr

inductive Call where
  | make (m : Made)
  | push (h k : Nat)
  | formula (c : Cell)
  /-- any other cell written at this place -/
  | other (pl : Place)
  /-- the caller destroys an expression: `DestroyAST` is public, formula_expr.h 60 -/
  | drop (n : Nat)
  | save
deriving DecidableEq, Repr

/-- `worksheet::AddCell`, sheetrec.cpp 937-985, as for the cells before: the cell found at the place is erased and deleted, and
    `~formula_cell_t` (formula_cell.cpp 86-91) destroys its expression if it is to. -/
def vacate (k : Nat) (s : St) (pl : Place) : Option St :=
  match s.cells.find? (fun c => c.place = pl) with
  | none => some s
  | some c =>
    let s' := { s with cells := s.cells.filter fun c => c.place ≠ pl }
    if c.auto then (destroy k s.heap c.root).map fun H => { s' with heap := H } else some s'

/-- The calls, on a stack with room for `k` nested calls: the factory's (formula_expr.cpp 1043-1132), `PushArg`,
    `worksheet::formula` (sheetrec.cpp 899-920), the other calls that write a cell, `DestroyAST`, and the saving of the sheets,
    which for each cell makes its record (sheetrec.cpp 703-708). -/
def step (k : Nat) (s : St) : Call → Option St
  | .make m => match construct m with
    | some o => some { s with heap := { s.heap with objs := s.heap.objs ++ [some o] } }
    | none => some s
  | .push h c => (push s.heap h c).map fun H => { s with heap := H }
  | .formula c => (vacate k s c.place).map fun s => { s with cells := insertCell c s.cells }
  | .other pl => vacate k s pl
  | .drop n => (destroy k s.heap n).map fun H => { s with heap := H }
  | .save => (s.cells.mapM fun c => (cellH k s.heap c).map fun u => (c.place, u)).map fun f =>
      { s with files := s.files ++ [f] }

def run (k : Nat) (p : List Call) : Option St := p.foldlM (step k) {}

/-- `~workbook` deletes the sheets in order (workbook.cpp 87-94), and `~worksheet` the cells in order (sheetrec.cpp 126-135). -/
def finish (k : Nat) (s : St) : Option Heap :=
  ((s.cells.filter (·.auto)).map (·.root)).foldlM (destroy k) s.heap

end Xls.Tree
