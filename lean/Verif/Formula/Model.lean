import Verif.Num.Model
import Verif.Unit.Props
import Verif.Formula.Table
/-
Formulas: the expression tree (formula_expr.cpp), the token string it is turned into (formula.cpp), the cached result
(formula_estimate.cpp) and the formula cell (formula_cell.cpp).

An expression is a finite tree of nodes as the factory (`expression_node_factory_t`) makes them; children are never NULL.  An
operator node made with a code outside the constructor's `switch` throws and does not exist (`mkUn`, `mkBin`).  Argument counts are
those of lists; the code keeps them in 16 bits, so lists of 65536 or more arguments are outside the model.
-/
namespace Xls.Formula
open Xls.Biff Xls.Unit Xls.Num

/-- `expression_node_t` and its classes, formula_expr.h 47-368.  A cell reference keeps row, column and the index of
    the sheet of the cell it was made from, if the cell is on one (formula_expr.cpp 307-316, 358-364). -/
inductive Expr where
  | bool (b : Bool)
  | int (z : Int)
  | num (bits : Nat)
  | err (code : Nat)
  | missing
  | text (s : List UInt16)
  | ref (row col : Nat) (sheet : Option Nat) (mode cls : Nat)
  | area (row col : Nat) (sheet : Option Nat) (lrow lcol : Nat) (mode cls : Nat)
  | un (op : Nat) (a : Expr)
  | bin (op : Nat) (a b : Expr)
  | func (code cls : Nat) (args : List Expr)
deriving Repr

/-- `unary_op_node_t`'s constructor, formula_expr.cpp 429-446; `none`: it throws.  OP_UPLUS 0x12 … OP_PAREN 0x15. -/
def mkUn (op : Nat) (a : Expr) : Option Expr := if op ∈ [0x12, 0x13, 0x14, 0x15] then some (.un op a) else none

/-- `binary_op_node_t`'s constructor, formula_expr.cpp 504-532.  OP_ADD 3 … OP_RANGE 0x11. -/
def mkBin (op : Nat) (a b : Expr) : Option Expr :=
  if op ∈ [3, 5, 4, 6, 7, 8, 0xA, 9, 0xB, 0xC, 0xD, 0xE, 0xF, 0x10, 0x11] then some (.bin op a b) else none

/-- `A_UNKNOWN`, formula_const.h 191. -/
def anyCount : Nat := 0x7FFFFFFF

/-- `PropertyForForExcelFunction`, formula.cpp 912-919, and `NumberOfArgsForExcelFunction`, 906-910. -/
def funcProp (code : Nat) : Nat × Nat :=
  match funcTable[code]? with
  | some p => p
  | none => (0x40, anyCount)

/-- The bytes appended by a push, and whether it reported an error. -/
abbrev Push := Bytes × Bool

/-- `PushInteger`, formula.cpp 104-117.  OP_INT 0x1E, OP_NUM 0x1F. -/
def pushInt (z : Int) : Bytes :=
  if 0 ≤ z ∧ z ≤ 65535 then leN 1 0x1E ++ leN 2 (u16OfInt z) else leN 1 0x1F ++ leN 8 (dblOfInt z)

/-- The opcode byte `(op & ~CELLOP_AS_ARRAY) | op_class`; CELLOP_AS_ARRAY is 0x60. -/
def classed (op cls : Nat) : Bytes := leN 1 ((op &&& 0x9F) ||| cls)

/-- `PushReference`, formula.cpp 148-171, in a formula on sheet `own` (`none`: `m_Worksheet` is NULL).
    OP_REF 0x24, OP_REF3D 0x3A. -/
def pushRef (own : Option Nat) (row col : Nat) (sheet : Option Nat) (mode cls : Nat) : Bytes :=
  if own = none ∨ sheet = none ∨ sheet = own then
    classed 0x24 cls ++ leN 2 row ++ leN 2 ((col &&& 0x3FFF) ||| (mode &&& 0xC000))
  else
    classed 0x3A cls ++ leN 2 (sheet.getD 0) ++ leN 2 row ++ leN 2 ((col &&& 0xFF) ||| (mode &&& 0xC000))

/-- `PushAreaReference`, formula.cpp 185-216.  OP_AREA 0x25, OP_AREA3D 0x3B. -/
def pushArea (own : Option Nat) (row col : Nat) (sheet : Option Nat) (lrow lcol mode cls : Nat) : Bytes :=
  if own = none ∨ sheet = none ∨ sheet = own then
    classed 0x25 cls ++ leN 2 row ++ leN 2 lrow ++ leN 2 ((col &&& 0x3FFF) ||| (mode &&& 0xC000)) ++
      leN 2 ((lcol &&& 0x3FFF) ||| (mode &&& 0xC000))
  else
    classed 0x3B cls ++ leN 2 (sheet.getD 0) ++ leN 2 row ++ leN 2 lrow ++ leN 2 ((col &&& 0xFF) ||| (mode &&& 0xC000)) ++
      leN 2 ((lcol &&& 0xFF) ||| (mode &&& 0xC000))

/-- `op_class == CELL_DEFAULT ? func_prop.op_class : op_class`, formula.cpp 221 and 238. -/
def funcClass (code cls : Nat) : Nat := if cls = 0 then (funcProp code).1 else cls

/-- `PushFunction(func, op_class)`, formula.cpp 218-233.  OP_FUNC 0x21; A_0 … A_5 are 1, 2, 4, …, 32. -/
def pushFunc (code cls : Nat) : Push :=
  if (funcProp code).2 ∈ [1, 2, 4, 8, 16, 32, anyCount] then (classed 0x21 (funcClass code cls) ++ leN 2 code, false)
  else ([], true)

/-- `PushFunction(func, argcount, op_class)`, formula.cpp 235-251.  OP_FUNCVAR 0x22. -/
def pushFuncVar (code n cls : Nat) : Push :=
  if (funcProp code).2 = anyCount ∨ (n ≤ 30 ∧ (funcProp code).2 &&& 2 ^ n ≠ 0) then
    (classed 0x22 (funcClass code cls) ++ leN 1 (n % 256 &&& 0x7F) ++ leN 2 (code &&& 0x7FFF), false)
  else ([], true)

/-- `PushTextStr16`, formula.cpp 267-275.  OP_STR 0x17. -/
def pushText (s : List UInt16) : Bytes := leN 1 0x17 ++ strBytes s .len1

/-- Two pushes one after the other; `errcode |= …`. -/
def Push.then (a b : Push) : Push := (a.1 ++ b.1, a.2 || b.2)

/-- Whether `function_basenode_t::DumpData` and `GetSize` take the branch for a variable number of arguments
    (formula_expr.cpp 820-828, 842-856); `none`: `1U << chcnt` is undefined. -/
def varBranch (code n : Nat) : Option Bool :=
  if (funcProp code).2 = anyCount then some true
  else if n < 32 then some ((funcProp code).2 &&& (0xFFFFFFFF ^^^ 2 ^ n) != 0) else none

mutual
/-- `DumpData(stack, true)` of each node class, formula_expr.cpp 140-144, 171-175, 198-202, 225-229, 251-255, 301-305,
    352-356, 389-393, 476-499, 564-600, 839-863.  `none`: undefined behaviour. -/
def dump (own : Option Nat) : Expr → Option Push
  | .bool b => some (leN 1 0x1D ++ leN 1 (if b then 1 else 0), false)
  | .int z => some (pushInt z, false)
  | .num b => some (leN 1 0x1F ++ leN 8 b, false)
  | .err c => some (leN 1 0x1C ++ leN 1 c, false)
  | .missing => some (leN 1 0x16, false)
  | .text s => some (pushText s, false)
  | .ref r c sh m k => some (pushRef own r c sh m k, false)
  | .area r c sh lr lc m k => some (pushArea own r c sh lr lc m k, false)
  | .un op a => (dump own a).map fun x => x.then (leN 1 op, false)
  | .bin op a b => (dump own a).bind fun x => (dump own b).map fun y => (x.then y).then (leN 1 op, false)
  | .func code cls args =>
    (dumpArgs own args).bind fun x =>
      (varBranch code args.length).map fun v =>
        x.then (if v then pushFuncVar code args.length cls else pushFunc code cls)
/-- The loop over the children, formula_expr.cpp 845-852. -/
def dumpArgs (own : Option Nat) : List Expr → Option Push
  | [] => some ([], false)
  | a :: r => (dump own a).bind fun x => (dumpArgs own r).map fun y => x.then y
end

mutual
/-- `GetSize(true)` of each node class: the bytes expected for the whole subtree, formula_expr.cpp 134-138, 162-169,
    192-196, 219-223, 245-249, 295-299, 346-350, 382-387, 465-474, 551-562, 818-837. -/
def fullSize : Expr → Option Nat
  | .un _ a => (fullSize a).map fun x => 1 + x
  | .bin _ a b => (fullSize a).bind fun x => (fullSize b).map fun y => 1 + x + y
  | .func code _ args =>
    (fullSizes args).bind fun x => (varBranch code args.length).map fun v => 3 + (if v then 1 else 0) + x
  | e => rootSize e
def fullSizes : List Expr → Option Nat
  | [] => some 0
  | a :: r => (fullSize a).bind fun x => (fullSizes r).map fun y => x + y
/-- `GetSize()`, that is with `include_subtree` false (formula_expr.h 57): the bytes of the node itself. -/
def rootSize : Expr → Option Nat
  | .bool _ => some 2
  | .int z => some (if 0 ≤ z ∧ z ≤ 65535 then 3 else 9)
  | .num _ => some 9
  | .err _ => some 2
  | .missing => some 1
  | .text s => some (1 + 1 + (if isASCII s then s.length else 0) + s.length)
  | .ref .. => some 5
  | .area .. => some 9
  | .un .. => some 1
  | .bin .. => some 1
  | .func code _ args => (varBranch code args.length).map fun v => 3 + (if v then 1 else 0)
end

/-- `estimated_formula_result_t`: the value and its kind, formula_estimate.h 41-94.  `unknown` is the state after
    construction. -/
inductive Est where
  | unknown
  | bool (b : Bool)
  | int (z : Int)
  | dbl (bits : Nat)
  | str (s : List UInt16)
  | err (code : Nat)
deriving Repr, DecidableEq

/-- The estimate with its two flags. -/
structure Estimate where
  val : Est
  always : Bool
  onLoad : Bool
deriving Repr, DecidableEq

/-- `GetEncodedValue`, formula_estimate.cpp 158-190; an unknown value falls through to the boolean case with the
    zeroed union (72). -/
def Est.encode : Est → Nat
  | .unknown => 0xFFFF000000000001
  | .bool b => 0xFFFF000000000001 ||| ((if b then 1 else 0) * 2 ^ 16)
  | .int z => dblOfInt z
  | .dbl b => b
  | .str _ => 0xFFFF000000000000
  | .err c => 0xFFFF000000000002 ||| (c * 2 ^ 16 % 2 ^ 32)

/-- `GetOptionFlags`, formula_estimate.cpp 107-110. -/
def Estimate.flags (e : Estimate) : Nat := (if e.onLoad then 2 else 0) ||| (if e.always then 1 else 0)

/-- The function codes of the `case` labels of `function_basenode_t::GetResultEstimate`, formula_expr.cpp 617-816 (their
    numbers from formula_const.h 195-744); FUNC_UDF (255) falls through to the first group. -/
def boolFuncs : List Nat := [255, 1, 2, 3, 34, 35, 36, 37, 38, 105, 126, 127, 128, 129, 130, 131, 190, 198, 350, 375]
def intFuncs : List Nat := [0, 8, 9, 40, 67, 68, 69, 70, 71, 72, 73, 169, 199, 346, 347, 465, 481]
def dblFuncs : List Nat :=
  [4, 5, 6, 7, 12, 15, 16, 17, 18, 20, 21, 22, 23, 24, 27, 39, 41, 42, 43, 44, 45, 46, 47, 65, 66, 97, 98, 99, 109, 183, 184, 193,
   194, 195, 212, 213, 220, 227, 228, 229, 230, 231, 232, 233, 234, 285, 322, 323, 337, 342, 343, 345, 361, 362, 363, 364, 365, 366,
   367, 414, 423, 424, 471, 472, 473, 482, 483, 484]
def strFuncs : List Nat :=
  [112, 113, 115, 116, 118, 119, 336, 352, 353, 354, 359, 360, 368, 384, 385, 386, 387, 388, 389, 390, 391, 392, 393, 394, 395]
def volatileFuncs : List Nat := [74, 221, 63, 237, 464]
def volatileRefs : List Nat := [78, 148]

/-- `function_basenode_t::GetResultEstimate`, formula_expr.cpp 617-816.  42.0, 0.5 and 3.1415 as bit patterns. -/
def funcEstimate (code : Nat) : Estimate :=
  if code ∈ boolFuncs then ⟨.bool false, false, true⟩
  else if code ∈ intFuncs then ⟨.int 42, false, true⟩
  else if code = 19 then ⟨.dbl 0x400921CAC083126F, false, true⟩
  else if code ∈ dblFuncs then ⟨.dbl 0x4045000000000000, false, true⟩
  else if code ∈ strFuncs then ⟨.str [63, 63, 63], false, true⟩
  else if code ∈ volatileFuncs then ⟨.dbl 0x3FE0000000000000, true, true⟩
  else if code ∈ volatileRefs then ⟨.int 42, true, true⟩
  else if code = 125 then ⟨.str [63, 63, 63], true, true⟩
  else ⟨.err 0x0F, false, true⟩

/-- `GetResultEstimate` of each node class: formula_expr.cpp 129-132, 157-160, 187-190, 214-217, 240-243, 290-293, 335-344,
    395-404, 416-427.  XLERR_VALUE is 0x0F, XLERR_N_A is 0x2A. -/
def estimate : Expr → Estimate
  | .bool b => ⟨.bool b, false, false⟩
  | .int z => ⟨.int z, false, false⟩
  | .num b => ⟨.dbl b, false, false⟩
  | .err c => ⟨.err c, false, false⟩
  | .missing => ⟨.err 0x2A, false, false⟩
  | .text s => ⟨.str s, false, false⟩
  | .ref .. => ⟨.err 0x0F, false, true⟩
  | .area .. => ⟨.err 0x0F, false, true⟩
  | .un .. => ⟨.err 0x0F, false, true⟩
  | .bin .. => ⟨.err 0x0F, false, true⟩
  | .func code _ _ => funcEstimate code

/-- The parsed expression of a formula with its length field, formula_cell.cpp 190-196: the length is cut to 16 bits. -/
def rgce (tokens : Bytes) : Bytes := leN 2 tokens.length ++ tokens

/-- The fields before the parsed expression, formula_cell.cpp 156-166. -/
def formulaHead (row col xf : Nat) (e : Estimate) : Bytes :=
  cellHead row col xf ++ leN 8 e.val.encode ++ leN 2 e.flags ++ leN 4 0

/-- The STRING record (0x207) for a text result, formula_cell.cpp 204-215. -/
def strRecords : Est → List (Nat × Bytes)
  | .str s => [(0x207, strBytes s .len2)]
  | _ => []

/-- `CFormula::CFormula`, formula_cell.cpp 151-216: the records in the unit.  RECTYPE_ARRAY 0x221. -/
def formulaRecords (row col xf : Nat) (array : Bool) (e : Estimate) (tokens : Bytes) : List (Nat × Bytes) :=
  (if array then
    [(0x06, formulaHead row col xf e ++ rgce (leN 1 1 ++ leN 2 row ++ leN 2 col)),
     (0x221, leN 2 row ++ leN 2 row ++ leN 1 col ++ leN 1 col ++ leN 2 e.flags ++ leN 4 0 ++ rgce tokens)]
   else [(0x06, formulaHead row col xf e ++ rgce tokens)]) ++ strRecords e.val

/-- The bytes of the unit. -/
def formulaUnit (row col xf : Nat) (array : Bool) (e : Estimate) (tokens : Bytes) : Bytes :=
  (formulaRecords row col xf array e tokens).flatMap enc

/-- The bytes of the unit for an expression cell: the error reported while dumping is ignored (formula_cell.cpp 133-145). -/
def cellUnit (own : Option Nat) (row col xf : Nat) (array : Bool) (e : Expr) : Option Bytes :=
  (dump own e).map fun p => formulaUnit row col xf array (estimate e) p.1

/-- What `formula_cell_t::GetSize` adds for a string result, formula_cell.cpp 117-123. -/
def strSize : Est → Nat
  | .str s => 4 + s.length * (if isASCII s then 1 else 2)
  | _ => 0

/-- `formula_cell_t::GetSize` for an expression cell, formula_cell.cpp 102-126; note `expr->GetSize()` without the subtree. -/
def cellSize (e : Expr) : Option Nat := (rootSize e).map fun n => 26 + n + strSize (estimate e).val

/-- The same for a cell made from a `formula_t` holding `tokens` (formula.cpp 329-338: the estimate is XLERR_VALUE). -/
def stackEstimate : Estimate := ⟨.err 0x0F, false, true⟩
def stackSize (tokens : Bytes) : Nat := 26 + tokens.length
def stackUnit (row col xf : Nat) (array : Bool) (tokens : Bytes) : Bytes := formulaUnit row col xf array stackEstimate tokens

/-- `PushTextArray`, formula.cpp 277-309: what is appended to the tokens and to the data after them. -/
def pushTextArray (v : List (List UInt16)) : Bytes × Bytes :=
  (leN 1 0x60 ++ List.replicate 7 0, leN 1 1 ++ leN 2 v.length ++ v.flatMap fun s => leN 1 1 ++ strBytes s .len1)

/-- `PushFloatingPointArray`, formula.cpp 311-321. -/
def pushDblArray (v : List Nat) : Bytes × Bytes :=
  (leN 1 0x60, leN 1 1 ++ leN 2 v.length ++ v.flatMap fun b => leN 1 2 ++ leN 8 b)

end Xls.Formula
