import Verif.Formula.Props
/-
Formulas built call by call: `formula_t` (formula.cpp), the interface of `worksheet::formula_data` (sheetrec.cpp 789-795) and of the C
functions `xlsFormulaPush…` (cbridge.cpp 170-240).

`Formula.dump` uses the same calls for an expression tree.  Simplification: a cell is given by its position and the number of its
sheet, as in `Formula.Expr`; texts are 16-bit units (`char2str16`, `wide2str16`: Verif/Text).
-/
namespace Xls.Formula
open Xls.Biff Xls.Unit Xls.Num

/-- One call on a `formula_t`, formula.h 71-86: `PushBoolean`, `PushMissingArgument`, `PushError`, `PushInteger`, `PushFloatingPoint`,
    `PushText`, `PushCellReference`, `PushCellAreaReference`, `PushOperator`, `PushFunction(func, op_class)`,
    `PushFunction(func, arg_count, op_class)`, `PushTextArray`, `PushFloatingPointArray`. -/
inductive Call where
  | bool (b : Bool)
  | missing
  | err (code : Nat)
  | int (z : Int)
  | num (bits : Nat)
  | text (s : List UInt16)
  | ref (row col : Nat) (sheet : Option Nat) (mode cls : Nat)
  | area (row col : Nat) (sheet : Option Nat) (lrow lcol : Nat) (mode cls : Nat)
  | op (code : Nat)
  | func (code cls : Nat)
  | funcN (code n cls : Nat)
  | texts (v : List (List UInt16))
  | nums (v : List Nat)
deriving Repr

/-- `main_data` and `aux_data`, formula.h 93-94. -/
structure Stack where
  main : Bytes := []
  aux : Bytes := []
deriving Repr, DecidableEq

/-- A push that touches `main_data` only. -/
def Stack.add (s : Stack) (p : Push) : Stack × Bool := ({ s with main := s.main ++ p.1 }, p.2)

/-- One call in a formula of sheet `own`, and whether it reports an error, formula.cpp 75-321.  `PushOperator` writes any code. -/
def Stack.push (own : Option Nat) (s : Stack) : Call → Stack × Bool
  | .bool b => s.add (leN 1 0x1D ++ leN 1 (if b then 1 else 0), false)
  | .missing => s.add (leN 1 0x16, false)
  | .err c => s.add (leN 1 0x1C ++ leN 1 c, false)
  | .int z => s.add (pushInt z, false)
  | .num b => s.add (leN 1 0x1F ++ leN 8 b, false)
  | .text t => s.add (pushText t, false)
  | .ref r c sh m k => s.add (pushRef own r c sh m k, false)
  | .area r c sh lr lc m k => s.add (pushArea own r c sh lr lc m k, false)
  | .op c => s.add (leN 1 c, false)
  | .func code k => s.add (pushFunc code k)
  | .funcN code n k => s.add (pushFuncVar code n k)
  | .texts v => ({ main := s.main ++ (pushTextArray v).1, aux := s.aux ++ (pushTextArray v).2 }, false)
  | .nums v => ({ main := s.main ++ (pushDblArray v).1, aux := s.aux ++ (pushDblArray v).2 }, false)

/-- The calls in order, with what each reports. -/
def Stack.pushes (own : Option Nat) (s : Stack) : List Call → Stack × List Bool
  | [] => (s, [])
  | c :: r => ((((s.push own c).1).pushes own r).1, (s.push own c).2 :: (((s.push own c).1).pushes own r).2)

/-- `formula_t::DumpData`, formula.cpp 323-327: what a cell made from the formula holds. -/
def Stack.bytes (s : Stack) : Bytes := s.main ++ s.aux

end Xls.Formula
