import Verif.Formula.Means
import Verif.Formula.Stack
/-
What a sequence of calls on a formula asks for: the calls name operands and operations in the order of reverse Polish notation.
-/
namespace Xls.Formula

/-- What one more call makes of the operands at hand, the latest first: an operand is added; an operator takes one or two, a function as
    many as it has arguments (`ar` for those called without a number), and puts its result in their place.  `none`: there are not enough. -/
def ask (ar : Nat → Option Nat) (st : List Expr) : Call → Option (List Expr)
  | .bool b => some (.bool b :: st)
  | .missing => some (.missing :: st)
  | .err c => some (.err c :: st)
  | .int z => some (.int z :: st)
  | .num b => some (.num b :: st)
  | .text t => some (.text t :: st)
  | .ref r c sh m k => some (.ref r c sh m k :: st)
  | .area r c sh lr lc m k => some (.area r c sh lr lc m k :: st)
  | .op c =>
    if 3 ≤ c ∧ c ≤ 0x11 then match st with
      | b :: a :: st => some (.bin c a b :: st)
      | _ => none
    else if 0x12 ≤ c ∧ c ≤ 0x15 then match st with
      | a :: st => some (.un c a :: st)
      | _ => none
    else none
  | .func code k => (ar code).bind fun n => if n ≤ st.length then some (.func code k (st.take n).reverse :: st.drop n) else none
  | .funcN code n k => if n ≤ st.length then some (.func code k (st.take n).reverse :: st.drop n) else none
  | .texts _ => none
  | .nums _ => none

/-- The operands at hand after a sequence of calls. -/
def asked (ar : Nat → Option Nat) : List Expr → List Call → Option (List Expr)
  | st, [] => some st
  | st, c :: r => (ask ar st c).bind fun st => asked ar st r

/-- The formula that a sequence of calls asks for: exactly one operand is left. -/
def formulaOf (ar : Nat → Option Nat) (cs : List Call) : Option Expr :=
  match asked ar [] cs with
  | some [e] => some e
  | _ => none

/-- Calls within the limits of the file format (as `Proper`), with references as in `Plain`, and without array constants (C49). -/
def Fit : Call → Prop
  | .bool _ => True
  | .missing => True
  | .err c => c < 256
  | .int z => -2 ^ 31 ≤ z ∧ z < 2 ^ 31
  | .num b => b < 2 ^ 64
  | .text s => s.length < 256
  | .ref r c sh m k => r < 65536 ∧ c < 256 ∧ (∀ i, sh = some i → i < 65536) ∧ (m = 0 ∨ m = 0xC000) ∧ IsClass k
  | .area r c sh lr lc m k =>
    r < 65536 ∧ c < 256 ∧ (∀ i, sh = some i → i < 65536) ∧ lr < 65536 ∧ lc < 256 ∧ (m = 0 ∨ m = 0xC000) ∧ IsClass k
  | .op c => 3 ≤ c ∧ c ≤ 0x15
  | .func code k => code < 2 ^ 15 ∧ (k = 0 ∨ IsClass k)
  | .funcN code n k => code < 2 ^ 15 ∧ n ≤ 127 ∧ (k = 0 ∨ IsClass k)
  | .texts _ => False
  | .nums _ => False

end Xls.Formula
