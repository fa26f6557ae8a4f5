import Verif.Live.Model
import Verif.Area.Spec
import Verif.Formula.StackSpec
import Verif.Whole.StackFile
/-
What a program that builds formulas asks for: a formula is all that was ever pushed on it, be it before or after it was given to a cell or a validation.
-/
namespace Xls.Live
open Xls.Biff Xls.Whole Xls.Formula
open Xls.Sheet (DVal DVRead)

/-- The calls made on formula `h`. -/
def pushesOn (h : Nat) (p : List Call) : List Formula.Call :=
  p.filterMap fun
    | .push k c => if k = h then some c else none
    | _ => none

/-- The sheets for which formulas were made. -/
def madeFor (p : List Call) : List Nat :=
  p.filterMap fun
    | .make i => some i
    | _ => none

/-- The calls that do not report an error; a formula of sheet `i`. -/
def taken (i : Nat) (cs : List Formula.Call) : List Formula.Call := cs.filter fun c => !(Stack.push (some i) {} c).2

/-- `tok` is the formula `h` of sheet `i`, as it is at the end of the program `p`. -/
def IsFormula (ar : Nat → Option Nat) (i : Nat) (p : List Call) (h : Nat) (tok : Bytes) : Prop :=
  (madeFor p)[h]? = some i → (∀ c ∈ pushesOn h p, Fit c) →
    match formulaOf ar (taken i (pushesOn h p)) with
    | some e => ∃ t, parse ar tok = some t ∧ Means (some i) e t
    | none => parse ar tok = none

/-- `tok` is the condition `c` of a validation on sheet `i`: the number 0 if there is none. -/
def IsCond (ar : Nat → Option Nat) (i : Nat) (p : List Call) (c : Option Nat) (tok : Bytes) : Prop :=
  match c with
  | none => parse ar tok = some (.int 0)
  | some h => IsFormula ar i p h tok

/-- The validations asked for on sheet `i`, with their conditions. -/
def Call.validation (i : Nat) : Call → Option (DVal × Option Nat × Option Nat)
  | .validate j v c1 c2 => if j = i then some (v, c1, c2) else none
  | .other (.desk (.on (.page j (.call (.validate v))))) => if j = i then some (v, none, none) else none
  | _ => none

/-- A validation is found as asked. -/
def IsValidation (ar : Nat → Option Nat) (i : Nat) (p : List Call) (a : DVal × Option Nat × Option Nat) (r : DVRead) : Prop :=
  r.options = a.1.options ∧ r.promptTitle = a.1.promptTitle ∧ r.errorTitle = a.1.errorTitle ∧ r.promptText = a.1.promptText ∧
    r.errorText = a.1.errorText ∧ r.rects = [a.1.rect] ∧ IsCond ar i p a.2.1 r.formula1 ∧ IsCond ar i p a.2.2 r.formula2

/-- A call that writes a cell on this place. -/
def Call.writes (i row col : Nat) : Call → Bool
  | .other (.desk (.on (.look (.put j r c _ _)))) => decide (j = i ∧ r = row ∧ c = col)
  | .cell j r c _ _ _ => decide (j = i ∧ r = row ∧ c = col)
  | _ => false

/-- The same program with formulas that are complete from the beginning; `σ` has their bytes. -/
def told (σ : Nat → Bytes) : Call → Option Area.Call
  | .other c => some c
  | .make _ => none
  | .push .. => none
  | .cell i row col a h q => some (.desk (.on (.look (.put i row col (.tokens a (σ h)) q))))
  | .validate i v c1 c2 => some (.desk (.on (.page i (.call (.validate
      { v with cond1 := c1.map fun h => ((σ h).length, σ h), cond2 := c2.map fun h => ((σ h).length, σ h) })))))

/-- The bytes of formula `h` at the end of a program. -/
def contents (p : List Call) (h : Nat) : Bytes :=
  (((madeFor p)[h]?).map fun i => (Stack.pushes (some i) {} (pushesOn h p)).1.bytes).getD []

/-- The whole program in this form. -/
def plain (p : List Call) : List Area.Call := p.filterMap (told (contents p))

/-- Sheets and formulas exist when they are named. -/
def Possible : Nat → Nat → List Call → Prop
  | _, _, [] => True
  | n, m, .other (.desk (.sheet _)) :: r => Possible (n + 1) m r
  | n, m, .other (.desk c) :: r => bare (.desk c) = true ∧ (∀ i, Desk.target c = some i → i < n) ∧ Possible n m r
  | n, m, .other (.range i _ _) :: r => i < n ∧ Possible n m r
  | n, m, .make i :: r => i < n ∧ Possible n (m + 1) r
  | n, m, .push h _ :: r => h < m ∧ Possible n m r
  | n, m, .cell i _ _ _ h _ :: r => i < n ∧ h < m ∧ Possible n m r
  | n, m, .validate i _ c1 c2 :: r => i < n ∧ (∀ h, c1 = some h → h < m) ∧ (∀ h, c2 = some h → h < m) ∧ Possible n m r

end Xls.Live
