import Verif.Xf.Want
import Verif.Font.Spec
import Verif.Num.Spec
/-
What the answers of the getters mean for someone who reads the saved file.
-/
namespace Xls.Ask
open Xls.Xf

/-- `BORDER_…` in an XF record. -/
def lineAt (s : Seen) : Side → Line
  | .bottom => s.bottom
  | .top => s.top
  | .left => s.left
  | .right => s.right
  | .diagonals => s.diagonal

/-- The integer part of the number denoted by the pattern `b`: with `|value| = a * 2^e / 2^1075`, the largest `q` with
    `q ≤ |value|`, with the sign of the value. -/
def IntegerPart (b : Nat) (z : Int) : Prop :=
  ∃ m e, Num.dblParts b = some (m, e) ∧ z.natAbs * 2 ^ 1075 ≤ m.natAbs * 2 ^ e ∧
    m.natAbs * 2 ^ e < (z.natAbs + 1) * 2 ^ 1075 ∧ (0 < z → 0 < m) ∧ (z < 0 → m < 0)

end Xls.Ask
