import Verif.Mem.Model
/-
Which calls a program may make, in terms of the calls before, and what it means that everything was released.
-/
namespace Xls.Mem

inductive What where
  | sheet | font | format | xf | cell | stack | range
deriving DecidableEq, Repr

/-- What a call returns a pointer to. -/
def Call.gives : Call → Option What
  | .sheet => some .sheet
  | .font | .fontNo _ => some .font
  | .format => some .format
  | .xformat .. => some .xf
  | .cell .. | .find .. | .note .. => some .cell
  | .stack _ => some .stack
  | .range _ => some .range
  | _ => none

/-- Call `i` returned such a pointer. -/
def At (p : List Call) (w : What) (i : Nat) : Prop := ∃ c, p[i]? = some c ∧ c.gives = some w

/-- The place of the cell or comment that a call returns: whether it is a comment, the call that made the sheet, row and column. -/
def Call.place : Call → Option (Bool × Nat × (Nat × Nat))
  | .cell i key .. => some (false, i, key)
  | .find i key => some (false, i, key)
  | .note i key _ => some (true, i, key)
  | _ => none

/-- The place that a call writes, replacing what is there. -/
def Call.writes : Call → Option (Bool × Nat × (Nat × Nat))
  | .cell i key .. => some (false, i, key)
  | .note i key _ => some (true, i, key)
  | _ => none

/-- Call `i` returned a cell or comment that no later call replaced. -/
def Current (p : List Call) (i : Nat) : Prop :=
  ∃ c pl, p[i]? = some c ∧ c.place = some pl ∧ ∀ j d, i < j → p[j]? = some d → d.writes ≠ some pl

/-- It was replaced. -/
def Replaced (p : List Call) (i : Nat) : Prop :=
  ∃ c pl j d, p[i]? = some c ∧ c.place = some pl ∧ i < j ∧ p[j]? = some d ∧ d.writes = some pl

def Act.Fine (p : List Call) : Act → Prop
  | .change f g _ => (∀ k ∈ f, At p .font k) ∧ ∀ k ∈ g.join, At p .format k
  | .take x => At p .xf x
  | _ => True

/-- The rule: pointers are those that earlier calls returned, cells and comments are not used once replaced, and there are five
    fonts to start with. -/
def Fine (p : List Call) : Call → Prop
  | .fontNo n => n < 5
  | .xformat f g => (∀ k ∈ f, At p .font k) ∧ ∀ k ∈ g, At p .format k
  | .setFont x f => At p .xf x ∧ ∀ k ∈ f, At p .font k
  | .setFormat x f => At p .xf x ∧ ∀ k ∈ f, At p .format k
  | .onXf x => At p .xf x
  | .onFont f => At p .font f
  | .cell sh _ x _ st => At p .sheet sh ∧ (∀ k ∈ x, At p .xf k) ∧ ∀ k ∈ st, At p .stack k
  | .find sh _ | .merge sh | .range sh | .stack sh => At p .sheet sh
  | .note sh _ x | .colwidth sh _ x | .rowheight sh _ x => At p .sheet sh ∧ ∀ k ∈ x, At p .xf k
  | .push st => At p .stack st
  | .validate sh c1 c2 => At p .sheet sh ∧ (∀ k ∈ c1, At p .stack k) ∧ ∀ k ∈ c2, At p .stack k
  | .link sh c => At p .sheet sh ∧ Current p c
  | .act c a => Current p c ∧ a.Fine p
  | .over r l => At p .range r ∧ ∀ q ∈ l, q.2.Fine p
  | .sheet | .font | .format | .property _ | .save => True

inductive Good : List Call → Prop
  | nil : Good []
  | snoc {p : List Call} {c : Call} : Good p → Fine p c → Good (p ++ [c])

/-- Every object that was made has been deleted, once. -/
def Gone {α : Type} (P : Pool α) : Prop := P.log.Nodup ∧ ∀ n, n ∈ P.log ↔ n < P.objs.length

end Xls.Mem
