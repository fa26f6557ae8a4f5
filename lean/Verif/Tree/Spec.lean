import Verif.Tree.Model
/-
What a caller who builds formulas from expressions may rely on, in terms of the calls made.
-/
namespace Xls.Tree
open Xls.Biff Xls.Formula

/-- An operator there is. -/
def Made.proper : Made → Bool
  | .un op _ => decide (op ∈ [0x12, 0x13, 0x14, 0x15])
  | .bin op _ _ => decide (op ∈ [3, 5, 4, 6, 7, 8, 0xA, 9, 0xB, 0xC, 0xD, 0xE, 0xF, 0x10, 0x11])
  | _ => true

/-- The expressions made; their positions are their handles. -/
def made (p : List Call) : List Made :=
  p.filterMap fun
    | .make m => if m.proper then some m else none
    | _ => none

/-- The arguments pushed on function `n`. -/
def pushed (p : List Call) (n : Nat) : List Nat :=
  p.filterMap fun
    | .push h k => if h = n then some k else none
    | _ => none

/-- With more arguments. -/
def Made.more (ks : List Nat) : Made → Made
  | .func b code cls args => .func b code cls (args ++ ks)
  | m => m

/-- Expression `n` after the calls `p`. -/
def now (p : List Call) (n : Nat) : Option Made := (made p)[n]?.map (·.more (pushed p n))

/-- `b` is an argument of `a`. -/
def Kid (p : List Call) (a b : Nat) : Prop := ∃ m, now p a = some m ∧ b ∈ m.kids

/-- `n` is `r` or a part of it, at any depth. -/
inductive Within (p : List Call) (r : Nat) : Nat → Prop
  | self : Within p r r
  | kid {a b : Nat} : Within p r a → Kid p a b → Within p r b

/-- One node and the expressions it is applied to. -/
def layer : Made → List Expr → Option Expr
  | .bool b, [] => some (.bool b)
  | .int z, [] => some (.int z)
  | .num b, [] => some (.num b)
  | .err c, [] => some (.err c)
  | .missing, [] => some .missing
  | .text s, [] => some (.text s)
  | .ref r c sh m k, [] => some (.ref r c sh m k)
  | .area r c sh lr lc m k, [] => some (.area r c sh lr lc m k)
  | .un op _, [a] => some (.un op a)
  | .bin op _ _, [a, b] => some (.bin op a b)
  | .func _ code cls _, args => some (.func code cls args)
  | _, _ => none

/-- The expression `n` written out, looking at most `k` levels deep. -/
def written (p : List Call) : Nat → Nat → Option Expr
  | 0, _ => none
  | k + 1, n => (now p n).bind fun m => (m.kids.mapM (written p k)).bind (layer m)

/-- After the calls `p`, `n` is the expression `e`. -/
def Is (p : List Call) (n : Nat) (e : Expr) : Prop := ∃ k, written p k n = some e

/-- The expressions a call gives away: as arguments of another one, to a cell that is to destroy it, or to be destroyed. -/
def Call.gives : Call → List Nat
  | .make m => if m.proper then m.kids else []
  | .push _ k => [k]
  | .formula c => if c.auto then [c.root] else []
  | .drop n => [n]
  | _ => []

def Given (p : List Call) (n : Nat) : Prop := ∃ c ∈ p, n ∈ c.gives

/-- Where a call writes a cell. -/
def Call.at? : Call → Option Place
  | .formula c => some c.place
  | .other pl => some pl
  | _ => none

def Call.cell? : Call → Option Cell
  | .formula c => some c
  | _ => none

/-- The formula cell at a place: the last cell written there, if it is one. -/
def holds (p : List Call) (pl : Place) : Option Cell :=
  (p.filter fun c => c.at? = some pl).getLast?.bind Call.cell?

/-- A cell shows `n` without owning it. -/
def Lent (p : List Call) (n : Nat) : Prop := ∃ pl c, holds p pl = some c ∧ c.auto = false ∧ c.root = n

/-- `r` was destroyed: by the caller, or with the cell it was given to, which was written over. -/
def Ended (p : List Call) (r : Nat) : Prop :=
  .drop r ∈ p ∨ ∃ a c b, p = a ++ .formula c :: b ∧ c.auto = true ∧ c.root = r ∧ ∃ d ∈ b, d.at? = some c.place

/-- There, not given away yet, and not shown by a cell that does not own it. -/
def Free (p : List Call) (n : Nat) : Prop := n < (made p).length ∧ ¬ Given p n ∧ ¬ Lent p n

/-- The rule: an expression is given away once.  One that is lent to cells may be lent to others, and is not given away as long as a
    cell shows it.  Arguments are pushed on expressions that are there (fewer than 65534). -/
def Allowed (p : List Call) : Call → Prop
  | .make m => m.proper = true → m.kids.Nodup ∧ m.kids.length < 65536 ∧ ∀ k ∈ m.kids, Free p k
  | .push h k => (∃ code cls args, now p h = some (.func true code cls args) ∧ args.length < 65534) ∧
      (∀ r, Within p r h → ¬ Ended p r) ∧ Free p k
  | .formula c => c.root < (made p).length ∧ ¬ Given p c.root ∧ (c.auto = true → ¬ Lent p c.root)
  | .other _ => True
  | .drop n => Free p n
  | .save => True

/-- Every call of the program is allowed after those before it. -/
inductive Good : List Call → Prop
  | nil : Good []
  | snoc {p : List Call} {c : Call} : Good p → Allowed p c → Good (p ++ [c])

/-- Without the rule: the calls only name expressions that were made before (and no function is made with 65536 arguments). -/
def Names (p : List Call) : Call → Prop
  | .make m => m.kids.length < 65536 ∧ ∀ k ∈ m.kids, k < (made p).length
  | .push _ k => k < (made p).length
  | .formula c => c.root < (made p).length
  | .drop n => n < (made p).length
  | _ => True

inductive Known : List Call → Prop
  | nil : Known []
  | snoc {p : List Call} {c : Call} : Known p → Names p c → Known (p ++ [c])

/-- The other rule: nothing is ever destroyed, and expressions are shared at will, but none is a part of itself: the arguments
    come before what they are arguments of, in some order. -/
def Keeps (rank : Nat → Nat) (p : List Call) : Call → Prop
  | .make m => m.proper = true → m.kids.length < 65536 ∧ ∀ k ∈ m.kids, k < (made p).length ∧ rank k < rank (made p).length
  | .push h k => (∃ code cls args, now p h = some (.func true code cls args) ∧ args.length < 65534) ∧ k < (made p).length ∧
      rank k < rank h
  | .formula c => c.root < (made p).length ∧ c.auto = false
  | .other _ => True
  | .drop _ => False
  | .save => True

inductive Kept (rank : Nat → Nat) : List Call → Prop
  | nil : Kept rank []
  | snoc {p : List Call} {c : Call} : Kept rank p → Keeps rank p c → Kept rank (p ++ [c])

/-- What the cells at the end own, or the caller destroyed, at any time. -/
def Owned (p : List Call) (r : Nat) : Prop := .drop r ∈ p ∨ ∃ c, .formula c ∈ p ∧ c.auto = true ∧ c.root = r

end Xls.Tree
