import Verif.Dir.Model
/-
What a user of the file system expects, without trees and links: a table of the paths that exist, in
the order in which they were made.
-/
namespace Xls.Dir

/-- What is stored under a path. -/
inductive What where
  | dir
  | file (bytes : Bytes)
deriving DecidableEq

/-- A path: the components, outermost first; the root is the empty list. -/
abbrev Path := List Bytes

/-- The paths made so far, oldest first. -/
abbrev Table := List (Path × What)

/-- What is stored under a path; the root is a directory. -/
def Table.get (t : Table) (p : Path) : Option What :=
  if p = [] then some .dir else (t.find? fun x => x.1 == p).map Prod.snd

/-- The names in a directory, oldest first, with the numbers of their entries. -/
def Table.children (t : Table) (p : Path) : List (Nat × Bytes) :=
  t.zipIdx.filterMap fun x =>
    match x.1.1.getLast? with
    | some nm => if x.1.1.dropLast = p then some (x.2 + 1, nm) else none
    | none => none

/-- The answer to a call that makes `p`: `none` is undefined behaviour. -/
def Table.answer (t : Table) (p : Path) : Option Int :=
  if (t.get p).isSome then
    -- a path that exists: refused, but only if nothing lies below it
    if (t.children p).isEmpty then some (-2) else none
  else
    match t.get p.dropLast with
    | none => some (-1)
    | some (.file _) => some (-3)
    | some .dir => some 0

/-- The path and the contents of a call. -/
def Op.made : Op → Path × What
  | .dir p => (Ole.stringtok p, .dir)
  | .file p us => (Ole.stringtok p, .file us.flatten)

/-- A program on tables. -/
def Table.runFrom : Table → List Op → Option (List Int × Table)
  | t, [] => some ([], t)
  | t, o :: r =>
    match t.answer o.made.1 with
    | none => none
    | some c =>
      (Table.runFrom (if c = 0 then t ++ [o.made] else t) r).map fun x => (c :: x.1, x.2)

def Table.run (os : List Op) : Option (List Int × Table) := Table.runFrom [] os

/-- How the contents of a file are stored: its bytes and zeros, up to the least length that is a
    multiple of 512 and not less than 4096. -/
def Stored (bytes stored : Bytes) : Prop :=
  ∃ k, stored = bytes ++ List.replicate k 0 ∧ 4096 ≤ bytes.length + k ∧ (bytes.length + k) % 512 = 0 ∧
    ∀ j, 4096 ≤ bytes.length + j → (bytes.length + j) % 512 = 0 → k ≤ j

/-- The entry of the directory array that stands for a path, as far as its own fields go. -/
structure Describes (e : Ole.Entry) (number : Nat) (p : Path) (w : What) : Prop where
  number : e.index = number
  name : p.getLast? = some e.name
  dir : w = .dir → e.typ = 1 ∧ e.size = 0 ∧ e.data = none
  file : ∀ b, w = .file b → e.typ = 2 ∧ ∃ us, e.data = some us ∧ Stored b us.flatten ∧ e.size = us.flatten.length

/-- Reading a directory: from entry `i`, first all entries on the left, then `i`, then all on the
    right.  −1 is the empty link. -/
inductive Walk (es : List Ole.Entry) : Int → List Nat → Prop where
  | empty : Walk es (-1) []
  | node {i : Nat} {e : Ole.Entry} {l r : List Nat} : es[i]? = some e → Walk es e.prev l → Walk es e.next r →
      Walk es i (l ++ i :: r)

/-- A walk has only one result. -/
theorem Walk.unique {es : List Ole.Entry} {i : Int} {a b : List Nat} (h : Walk es i a) (h' : Walk es i b) : a = b := by
  induction h generalizing b with
  | empty =>
    generalize hi : (-1 : Int) = i at h'
    cases h' with
    | empty => rfl
    | node => omega
  | @node i e l r he _ _ ihl ihr =>
    generalize hj : (i : Int) = j at h'
    cases h' with
    | empty => omega
    | @node i' e' l' r' he' hl' hr' =>
      obtain rfl : i = i' := by omega
      rw [he] at he'
      cases he'
      rw [ihl hl', ihr hr']

end Xls.Dir
