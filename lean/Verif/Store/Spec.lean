import Verif.Store.Model
import Verif.Book.Inv
/-
What the record store relies on, stated on the records alone.
-/
namespace Xls.Store
open Xls.Biff Xls.Book

/-- The capacity of a vector that began with room for `c` elements, once it has `n`. -/
def capAt (grow : Nat → Nat) (c : Nat) : Nat → Nat
  | 0 => c
  | n + 1 => if n < capAt grow c n then capAt grow c n else grow (capAt grow c n)

/-- A record of type CONTINUE. -/
def IsContinue (v : U) : Prop := v.data.take 2 = leN 2 0x3C

instance (v : U) : Decidable (IsContinue v) := by unfold IsContinue; infer_instance

/-- The vector never grows at the moment a CONTINUE record is made. -/
def Calm (grow : Nat → Nat) (c : Nat) (us : List U) : Prop :=
  ∀ (i : Nat) (v : U), us[i]? = some v → IsContinue v → i < capAt grow c i

/-- The BOUNDSHEET records (those that are patched): one for each number, long enough for their position, and of a
    back-patching level that no record exceeds. -/
structure Patchable (us : List U) : Prop where
  once : (us.filterMap (·.tag)).Nodup
  level : ∀ w ∈ us, w.tag ≠ none → ∀ v ∈ us, v.level ≤ w.level
  room : ∀ w ∈ us, w.tag ≠ none → 8 ≤ w.data.length

/-- Every sheet has its BOUNDSHEET record among the records of the globals. -/
def Listed {γ : Type} (gnext : γ → Src γ) (g : γ) (n : Nat) (us : List U) : Prop :=
  ∀ vs g', GTrace gnext g vs g' → ∀ i < n, ∃ u ∈ us ++ vs, u.tag = some i

end Xls.Store
