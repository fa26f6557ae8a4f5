import Verif.Book.Model
/-
What the workbook stream should look like, stated on record types and payloads: splitting a payload over
CONTINUE records, and where each sheet starts.
-/
namespace Xls.Book
open Xls.Biff

/-- Cut a list into pieces of `n` elements, the last one possibly shorter. -/
def chunks {α : Type} (n : Nat) (l : List α) : List (List α) :=
  if h : l = [] ∨ n = 0 then [] else l.take n :: chunks n (l.drop n)
termination_by l.length
decreasing_by
  have : l.length ≠ 0 := fun h0 => h (.inl (List.length_eq_zero_iff.mp h0))
  simp only [List.length_drop]
  omega

/-- `rs` is the record of type `t` with payload `p`, written as the file format wants it: in one record if it
    fits 8224 bytes, otherwise in a record of exactly 8224 bytes and CONTINUE records (type 0x3C) of at most
    8224 and at least one byte. -/
def WrittenAs (t : Nat) (p : Bytes) (rs : List Rec) : Prop :=
  ∃ p0 ps, rs = (t, p0) :: ps.map (fun c => (0x3C, c)) ∧ p0 ++ ps.flatten = p ∧ p0.length ≤ 8224 ∧
    (∀ c ∈ ps, 0 < c.length ∧ c.length ≤ 8224) ∧ (p.length ≤ 8224 → ps = []) ∧
    (p.length > 8224 → p0.length = 8224 ∧ ∀ c ∈ ps.dropLast, c.length = 8224)

end Xls.Book
