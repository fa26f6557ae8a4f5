import Verif.Num.Lemmas
/-
C23: numbers keep their value.  Each theorem is about the record made for a cell (its type and payload), read by the
independent reader of `Spec.lean`.
-/
namespace Xls.Num
open Xls.Biff

/-- C23, signed integers: whichever of the two encodings is chosen, the cell reads back as that integer at its
    position with its format. -/
theorem c23_signed {row col xf : Nat} (hr : row < 65536) (hc : col < 65536) (hx : xf < 65536) {z : Int}
    (h1 : -2147483648 ≤ z) (h2 : z < 2147483648) :
    ∃ v, readCell (numberRecord row col xf (ofSigned z)).1 (numberRecord row col xf (ofSigned z)).2 =
        some ⟨row, col, xf, .number v⟩ ∧ v.Is z := by
  refine ⟨_, readCell_number hr hc hx _, ?_⟩
  unfold ofSigned
  by_cases h : z ≤ 0x1FFFFFFF ∧ z ≥ -0x20000000
  · rw [if_pos h]
    show Value.Is z (rkValue _)
    rw [rkValue_int (by omega) (by omega)]
    rfl
  · rw [if_neg h]
    have hz : z.natAbs < 2 ^ 53 := by omega
    show Denotes (dblOfInt z % 2 ^ 64) z
    rw [Nat.mod_eq_of_lt (dblOfInt_lt hz)]
    exact dblOfInt_denotes hz

/-- C23, unsigned integers below 0xE0000000.  The rest of the range is missing: there the value is lost
    (`c23_unsigned_negative`). -/
theorem c23_unsigned_partial {row col xf : Nat} (hr : row < 65536) (hc : col < 65536) (hx : xf < 65536) {n : Nat}
    (h : n < 0xE0000000) :
    ∃ v, readCell (numberRecord row col xf (ofUnsigned n)).1 (numberRecord row col xf (ofUnsigned n)).2 =
        some ⟨row, col, xf, .number v⟩ ∧ v.Is n := by
  refine ⟨_, readCell_number hr hc hx _, ?_⟩
  unfold ofUnsigned
  rw [if_neg (by omega)]
  have hz : (n : Int).natAbs < 2 ^ 53 := by omega
  show Denotes (dblOfInt n % 2 ^ 64) n
  rw [Nat.mod_eq_of_lt (dblOfInt_lt hz)]
  exact dblOfInt_denotes hz

/-- C23 fails for every unsigned integer from 0xE0000000 on: the cell reads back as that integer minus 2^32, which is
    negative, and not as the integer. -/
theorem c23_unsigned_negative {row col xf : Nat} (hr : row < 65536) (hc : col < 65536) (hx : xf < 65536) {n : Nat}
    (h : 0xE0000000 ≤ n) (h2 : n < 2 ^ 32) :
    ∃ v, readCell (numberRecord row col xf (ofUnsigned n)).1 (numberRecord row col xf (ofUnsigned n)).2 =
        some ⟨row, col, xf, .number v⟩ ∧ v.Is ((n : Int) - 2 ^ 32) ∧ ¬ v.Is n := by
  refine ⟨_, readCell_number hr hc hx _, ?_⟩
  unfold ofUnsigned
  rw [if_pos h]
  have e : s32OfNat n = (n : Int) - 2 ^ 32 := by unfold s32OfNat; rw [if_neg (by omega)]; omega
  show Value.Is _ (rkValue _) ∧ ¬ Value.Is _ (rkValue _)
  rw [rkValue_int (by omega) (by omega), e]
  exact ⟨rfl, fun hh => by have : (n : Int) - 2 ^ 32 = n := hh; omega⟩

/-- C23, doubles: the cell stores exactly the given bit pattern, whatever it is. -/
theorem c23_double {row col xf : Nat} (hr : row < 65536) (hc : col < 65536) (hx : xf < 65536) {bits : Nat}
    (h : bits < 2 ^ 64) :
    readCell (numberRecord row col xf (ofDouble bits)).1 (numberRecord row col xf (ofDouble bits)).2 =
      some ⟨row, col, xf, .number (.dbl bits)⟩ := by
  have := readCell_number hr hc hx (ofDouble bits)
  rw [this]
  show some (ReadCell.mk row col xf (.number (.dbl (bits % 2 ^ 64)))) = _
  rw [Nat.mod_eq_of_lt h]

/-- A cell read back as an integer determines the integer, so the theorems above pin the value down. -/
theorem c23_value_unique {v : Value} {x y : Int} (hx : v.Is x) (hy : v.Is y) : x = y := by
  cases v with
  | int z => exact hx.symm.trans hy
  | int100 z => have h1 : z = 100 * x := hx; have h2 : z = 100 * y := hy; omega
  | dbl b => exact denotes_unique hx hy
  | dbl100 b => have := denotes_unique hx hy; omega

/-- Boolean, error and blank cells read back as written. -/
theorem c23_others {row col xf : Nat} (hr : row < 65536) (hc : col < 65536) (hx : xf < 65536) :
    (∀ b, readCell (boolRecord row col xf b).1 (boolRecord row col xf b).2 = some ⟨row, col, xf, .bool b⟩) ∧
    (∀ code < 256, readCell (errRecord row col xf code).1 (errRecord row col xf code).2 =
      some ⟨row, col, xf, .error code⟩) ∧
    readCell (blankRecord row col xf).1 (blankRecord row col xf).2 = some ⟨row, col, xf, .blank⟩ := by
  refine ⟨fun b => ?_, fun code h => ?_, ?_⟩
  · show readCell 0x205 (cellHead row col xf ++ [if b then 1 else 0, 0]) = _
    rw [readCell_head hr hc hx]
    cases b <;> rfl
  · show readCell 0x205 (cellHead row col xf ++ [UInt8.ofNat code, 1]) = _
    rw [readCell_head hr hc hx]
    have : (UInt8.ofNat code).toNat = code := by simp; omega
    show Option.map _ (some (Content.error (UInt8.ofNat code).toNat)) = _
    rw [this]; rfl
  · show readCell 0x201 (cellHead row col xf) = _
    have := readCell_head (typ := 0x201) (p := []) hr hc hx
    rw [List.append_nil] at this
    rw [this]; rfl

-- 5 in the compact form, 2^30 and -2^31 as doubles, and an unsigned value that is lost
/-- The sizes the cells announce (from which row and index offsets are computed) are the sizes of the records written. -/
theorem c23_sizes (row col xf code : Nat) (n : Number) (b : Bool) :
    (Biff.enc (numberRecord row col xf n)).length = numberSize n ∧ (Biff.enc (boolRecord row col xf b)).length = boolSize ∧
      (Biff.enc (errRecord row col xf code)).length = errSize ∧ (Biff.enc (blankRecord row col xf)).length = blankSize := by
  refine ⟨?_, ?_, ?_, ?_⟩
  · cases n <;> simp [Biff.enc, numberRecord, cellHead, numberSize]
  · simp [Biff.enc, boolRecord, cellHead, boolSize]
  · simp [Biff.enc, errRecord, cellHead, errSize]
  · simp [Biff.enc, blankRecord, cellHead, blankSize]

example : readCell (numberRecord 3 4 15 (ofSigned 5)).1 (numberRecord 3 4 15 (ofSigned 5)).2 =
    some ⟨3, 4, 15, .number (.int 5)⟩ := by decide
example : readCell (numberRecord 3 4 15 (ofSigned (-1))).1 (numberRecord 3 4 15 (ofSigned (-1))).2 =
    some ⟨3, 4, 15, .number (.int (-1))⟩ := by decide
example : ofSigned 0x40000000 = .dbl 0x41D0000000000000 := by decide
example : ofSigned (-2147483648) = .dbl 0xC1E0000000000000 := by decide
example : ofUnsigned 0xE0000000 = .int (-536870912) := by decide
example : Denotes 0x4045000000000000 42 ∧ ¬ Denotes 0x4045000000000000 43 := by
  have h : Denotes 0x4045000000000000 42 := dblOfInt_denotes (z := 42) (by decide)
  exact ⟨h, fun h' => by have := denotes_unique h h'; omega⟩

end Xls.Num
