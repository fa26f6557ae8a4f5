import Verif.Xf.Bits
/-
The XF record, field by field.
-/
namespace Xls.Xf
open Xls.Biff

theorem mask_clear {mask s w n i : Nat} (h : mask &&& ((2 ^ w - 1) <<< s) = 0) (hi : i < w) (_ : s + w ≤ n) :
    mask.testBit (s + i) = false := by
  have e := congrArg (fun k => Nat.testBit k (s + i)) h
  simp only [Nat.testBit_and, testBit_mask, Nat.zero_testBit] at e
  have h1 : s ≤ s + i := by omega
  have h2 : s + i < s + w := by omega
  simpa [h1, h2] using e

theorem put_same (n mask v s word w : Nat) (hm : mask = (2 ^ w - 1) <<< s) (h : s + w ≤ n) :
    bits (put n mask v s word) s w = v % 2 ^ w := by
  subst hm; exact bits_put_same n s w v word h

theorem put_other (n mask v s word s' w' : Nat) (hm : mask &&& ((2 ^ w' - 1) <<< s') = 0) (h : s' + w' ≤ n) :
    bits (put n mask v s word) s' w' = bits word s' w' := by
  apply Nat.eq_of_testBit_eq
  intro i
  rw [testBit_bits, testBit_bits]
  by_cases hi : i < w'
  · have hc := mask_clear hm hi h
    have hn : s' + i < n := by omega
    simp only [put, Nat.testBit_or, Nat.testBit_and, Nat.testBit_xor, Nat.testBit_two_pow_sub_one, hc]
    simp [hn]
  · simp [hi]

/-- Any field inside the mask gets the corresponding bits of the value. -/
theorem put_in (n mask v sh word s' w' : Nat) (hm : mask &&& ((2 ^ w' - 1) <<< s') = (2 ^ w' - 1) <<< s') (h : s' + w' ≤ n)
    (hs : sh ≤ s') : bits (put n mask v sh word) s' w' = bits v (s' - sh) w' := by
  apply Nat.eq_of_testBit_eq
  intro i
  rw [testBit_bits, testBit_bits]
  by_cases hi : i < w'
  · have hc : mask.testBit (s' + i) = true := by
      have e := congrArg (fun k => Nat.testBit k (s' + i)) hm
      simp only [Nat.testBit_and, testBit_mask] at e
      have h1 : s' ≤ s' + i := by omega
      have h2 : s' + i < s' + w' := by omega
      simpa [h1, h2] using e
    have hn : s' + i < n := by omega
    have hk : s' + i - sh = s' - sh + i := by omega
    have hk2 : sh ≤ s' + i := by omega
    simp only [put, Nat.testBit_or, Nat.testBit_and, Nat.testBit_xor, Nat.testBit_two_pow_sub_one, hc,
      Nat.testBit_mod_two_pow, Nat.testBit_shiftLeft, hk]
    simp [hn, hk2]
  · simp [hi]

theorem putFlag_same (n mask : Nat) (b : Bool) (word s : Nat) (hm : mask = 2 ^ s) (h : s < n) :
    bits (putFlag n mask b word) s 1 = b.toNat := by
  subst hm
  apply Nat.eq_of_testBit_eq
  intro i
  rw [testBit_bits]
  have h2 : (2 ^ s).testBit (s + i) = decide (s = s + i) := Nat.testBit_two_pow
  by_cases hi : i = 0
  · subst hi
    cases b <;> simp [putFlag, Nat.testBit_and, Nat.testBit_xor, Nat.testBit_or, h]
  · have : ¬ i < 1 := by omega
    have hb : b.toNat < 2 ^ i := by
      have := Nat.pow_le_pow_right (show 0 < 2 by decide) (show 1 ≤ i by omega)
      cases b <;> simp <;> omega
    simp [this, Nat.testBit_lt_two_pow hb]

theorem putFlag_other (n mask : Nat) (b : Bool) (word s' w' : Nat) (hm : mask &&& ((2 ^ w' - 1) <<< s') = 0)
    (h : s' + w' ≤ n) : bits (putFlag n mask b word) s' w' = bits word s' w' := by
  apply Nat.eq_of_testBit_eq
  intro i
  rw [testBit_bits, testBit_bits]
  by_cases hi : i < w'
  · have hc := mask_clear hm hi h
    have hn : s' + i < n := by omega
    cases b <;> simp [putFlag, Nat.testBit_or, Nat.testBit_and, Nat.testBit_xor, hc, hn]
  · simp [hi]

theorem put2_first (n m1 v1 s1 m2 v2 s2 word w : Nat) (h1 : m1 = (2 ^ w - 1) <<< s1) (hd : m2 &&& m1 = 0) (h : s1 + w ≤ n) :
    bits (put2 n m1 v1 s1 m2 v2 s2 word) s1 w = v1 % 2 ^ w := by
  subst h1
  apply Nat.eq_of_testBit_eq
  intro i
  rw [testBit_bits, Nat.testBit_mod_two_pow]
  by_cases hi : i < w
  · have hc := mask_clear hd hi h
    have hn : s1 + i < n := by omega
    have hm : ((2 ^ w - 1) <<< s1).testBit (s1 + i) = true := by rw [testBit_mask]; simp [hi]
    simp only [put2, Nat.testBit_or, Nat.testBit_and, Nat.testBit_xor, Nat.testBit_two_pow_sub_one, hc, hm,
      Nat.testBit_mod_two_pow, Nat.testBit_shiftLeft]
    simp [hn, hi]
  · simp [hi]

theorem put2_second (n m1 v1 s1 m2 v2 s2 word w : Nat) (h1 : m2 = (2 ^ w - 1) <<< s2) (hd : m1 &&& m2 = 0) (h : s2 + w ≤ n) :
    bits (put2 n m1 v1 s1 m2 v2 s2 word) s2 w = v2 % 2 ^ w := by
  subst h1
  apply Nat.eq_of_testBit_eq
  intro i
  rw [testBit_bits, Nat.testBit_mod_two_pow]
  by_cases hi : i < w
  · have hc := mask_clear hd hi h
    have hn : s2 + i < n := by omega
    have hm : ((2 ^ w - 1) <<< s2).testBit (s2 + i) = true := by rw [testBit_mask]; simp [hi]
    simp only [put2, Nat.testBit_or, Nat.testBit_and, Nat.testBit_xor, Nat.testBit_two_pow_sub_one, hc, hm,
      Nat.testBit_mod_two_pow, Nat.testBit_shiftLeft]
    simp [hn, hi]
  · simp [hi]

theorem put2_other (n m1 v1 s1 m2 v2 s2 word s' w' : Nat) (h1 : m1 &&& ((2 ^ w' - 1) <<< s') = 0)
    (h2 : m2 &&& ((2 ^ w' - 1) <<< s') = 0) (h : s' + w' ≤ n) :
    bits (put2 n m1 v1 s1 m2 v2 s2 word) s' w' = bits word s' w' := by
  apply Nat.eq_of_testBit_eq
  intro i
  rw [testBit_bits, testBit_bits]
  by_cases hi : i < w'
  · have hc1 := mask_clear h1 hi h
    have hc2 := mask_clear h2 hi h
    have hn : s' + i < n := by omega
    simp [put2, Nat.testBit_or, Nat.testBit_and, Nat.testBit_xor, hc1, hc2, hn]
  · simp [hi]

theorem bits_mod32 (v s w : Nat) (h : s + w ≤ 32) : bits (v % 4294967296) s w = bits v s w := bits_mod v 32 s w h
theorem bits_mod16 (v s w : Nat) (h : s + w ≤ 16) : bits (v % 65536) s w = bits v s w := bits_mod v 16 s w h

theorem bits_low (v s w s' w' : Nat) (h : s' + w' ≤ w) (hs : s = s') : bits v s w' = bits (bits v 0 w) s' w' := by
  subst hs
  apply Nat.eq_of_testBit_eq
  intro i
  rw [testBit_bits, testBit_bits, testBit_bits]
  by_cases hi : i < w'
  · have : s + i < w := by omega
    simp [hi, this]
  · simp [hi]

/-- The alignment word after `SetIndent`, where the three parts of the indentation were 0. -/
theorem indent_put (v word : Nat) (hv : v ∈ indentTable) (h4 : bits word 16 4 = 0) (h1 : bits word 20 1 = 0)
    (h2 : bits word 22 2 = 0) :
    bits (put 32 (indentMask v <<< 16) v 16 word) 16 4 = v % 16 ∧
    bits (put 32 (indentMask v <<< 16) v 16 word) 20 1 = bits v 4 1 ∧
    bits (put 32 (indentMask v <<< 16) v 16 word) 22 2 = bits v 6 2 := by
  have hlow : ∀ v, v ∈ indentTable → v ≠ 0 → v < 16 → indentMask v = 0x0F := by decide
  by_cases h0 : v = 0
  · subst h0
    have e : indentMask 0 = 0xDF := by decide
    rw [e]
    refine ⟨?_, ?_, ?_⟩
    all_goals
      apply Nat.eq_of_testBit_eq
      intro i
      rw [testBit_bits]
    · by_cases hi : i < 4
      · have : ((0xDF : Nat) <<< 16).testBit (16 + i) = true := by
          have hc : i = 0 ∨ i = 1 ∨ i = 2 ∨ i = 3 := by omega
          rcases hc with rfl | rfl | rfl | rfl <;> decide
        have hn : 16 + i < 32 := by omega
        simp only [put, Nat.testBit_or, Nat.testBit_and, Nat.testBit_xor, Nat.testBit_two_pow_sub_one, this]
        simp [hn]
      · simp [hi]
    · by_cases hi : i < 1
      · have : i = 0 := by omega
        subst this
        have : ((0xDF : Nat) <<< 16).testBit (20 + 0) = true := by decide
        simp only [put, Nat.testBit_or, Nat.testBit_and, Nat.testBit_xor, Nat.testBit_two_pow_sub_one, this]
        simp [bits]
      · simp [hi, bits]
    · by_cases hi : i < 2
      · have : ((0xDF : Nat) <<< 16).testBit (22 + i) = true := by
          have hc : i = 0 ∨ i = 1 := by omega
          rcases hc with rfl | rfl <;> decide
        have hn : 22 + i < 32 := by omega
        simp only [put, Nat.testBit_or, Nat.testBit_and, Nat.testBit_xor, Nat.testBit_two_pow_sub_one, this]
        simp [hn, bits]
      · simp [hi, bits]
  · by_cases hl : v < 16
    · rw [hlow v hv h0 hl]
      refine ⟨put_same _ _ _ _ _ _ (by decide) (by decide), ?_, ?_⟩
      · rw [put_other _ _ _ _ _ _ _ (by decide) (by decide), h1]
        simp only [bits]; omega
      · rw [put_other _ _ _ _ _ _ _ (by decide) (by decide), h2]
        simp only [bits]; omega
    · have hc : v = 0x10 ∨ v = 0x40 ∨ v = 0x80 := by
        simp only [indentTable, List.mem_cons, List.not_mem_nil, or_false] at hv
        omega
      rcases hc with rfl | rfl | rfl
      · have e : indentMask 0x10 = 0x10 := by decide
        rw [e]
        refine ⟨?_, ?_, ?_⟩
        · rw [put_other _ _ _ _ _ _ _ (by decide) (by decide), h4]
        · have e2 : put 32 (0x10 <<< 16) 0x10 16 word = put 32 ((2 ^ 1 - 1) <<< 20) 1 20 word := by
            simp [put]
          rw [e2, bits_put_same _ _ _ _ _ (by decide)]; decide
        · rw [put_other _ _ _ _ _ _ _ (by decide) (by decide), h2]; decide
      all_goals
        first
        | have e : indentMask 0x40 = 0xC0 := by decide
          rw [e]
          refine ⟨?_, ?_, ?_⟩
          · rw [put_other _ _ _ _ _ _ _ (by decide) (by decide), h4]
          · rw [put_other _ _ _ _ _ _ _ (by decide) (by decide), h1]; decide
          · have e2 : put 32 (0xC0 <<< 16) 0x40 16 word = put 32 ((2 ^ 2 - 1) <<< 22) 1 22 word := by
              simp [put]
            rw [e2, bits_put_same _ _ _ _ _ (by decide)]; decide
        | have e : indentMask 0x80 = 0xC0 := by decide
          rw [e]
          refine ⟨?_, ?_, ?_⟩
          · rw [put_other _ _ _ _ _ _ _ (by decide) (by decide), h4]
          · rw [put_other _ _ _ _ _ _ _ (by decide) (by decide), h1]; decide
          · have e2 : put 32 (0xC0 <<< 16) 0x80 16 word = put 32 ((2 ^ 2 - 1) <<< 22) 2 22 word := by
              simp [put]
            rw [e2, bits_put_same _ _ _ _ _ (by decide)]; decide

theorem indent_other (v word s' w' : Nat) (hm : 0xFF0000 &&& ((2 ^ w' - 1) <<< s') = 0) (h : s' + w' ≤ 32) :
    bits (put 32 (indentMask v <<< 16) v 16 word) s' w' = bits word s' w' := by
  apply put_other _ _ _ _ _ _ _ _ h
  apply Nat.eq_of_testBit_eq
  intro i
  have hc := congrArg (fun k => Nat.testBit k i) hm
  have hk : indentMask v = 0x0F ∨ indentMask v = 0x10 ∨ indentMask v = 0xC0 ∨ indentMask v = 0xDF := by
    unfold indentMask
    split
    · simp
    · split
      · simp
      · split
        · simp
        · simp
  simp only [Nat.testBit_and, Nat.zero_testBit] at hc ⊢
  have e : ∀ m, (m <<< 16) &&& 0xFF0000 = m <<< 16 → (m <<< 16).testBit i = true → (0xFF0000 : Nat).testBit i = true := by
    intro m hm ht
    rw [← hm, Nat.testBit_and, Bool.and_eq_true] at ht
    exact ht.2
  cases hb : (indentMask v <<< 16).testBit i
  · rfl
  · have : (0xFF0000 : Nat).testBit i = true := by
      rcases hk with hk | hk | hk | hk <;> rw [hk] at hb <;> exact e _ (by decide) hb
    rw [this] at hc
    exact hc

theorem indent_unused (v word : Nat) : bits (put 32 (indentMask v <<< 16) v 16 word) 21 1 = bits word 21 1 := by
  apply put_other _ _ _ _ _ _ _ _ (by decide)
  unfold indentMask
  split
  · decide
  · split
    · decide
    · split <;> decide

/-- What the record says about `x`. -/
def seenOf (x : Xf) : Seen where
  font := fontIndex x % 65536
  format := x.formatIndex % 65536
  locked := x.locked
  hidden := x.hidden
  isStyle := !x.isCell
  prefix123 := false
  parent := if x.isCell then 0 else 0xFFF
  halign := x.halign % 8
  wrap := x.wrap
  valign := x.valign % 8
  justLast := false
  orient := x.orient % 256
  indent := x.indent % 16
  shrink := bits x.indent 4 1 == 1
  unused5 := false
  direction := bits x.indent 6 2
  unused8 := 0
  usesFormat := bits x.flags 2 1 == 1
  usesFont := bits x.flags 3 1 == 1
  usesAlign := bits x.flags 4 1 == 1
  usesBorder := bits x.flags 5 1 == 1
  usesPattern := bits x.flags 6 1 == 1
  usesProtect := bits x.flags 7 1 == 1
  left := ⟨x.bstyle.left % 16, x.bcolor.left % 128⟩
  right := ⟨x.bstyle.right % 16, x.bcolor.right % 128⟩
  top := ⟨x.bstyle.top % 16, x.bcolor.top % 128⟩
  bottom := ⟨x.bstyle.bottom % 16, x.bcolor.bottom % 128⟩
  diagonal := ⟨0, 0⟩
  diagWhich := 0
  hasExt := false
  pattern := x.fill % 64
  fg := x.fg % 128
  bg := x.bg % 128
  button := 0

end Xls.Xf
