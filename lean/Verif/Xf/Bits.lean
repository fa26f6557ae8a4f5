import Verif.Xf.Model
import Verif.Xf.Spec
/-
Bit fields: what the masks and shifts of `CExtFormat` do to each field of a word.
-/
namespace Xls.Xf
open Xls.Biff

theorem testBit_bits (word s w i : Nat) : (bits word s w).testBit i = (decide (i < w) && word.testBit (s + i)) := by
  simp [bits, Nat.testBit_mod_two_pow, Nat.testBit_div_two_pow, Nat.add_comm]

theorem testBit_mask (s w i : Nat) : ((2 ^ w - 1) <<< s).testBit i = (decide (s ≤ i) && decide (i < s + w)) := by
  rw [Nat.testBit_shiftLeft, Nat.testBit_two_pow_sub_one]
  by_cases h : s ≤ i
  · have : (i - s < w) ↔ (i < s + w) := by omega
    simp [h, this]
  · simp [h]

theorem testBit_put (n s w v word i : Nat) (hi : i < n) :
    (put n ((2 ^ w - 1) <<< s) v s word).testBit i =
      if s ≤ i ∧ i < s + w then v.testBit (i - s) else word.testBit i := by
  unfold put
  simp only [Nat.testBit_or, Nat.testBit_and, Nat.testBit_xor, Nat.testBit_two_pow_sub_one,
    Nat.testBit_mod_two_pow, Nat.testBit_shiftLeft]
  by_cases h1 : s ≤ i
  · have e : (i < s + w) = (i - s < w) := propext (by omega)
    simp only [e]
    by_cases h2 : i - s < w <;> simp [h1, h2, hi]
  · simp [h1, hi]

theorem bits_put_same (n s w v word : Nat) (h : s + w ≤ n) :
    bits (put n ((2 ^ w - 1) <<< s) v s word) s w = v % 2 ^ w := by
  apply Nat.eq_of_testBit_eq
  intro i
  rw [testBit_bits, Nat.testBit_mod_two_pow]
  by_cases hi : i < w
  · rw [testBit_put _ _ _ _ _ _ (by omega), if_pos (by omega)]
    simp [hi]
  · simp [hi]

theorem bits_put_other (n s w v word s' w' : Nat) (h : s' + w' ≤ n) (hd : s' + w' ≤ s ∨ s + w ≤ s') :
    bits (put n ((2 ^ w - 1) <<< s) v s word) s' w' = bits word s' w' := by
  apply Nat.eq_of_testBit_eq
  intro i
  rw [testBit_bits, testBit_bits]
  by_cases hi : i < w'
  · rw [testBit_put _ _ _ _ _ _ (by omega), if_neg (by omega)]
  · simp [hi]

theorem bits_mod (word n s w : Nat) (h : s + w ≤ n) : bits (word % 2 ^ n) s w = bits word s w := by
  apply Nat.eq_of_testBit_eq
  intro i
  rw [testBit_bits, testBit_bits, Nat.testBit_mod_two_pow]
  by_cases hi : i < w
  · have : s + i < n := by omega
    simp [hi, this]
  · simp [hi]

theorem putFlag_put (n s word : Nat) (b : Bool) (h : s < n) (hw : word < 2 ^ n) :
    putFlag n (2 ^ s) b word = put n ((2 ^ 1 - 1) <<< s) b.toNat s word := by
  apply Nat.eq_of_testBit_eq
  intro i
  by_cases hi : i < n
  · rw [testBit_put _ _ _ _ _ _ hi]
    have h2 : (2 ^ s).testBit i = decide (s = i) := Nat.testBit_two_pow
    cases b
    · simp only [putFlag, Bool.false_eq_true, if_false, Nat.testBit_and, Nat.testBit_xor, Nat.testBit_two_pow_sub_one, h2]
      by_cases he : s = i
      · simp [he, hi]
      · rw [if_neg (by omega)]; simp [he, hi]
    · simp only [putFlag, if_true, Nat.testBit_or, h2]
      by_cases he : s = i
      · simp [he]
      · rw [if_neg (by omega)]; simp [he]
  · have hlt : (2 : Nat) ^ n ≤ 2 ^ i := Nat.pow_le_pow_right (by decide) (by omega)
    have hwi : word.testBit i = false := Nat.testBit_lt_two_pow (by omega)
    have hp : (put n ((2 ^ 1 - 1) <<< s) b.toNat s word).testBit i = false := by
      unfold put
      simp only [Nat.testBit_or, Nat.testBit_and, hwi, Nat.testBit_mod_two_pow]
      simp [hi]
    rw [hp]
    have h2 : (2 ^ s).testBit i = false := by rw [Nat.testBit_two_pow]; simp; omega
    cases b
    · simp [putFlag, hwi]
    · simp [putFlag, hwi, h2]

theorem testBit_put2 (n s1 w1 v1 s2 w2 v2 word i : Nat) (hi : i < n) (hd : s2 + w2 ≤ s1) :
    (put2 n ((2 ^ w1 - 1) <<< s1) v1 s1 ((2 ^ w2 - 1) <<< s2) v2 s2 word).testBit i =
      if s1 ≤ i ∧ i < s1 + w1 then v1.testBit (i - s1)
      else if s2 ≤ i ∧ i < s2 + w2 then v2.testBit (i - s2) else word.testBit i := by
  unfold put2
  simp only [Nat.testBit_or, Nat.testBit_and, Nat.testBit_xor, Nat.testBit_two_pow_sub_one,
    Nat.testBit_mod_two_pow, Nat.testBit_shiftLeft]
  by_cases h1 : s1 ≤ i
  · have h3 : ¬ (i < s2 + w2) := by omega
    have h3' : ¬ (i - s2 < w2) ∨ ¬ s2 ≤ i := by omega
    have e : (i < s1 + w1) = (i - s1 < w1) := propext (by omega)
    simp only [e]
    rcases h3' with h3' | h3' <;> by_cases h2 : i - s1 < w1 <;> simp [h1, h2, h3, h3', hi]
  · by_cases h3 : s2 ≤ i
    · have e : (i < s2 + w2) = (i - s2 < w2) := propext (by omega)
      simp only [e]
      by_cases h4 : i - s2 < w2 <;> simp [h1, h3, h4, hi]
    · simp [h1, h3, hi]

theorem bits_put2 (n s1 w1 v1 s2 w2 v2 word s w : Nat) (hd : s2 + w2 ≤ s1) (h : s + w ≤ n) :
    bits (put2 n ((2 ^ w1 - 1) <<< s1) v1 s1 ((2 ^ w2 - 1) <<< s2) v2 s2 word) s w =
      bits (put n ((2 ^ w1 - 1) <<< s1) v1 s1 (put n ((2 ^ w2 - 1) <<< s2) v2 s2 word)) s w := by
  apply Nat.eq_of_testBit_eq
  intro i
  rw [testBit_bits, testBit_bits]
  by_cases hi : i < w
  · rw [testBit_put2 _ _ _ _ _ _ _ _ _ (by omega) hd, testBit_put _ _ _ _ _ _ (by omega),
      testBit_put _ _ _ _ _ _ (by omega)]
  · simp [hi]

/-! ### The words of the record -/

/-- The record as its seven words. -/
def words (f m p a b1 b2 c : Nat) : Bytes :=
  leN 2 0xE0 ++ leN 2 20 ++ leN 2 f ++ leN 2 m ++ leN 2 p ++ leN 4 a ++ leN 4 b1 ++ leN 4 b2 ++ leN 2 c

theorem set_mid {n i : Nat} (pre post : Bytes) (v w : Nat) (h : pre.length = i) :
    (pre ++ (leN n w ++ post)).take i ++ leN n v ++ (pre ++ (leN n w ++ post)).drop (i + n) = pre ++ (leN n v ++ post) := by
  subst h
  have e : pre ++ (leN n w ++ post) = (pre ++ leN n w) ++ post := by simp
  have hl : (pre ++ leN n w).length = pre.length + n := by simp
  have hd : List.drop (pre.length + n) ((pre ++ leN n w) ++ post) = post := by rw [← hl, List.drop_left]
  rw [List.take_left, e, hd]
  simp

theorem setAt16_mid {i : Nat} (pre post : Bytes) (v w : Nat) (h : pre.length = i) :
    setAt16 (pre ++ (leN 2 w ++ post)) v i = some (pre ++ (leN 2 v ++ post)) := by
  unfold setAt16
  rw [if_pos (by simp; omega), set_mid pre post v w h]

theorem setAt32_mid {i : Nat} (pre post : Bytes) (v w : Nat) (h : pre.length = i) :
    setAt32 (pre ++ (leN 4 w ++ post)) v i = some (pre ++ (leN 4 v ++ post)) := by
  unfold setAt32
  rw [if_pos (by simp; omega), set_mid pre post v w h]

theorem upd16_mid {i : Nat} (pre post : Bytes) (g : Nat → Nat) (w : Nat) (h : pre.length = i) :
    upd16 i g (pre ++ (leN 2 w ++ post)) = some (pre ++ (leN 2 (g (w % 2 ^ 16)) ++ post)) := by
  unfold upd16
  rw [rdLE_at' _ _ _ _ h, Option.bind_some, setAt16_mid _ _ _ _ h]

theorem upd32_mid {i : Nat} (pre post : Bytes) (g : Nat → Nat) (w : Nat) (h : pre.length = i) :
    upd32 i g (pre ++ (leN 4 w ++ post)) = some (pre ++ (leN 4 (g (w % 2 ^ 32)) ++ post)) := by
  unfold upd32
  rw [rdLE_at' _ _ _ _ h, Option.bind_some, setAt32_mid _ _ _ _ h]

theorem set_f (v f m p a b1 b2 c : Nat) : setAt16 (words f m p a b1 b2 c) v 4 = some (words v m p a b1 b2 c) := by
  have := setAt16_mid (i := 4) (leN 2 0xE0 ++ leN 2 20) (leN 2 m ++ leN 2 p ++ leN 4 a ++ leN 4 b1 ++ leN 4 b2 ++ leN 2 c)
    v f (by simp)
  simpa only [words, List.append_assoc] using this

theorem set_m (v f m p a b1 b2 c : Nat) : setAt16 (words f m p a b1 b2 c) v 6 = some (words f v p a b1 b2 c) := by
  have := setAt16_mid (i := 6) (leN 2 0xE0 ++ leN 2 20 ++ leN 2 f) (leN 2 p ++ leN 4 a ++ leN 4 b1 ++ leN 4 b2 ++ leN 2 c)
    v m (by simp)
  simpa only [words, List.append_assoc] using this

theorem upd_p (g : Nat → Nat) (f m p a b1 b2 c : Nat) :
    upd16 8 g (words f m p a b1 b2 c) = some (words f m (g (p % 2 ^ 16)) a b1 b2 c) := by
  have := upd16_mid (i := 8) (leN 2 0xE0 ++ leN 2 20 ++ leN 2 f ++ leN 2 m) (leN 4 a ++ leN 4 b1 ++ leN 4 b2 ++ leN 2 c)
    g p (by simp)
  simpa only [words, List.append_assoc] using this

theorem upd_a (g : Nat → Nat) (f m p a b1 b2 c : Nat) :
    upd32 10 g (words f m p a b1 b2 c) = some (words f m p (g (a % 2 ^ 32)) b1 b2 c) := by
  have := upd32_mid (i := 10) (leN 2 0xE0 ++ leN 2 20 ++ leN 2 f ++ leN 2 m ++ leN 2 p) (leN 4 b1 ++ leN 4 b2 ++ leN 2 c)
    g a (by simp)
  simpa only [words, List.append_assoc] using this

theorem upd_b1 (g : Nat → Nat) (f m p a b1 b2 c : Nat) :
    upd32 14 g (words f m p a b1 b2 c) = some (words f m p a (g (b1 % 2 ^ 32)) b2 c) := by
  have := upd32_mid (i := 14) (leN 2 0xE0 ++ leN 2 20 ++ leN 2 f ++ leN 2 m ++ leN 2 p ++ leN 4 a) (leN 4 b2 ++ leN 2 c)
    g b1 (by simp)
  simpa only [words, List.append_assoc] using this

theorem upd_b2 (g : Nat → Nat) (f m p a b1 b2 c : Nat) :
    upd32 18 g (words f m p a b1 b2 c) = some (words f m p a b1 (g (b2 % 2 ^ 32)) c) := by
  have := upd32_mid (i := 18) (leN 2 0xE0 ++ leN 2 20 ++ leN 2 f ++ leN 2 m ++ leN 2 p ++ leN 4 a ++ leN 4 b1) (leN 2 c)
    g b2 (by simp)
  simpa only [words, List.append_assoc] using this

theorem upd_c (g : Nat → Nat) (f m p a b1 b2 c : Nat) :
    upd16 22 g (words f m p a b1 b2 c) = some (words f m p a b1 b2 (g (c % 2 ^ 16))) := by
  have := upd16_mid (i := 22) (leN 2 0xE0 ++ leN 2 20 ++ leN 2 f ++ leN 2 m ++ leN 2 p ++ leN 4 a ++ leN 4 b1 ++ leN 4 b2) []
    g c (by simp)
  simpa only [words, List.append_assoc, List.append_nil] using this

end Xls.Xf
