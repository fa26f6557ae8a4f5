import Verif.Num.Model
import Verif.Num.Spec
namespace Xls.Num
open Xls.Biff

theorem pow_split {a b c : Nat} (h : a + b = c) : 2 ^ a * 2 ^ b = (2 : Nat) ^ c := by rw [← Nat.pow_add, h]

/-- The bits of `dblOfNat` for a positive number below 2^53. -/
theorem dblOfNat_parts {n : Nat} (h0 : 0 < n) (h : n < 2 ^ 53) :
    ∃ k, k ≤ 52 ∧ 2 ^ 52 ≤ n * 2 ^ (52 - k) ∧ n * 2 ^ (52 - k) < 2 ^ 53 ∧
      dblOfNat n = (k + 1023) * 2 ^ 52 + (n * 2 ^ (52 - k) - 2 ^ 52) := by
  have hn : n ≠ 0 := by omega
  have h1 : 2 ^ n.log2 ≤ n := Nat.log2_self_le hn
  have h2 : n < 2 ^ (n.log2 + 1) := Nat.lt_log2_self
  have hk : n.log2 ≤ 52 := by
    have := (Nat.log2_lt hn (k := 53)).mpr h
    omega
  refine ⟨n.log2, hk, ?_, ?_, by unfold dblOfNat; rw [if_neg hn]⟩
  · have := Nat.mul_le_mul_right (2 ^ (52 - n.log2)) h1
    rwa [pow_split (show n.log2 + (52 - n.log2) = 52 by omega)] at this
  · have := Nat.mul_lt_mul_of_pos_right h2 (Nat.two_pow_pos (52 - n.log2))
    rwa [pow_split (show n.log2 + 1 + (52 - n.log2) = 53 by omega)] at this

theorem dblOfNat_lt {n : Nat} (h : n < 2 ^ 53) : dblOfNat n < 2 ^ 63 := by
  by_cases h0 : n = 0
  · subst h0; decide
  · obtain ⟨k, hk, a, b, e⟩ := dblOfNat_parts (by omega) h
    omega

theorem dblOfInt_lt {z : Int} (h : z.natAbs < 2 ^ 53) : dblOfInt z < 2 ^ 64 := by
  have := dblOfNat_lt h
  unfold dblOfInt
  split <;> omega

/-- Converting an integer of at most 53 bits to `double` keeps its value. -/
theorem dblOfInt_denotes {z : Int} (h : z.natAbs < 2 ^ 53) : Denotes (dblOfInt z) z := by
  unfold Denotes
  by_cases h0 : z = 0
  · subst h0; exact ⟨0, 1, by decide, by rw [Int.zero_mul, Int.zero_mul]⟩
  obtain ⟨k, hk, a, b, e⟩ := dblOfNat_parts (n := z.natAbs) (by omega) h
  have hsig : ((2 : Int) ^ 52 + ((z.natAbs * 2 ^ (52 - k) - 2 ^ 52 : Nat) : Int)) = (z.natAbs : Int) * 2 ^ (52 - k) := by
    have : ((z.natAbs * 2 ^ (52 - k) : Nat) : Int) = (z.natAbs : Int) * 2 ^ (52 - k) := by simp
    rw [← this]; omega
  have hpow : (2 : Int) ^ (52 - k) * 2 ^ (k + 1023) = 2 ^ 1075 := by
    rw [← Int.pow_add, show 52 - k + (k + 1023) = 1075 by omega]
  generalize (2 : Int) ^ 1075 = Q at hpow ⊢
  generalize hm : z.natAbs * 2 ^ (52 - k) - 2 ^ 52 = m at e hsig
  have hm52 : m < 2 ^ 52 := by omega
  unfold dblOfInt
  split
  · rename_i hz
    refine ⟨-((z.natAbs : Int) * 2 ^ (52 - k)), k + 1023, ?_, ?_⟩
    · unfold dblParts
      rw [e]
      have h1 : (2 ^ 63 + ((k + 1023) * 2 ^ 52 + m)) / 2 ^ 52 % 2048 = k + 1023 := by omega
      have h2 : (2 ^ 63 + ((k + 1023) * 2 ^ 52 + m)) % 2 ^ 52 = m := by omega
      have h3 : (2 ^ 63 + ((k + 1023) * 2 ^ 52 + m)) / 2 ^ 63 % 2 = 1 := by omega
      simp only [h1, h2, h3]
      rw [if_neg (by omega), if_pos trivial, if_neg (by omega), if_neg (by omega), hsig]
    · rw [Int.neg_mul, Int.mul_assoc, hpow, ← Int.neg_mul]
      rw [show -(z.natAbs : Int) = z by omega]
  · rename_i hz
    refine ⟨(z.natAbs : Int) * 2 ^ (52 - k), k + 1023, ?_, ?_⟩
    · unfold dblParts
      rw [e]
      have h1 : ((k + 1023) * 2 ^ 52 + m) / 2 ^ 52 % 2048 = k + 1023 := by omega
      have h2 : ((k + 1023) * 2 ^ 52 + m) % 2 ^ 52 = m := by omega
      have h3 : ((k + 1023) * 2 ^ 52 + m) / 2 ^ 63 % 2 = 0 := by omega
      simp only [h1, h2, h3]
      rw [if_neg (by omega), if_neg (by omega), if_neg (by omega), if_neg (by omega), hsig]
    · rw [Int.mul_assoc, hpow, show (z.natAbs : Int) = z by omega]

/-- A pattern denotes at most one integer. -/
theorem denotes_unique {b : Nat} {x y : Int} (hx : Denotes b x) (hy : Denotes b y) : x = y := by
  obtain ⟨m, e, h1, h2⟩ := hx
  obtain ⟨m', e', h1', h2'⟩ := hy
  rw [h1] at h1'
  simp only [Option.some.injEq, Prod.mk.injEq] at h1'
  rw [← h1'.1, ← h1'.2, h2] at h2'
  exact Int.eq_of_mul_eq_mul_right (Int.pow_ne_zero (by decide)) h2'

theorem readCell_head {typ row col xf : Nat} {p : Bytes} (hr : row < 65536) (hc : col < 65536) (hx : xf < 65536) :
    readCell typ (cellHead row col xf ++ p) = (readContent typ p).map fun c => ⟨row, col, xf, c⟩ := by
  unfold readCell cellHead
  simp only [List.append_assoc, takeLE_leN_append, Option.bind_some]
  rw [show (256 : Nat) ^ 2 = 65536 from rfl, Nat.mod_eq_of_lt hr, Nat.mod_eq_of_lt hc, Nat.mod_eq_of_lt hx]

theorem takeLE_leN (n v : Nat) : takeLE n (leN n v) = some (v % 256 ^ n, []) := by
  have := takeLE_leN_append n v []
  rwa [List.append_nil] at this

/-- Reading back a number record. -/
theorem readCell_number {row col xf : Nat} (hr : row < 65536) (hc : col < 65536) (hx : xf < 65536) (n : Number) :
    readCell (numberRecord row col xf n).1 (numberRecord row col xf n).2 =
      some ⟨row, col, xf, .number (match n with | .dbl b => .dbl (b % 2 ^ 64) | .int z => rkValue ((u32OfInt z * 4 + 2) % 2 ^ 32))⟩ := by
  cases n with
  | dbl b =>
    show readCell 0x203 (cellHead row col xf ++ leN 8 b) = _
    rw [readCell_head hr hc hx]
    simp only [readContent, takeLE_leN, Option.bind_some]
    rfl
  | int z =>
    show readCell 0x27E (cellHead row col xf ++ leN 4 (u32OfInt z * 4 + 2)) = _
    rw [readCell_head hr hc hx]
    simp only [readContent, takeLE_leN, Option.bind_some]
    rfl

theorem rkValue_int {z : Int} (h1 : -0x20000000 ≤ z) (h2 : z < 0x20000000) :
    rkValue ((u32OfInt z * 4 + 2) % 2 ^ 32) = .int z := by
  unfold rkValue u32OfInt
  have e1 : ((z % 4294967296).toNat * 4 + 2) % 2 ^ 32 / 2 % 2 = 1 := by omega
  have e2 : ((z % 4294967296).toNat * 4 + 2) % 2 ^ 32 % 2 = 0 := by omega
  have e3 : ((z % 4294967296).toNat * 4 + 2) % 2 ^ 32 / 4 = if 0 ≤ z then z.toNat else (z + 2 ^ 30).toNat := by
    split <;> omega
  rw [e1, e2, e3, if_pos rfl, if_neg (by decide)]
  congr 1
  by_cases hz : 0 ≤ z
  · rw [if_pos hz, if_pos (by omega)]; omega
  · rw [if_neg hz, if_neg (by omega)]; omega

end Xls.Num
