/-
Byte strings, little-endian integers and readers for them.
-/
namespace Xls

/-- A stretch of memory, a record, a stream or a file. -/
abbrev Bytes := List UInt8

/-- `BYTE_k(num)`: `(num & MASK_BYTEk) >> 8k`, narrowed to 8 bits.
    common/systype.h 121-150. -/
def byteK (k v : Nat) : UInt8 := UInt8.ofNat (v / 256 ^ k)

/-- `n` bytes of `v`, least significant first; the spec-side notion of a little-endian field. -/
def leN : Nat → Nat → Bytes
  | 0, _ => []
  | n + 1, v => UInt8.ofNat v :: leN n (v / 256)

abbrev le16 (v : Nat) : Bytes := leN 2 v
abbrev le32 (v : Nat) : Bytes := leN 4 v
abbrev le64 (v : Nat) : Bytes := leN 8 v

/-- Value of a little-endian byte string (reader side). -/
def ofLE : Bytes → Nat
  | [] => 0
  | b :: r => b.toNat + 256 * ofLE r

/-- Read an `n`-byte little-endian integer off the front. -/
def takeLE (n : Nat) (bs : Bytes) : Option (Nat × Bytes) :=
  if n ≤ bs.length then some (ofLE (bs.take n), bs.drop n) else none

/-- Read an `n`-byte little-endian integer at offset `i`. -/
def rdLE (n : Nat) (bs : Bytes) (i : Nat) : Option Nat :=
  (takeLE n (bs.drop i)).map Prod.fst

/-- Take exactly `n` bytes off the front. -/
def takeN (n : Nat) (bs : Bytes) : Option (Bytes × Bytes) :=
  if n ≤ bs.length then some (bs.take n, bs.drop n) else none

/-- `(unsigned32_t)x` / `(signed32_t)x` stored in a 32-bit field (two's complement). -/
def u32OfInt (x : Int) : Nat := (x % 4294967296).toNat
def u16OfInt (x : Int) : Nat := (x % 65536).toNat

/-- A 32-bit field read as signed. -/
def s32OfNat (n : Nat) : Int := if n < 2147483648 then n else (n : Int) - 4294967296

@[simp] theorem leN_length (n v : Nat) : (leN n v).length = n := by
  induction n generalizing v with
  | zero => rfl
  | succ n ih => simp [leN, ih]

theorem ofLE_leN (n v : Nat) : ofLE (leN n v) = v % 256 ^ n := by
  induction n generalizing v with
  | zero => simp [leN, ofLE, Nat.mod_one]
  | succ n ih =>
    have h : 256 ^ (n + 1) = 256 * 256 ^ n := by rw [Nat.pow_succ, Nat.mul_comm]
    rw [h, Nat.mod_mul]
    simp [leN, ofLE, ih, UInt8.toNat_ofNat']

theorem ofLE_lt (bs : Bytes) : ofLE bs < 256 ^ bs.length := by
  induction bs with
  | nil => simp [ofLE]
  | cons b r ih =>
    have := b.toNat_lt
    simp only [ofLE, List.length_cons, Nat.pow_succ]
    omega

theorem leN_ofLE (bs : Bytes) : leN bs.length (ofLE bs) = bs := by
  induction bs with
  | nil => rfl
  | cons b r ih =>
    have hb := b.toNat_lt
    simp only [List.length_cons, leN, ofLE]
    have h1 : (b.toNat + 256 * ofLE r) / 256 = ofLE r := by omega
    rw [h1, ih]
    congr 1
    apply UInt8.toNat_inj.mp
    simp only [UInt8.toNat_ofNat']
    omega

@[simp] theorem takeLE_leN_append (n v : Nat) (r : Bytes) :
    takeLE n (leN n v ++ r) = some (v % 256 ^ n, r) := by
  unfold takeLE
  rw [if_pos (by simp)]
  rw [List.take_append_of_le_length (by simp), List.take_of_length_le (by simp),
    List.drop_append_of_le_length (by simp), List.drop_of_length_le (by simp), ofLE_leN]
  simp

theorem takeN_append (bs r : Bytes) : takeN bs.length (bs ++ r) = some (bs, r) := by
  simp [takeN]

theorem takeN_append' {n : Nat} (bs r : Bytes) (h : bs.length = n) :
    takeN n (bs ++ r) = some (bs, r) := by
  subst h; exact takeN_append bs r

theorem rdLE_at (n v : Nat) (pre post : Bytes) :
    rdLE n (pre ++ (leN n v ++ post)) pre.length = some (v % 256 ^ n) := by
  simp [rdLE]

theorem rdLE_at' {i : Nat} (n v : Nat) (pre post : Bytes) (h : pre.length = i) :
    rdLE n (pre ++ (leN n v ++ post)) i = some (v % 256 ^ n) := by
  subst h; exact rdLE_at n v pre post

theorem leN_two (v : Nat) : leN 2 v = [byteK 0 v, byteK 1 v] := by
  simp [leN, byteK]

theorem leN_four (v : Nat) : leN 4 v = [byteK 0 v, byteK 1 v, byteK 2 v, byteK 3 v] := by
  simp [leN, byteK, Nat.div_div_eq_div_mul]

theorem leN_eight (v : Nat) : leN 8 v =
    [byteK 0 v, byteK 1 v, byteK 2 v, byteK 3 v, byteK 4 v, byteK 5 v, byteK 6 v, byteK 7 v] := by
  simp [leN, byteK, Nat.div_div_eq_div_mul]

theorem leN_mod (n v : Nat) : leN n (v % 256 ^ n) = leN n v := by
  have h := leN_ofLE (leN n v)
  rw [leN_length, ofLE_leN] at h
  exact h

theorem u32OfInt_lt (x : Int) : u32OfInt x < 4294967296 := by
  unfold u32OfInt; omega

theorem s32_u32 (x : Int) (h1 : -2147483648 ≤ x) (h2 : x < 2147483648) :
    s32OfNat (u32OfInt x) = x := by
  unfold s32OfNat u32OfInt; split <;> omega

end Xls
