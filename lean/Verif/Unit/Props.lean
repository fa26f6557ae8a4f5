import Verif.Unit.Lemmas
import Verif.Unit.Spec
/-
Property theorems about the record buffer: C01 (integer fields), C02 (appends), C03 (patches),
C04 (strings).
-/
namespace Xls.Unit

/-- A user-visible append operation on a record under construction. -/
inductive Op
  | u8 (v : UInt8)
  | u16 (v : Nat)
  | u32 (v : Nat)
  | u64 (v : Nat)
  | arr (bs : Bytes)
  | fill (v : UInt8) (n : Nat)
  | app (bs : Bytes)
  | str (s : List UInt16) (f : Fmt)
  /-- not an append: the vector holding all stores grows and copies every unit -/
  | reloc

/-- What the operation means: the bytes it contributes. -/
def Op.bytes : Op → Bytes
  | .u8 v => [v]
  | .u16 v => leN 2 v
  | .u32 v => leN 4 v
  | .u64 v => leN 8 v
  | .arr bs => bs
  | .fill v n => List.replicate n v
  | .app bs => bs
  | .str s f => strBytes s f
  | .reloc => []

/-- Running the real operation. -/
def Op.run (u : CUnit) : Op → Option CUnit
  | .u8 v => addValue8 u v
  | .u16 v => addValue16 u v
  | .u32 v => addValue32 u v
  | .u64 v => addValue64 u v
  | .arr bs => addDataArray u bs
  | .fill v n => addFixedDataArray u v n
  | .app bs => append u bs
  | .str s f => addUnicodeString u s f
  | .reloc => some (u.map Store.relocate)

def runOps (u : CUnit) (ops : List Op) : Option CUnit := ops.foldlM Op.run u

/-! ### Strings: size prediction -/

theorem or_le_127 (a b : UInt16) : a ||| b ≤ 0x7F ↔ a ≤ 0x7F ∧ b ≤ 0x7F := by
  simp only [UInt16.le_iff_toNat_le, UInt16.toNat_or]
  have h127 : (0x7F : UInt16).toNat = 127 := rfl
  rw [h127]
  constructor
  · intro h
    have h1 := Nat.left_le_or (n := a.toNat) (m := b.toNat)
    have h2 := Nat.right_le_or (n := a.toNat) (m := b.toNat)
    omega
  · rintro ⟨h1, h2⟩
    have := Nat.or_lt_two_pow (n := 7) (x := a.toNat) (y := b.toNat) (by omega) (by omega)
    omega

theorem foldl_or_le (s : List UInt16) (a : UInt16) :
    s.foldl (· ||| ·) a ≤ 0x7F ↔ a ≤ 0x7F ∧ ∀ c ∈ s, c ≤ 0x7F := by
  induction s generalizing a with
  | nil => simp
  | cons c r ih =>
    simp only [List.foldl_cons, ih, or_le_127, List.mem_cons, forall_eq_or_imp]
    constructor
    · rintro ⟨⟨h1, h2⟩, h3⟩; exact ⟨h1, h2, h3⟩
    · rintro ⟨h1, h2, h3⟩; exact ⟨⟨h1, h2⟩, h3⟩

/-- The one-byte form is chosen exactly when every unit is at most 0x7F. -/
theorem isASCII_iff (s : List UInt16) : isASCII s = true ↔ ∀ c ∈ s, c ≤ 0x7F := by
  simp only [isASCII, decide_eq_true_eq, foldl_or_le]
  constructor
  · exact fun h => h.2
  · exact fun h => ⟨by decide, h⟩

theorem length_flatMap_pair (s : List UInt16) :
    (s.flatMap (fun c => [byteK 0 c.toNat, byteK 1 c.toNat])).length = s.length + s.length := by
  induction s with
  | nil => rfl
  | cons c r ih => simp only [List.flatMap_cons, List.length_append, ih]; simp; omega

/-- C04 (size): the number of bytes stored for a string is what `UnicodeStringLength` predicts. -/
theorem c04_string_size (s : List UInt16) (f : Fmt) :
    (strBytes s f).length = unicodeStringLength s f := by
  have hp := length_flatMap_pair s
  unfold strBytes strChars
  cases hA : isASCII s <;> cases f <;>
    simp only [strHeader, unicodeStringLength, hA, List.length_append, if_true, List.length_cons,
      List.length_nil, List.length_map, Bool.false_eq_true, if_false, hp] <;> omega

/-! ### C02 -/

theorem Holds.relocate {s : Store} {bs : Bytes} (h : Holds s bs) : Holds s.relocate bs := by
  obtain ⟨vr, mem, ds⟩ := s
  cases vr with
  | false => exact h
  | true =>
    obtain ⟨ha, hs, hf, hu⟩ := h
    simp only at hs hf hu
    have hl : (regrow mem ds mem.length).length = mem.length := regrow_length _ _ _ (by omega)
    refine ⟨rfl, hs, ?_, ?_⟩
    · show bs.length ≤ (regrow mem ds mem.length).length
      omega
    · show (regrow mem ds mem.length).take bs.length = _
      rw [← hu, hs]
      exact regrow_take _ _ _ _ (by omega) (by omega) (by omega)

theorem run_holds {s : Store} {bs : Bytes} (op : Op) (h : Holds s bs)
    (h29 : bs.length + op.bytes.length < 2 ^ 29) :
    ∃ s', op.run (some s) = some (some s') ∧ Holds s' (bs ++ op.bytes) := by
  cases op with
  | u8 v => exact addValue8_holds v h h29
  | u16 v =>
    simp only [Op.bytes, leN_length] at h29
    simp only [Op.run, Op.bytes, addValue16, leN_two]
    obtain ⟨s1, e1, h1⟩ := addValue8_holds (byteK 0 v) h (by omega)
    obtain ⟨s2, e2, h2⟩ := addValue8_holds (byteK 1 v) h1 (by simp; omega)
    exact ⟨s2, by simp [e1, e2], by simpa using h2⟩
  | u32 v =>
    simp only [Op.bytes, leN_length] at h29
    simp only [Op.run, Op.bytes, addValue32, leN_four]
    obtain ⟨s1, e1, h1⟩ := addValue8_holds (byteK 0 v) h (by omega)
    obtain ⟨s2, e2, h2⟩ := addValue8_holds (byteK 1 v) h1 (by simp; omega)
    obtain ⟨s3, e3, h3⟩ := addValue8_holds (byteK 2 v) h2 (by simp; omega)
    obtain ⟨s4, e4, h4⟩ := addValue8_holds (byteK 3 v) h3 (by simp; omega)
    exact ⟨s4, by simp [e1, e2, e3, e4], by simpa using h4⟩
  | u64 v =>
    simp only [Op.bytes, leN_length] at h29
    simp only [Op.run, Op.bytes, addValue64, leN_eight]
    obtain ⟨s1, e1, h1⟩ := addValue8_holds (byteK 0 v) h (by omega)
    obtain ⟨s2, e2, h2⟩ := addValue8_holds (byteK 1 v) h1 (by simp; omega)
    obtain ⟨s3, e3, h3⟩ := addValue8_holds (byteK 2 v) h2 (by simp; omega)
    obtain ⟨s4, e4, h4⟩ := addValue8_holds (byteK 3 v) h3 (by simp; omega)
    obtain ⟨s5, e5, h5⟩ := addValue8_holds (byteK 4 v) h4 (by simp; omega)
    obtain ⟨s6, e6, h6⟩ := addValue8_holds (byteK 5 v) h5 (by simp; omega)
    obtain ⟨s7, e7, h7⟩ := addValue8_holds (byteK 6 v) h6 (by simp; omega)
    obtain ⟨s8, e8, h8⟩ := addValue8_holds (byteK 7 v) h7 (by simp; omega)
    exact ⟨s8, by simp [e1, e2, e3, e4, e5, e6, e7, e8], by simpa using h8⟩
  | arr new => exact addRoomed_holds h (Nat.le_refl _) h29
  | fill v n =>
    exact addRoomed_holds h (by simp) h29
  | app new =>
    simp only [Op.run, Op.bytes, append, Option.bind_some]
    split
    · obtain ⟨s1, h1, h2, _⟩ := h.resize (s.dataSize + new.length) (by rw [h.size]; omega)
      rw [h1]
      exact addRoomed_holds h2 (Nat.le_refl _) h29
    · exact addRoomed_holds h (Nat.le_refl _) h29
  | str str f =>
    exact addRoomed_holds h (Nat.le_of_eq (c04_string_size str f)) h29
  | reloc => exact ⟨s.relocate, rfl, by simpa [Op.bytes] using h.relocate⟩

theorem runOps_holds (ops : List Op) {s : Store} {bs : Bytes} (h : Holds s bs)
    (h29 : bs.length + (ops.flatMap Op.bytes).length < 2 ^ 29) :
    ∃ s', runOps (some s) ops = some (some s') ∧ Holds s' (bs ++ ops.flatMap Op.bytes) := by
  induction ops generalizing s bs with
  | nil => exact ⟨s, rfl, by simpa using h⟩
  | cons op r ih =>
    simp only [List.flatMap_cons, List.length_append] at h29
    obtain ⟨s1, e1, h1⟩ := run_holds op h (by omega)
    obtain ⟨s2, e2, h2⟩ := ih h1 (by simp only [List.length_append]; omega)
    refine ⟨s2, ?_, by simpa using h2⟩
    simp only [runOps] at e2 ⊢
    simp [List.foldlM_cons, e1, e2]

/-- C02: any sequence of appends (with the unit being moved in memory any number of times in between)
    to a unit whose storage was set up with any capacity hint yields
    exactly the concatenation, with no access outside the allocation and no uninitialised byte,
    as long as the total stays below the 2^29 bytes a unit can address. -/
theorem c02_appends (hint : Nat) (ops : List Op)
    (h29 : (ops.flatMap Op.bytes).length < 2 ^ 29) :
    ∃ u, (inflate none hint).bind (fun u => runOps u ops) = some u ∧
      contents u = some (ops.flatMap Op.bytes) := by
  obtain ⟨s, e, h⟩ := runOps_holds ops (prepare_holds hint) (by simpa using h29)
  exact ⟨some s, by simp [inflate, e], by simpa [contents] using h.contents⟩

/-- C02 for records: `CRecord` starts with a 4-byte zero header put into a fresh unit
    (record.cpp 43-50); later appends follow it. -/
theorem c02_record_appends (ops : List Op)
    (h29 : 4 + (ops.flatMap Op.bytes).length < 2 ^ 29) :
    ∃ u, (addDataArray none [0, 0, 0, 0]).bind (fun u => runOps u ops) = some u ∧
      contents u = some ([0, 0, 0, 0] ++ ops.flatMap Op.bytes) := by
  obtain ⟨s0, e0, h0⟩ := addRoomed_holds (new := [0, 0, 0, 0]) (prepare_holds 4)
    (Nat.le_refl _) (by decide)
  obtain ⟨s, e, h⟩ := runOps_holds ops h0 (by simpa using h29)
  refine ⟨some s, ?_, by simpa [contents] using h.contents⟩
  show (addRoomed (prepare 4) 4 [0, 0, 0, 0]).bind _ = _
  simp only [List.length_cons, List.length_nil] at e0
  rw [e0]
  exact e

/-- The 2^29 limit is real: a unit filled to exactly `2^29` bytes (or any larger size) reports the
    size modulo `2^29`, so everything appended so far is lost.  (datast.h 88: `m_nDataSize : 29`.) -/
theorem c02_limit_is_real (v : UInt8) (n : Nat) (hn : fixedWidth < n) :
    ∃ u, addFixedDataArray none v n = some u ∧
      contents u = some (List.replicate (n % 2 ^ 29) v) := by
  have h0 := prepare_holds n
  have hds : (prepare n).dataSize = 0 := h0.size
  have hp : (prepare n).mem = List.replicate n none := by
    have : ¬ (n ≤ fixedWidth) := by omega
    simp only [prepare, if_neg this]
  have hp' : (prepare n).mem.length = n := by rw [hp, List.length_replicate]
  have hl : (List.replicate n v).length = n := List.length_replicate
  refine ⟨some ({ prepare n with
        mem := (prepare n).mem.take 0 ++ (List.replicate n v).map some ++
          (prepare n).mem.drop (0 + (List.replicate n v).length) }.setDataSize
            (0 + (List.replicate n v).length)), ?_, ?_⟩
  · show addRoomed (prepare n) n (List.replicate n v) = _
    unfold addRoomed
    rw [if_neg (by rw [← h0.alloc, hp', hds]; omega)]
    simp only [Option.bind_some, hds]
    rw [pokeSeq_eq _ _ _ (by rw [hp', hl]; omega)]
    rfl
  · simp only [contents, Option.bind_some, Store.contents, Store.setDataSize, hl]
    have hle : n % 2 ^ 29 ≤ n := Nat.mod_le _ _
    simp only [Nat.zero_add, List.take_zero, List.nil_append, List.map_replicate,
      List.drop_of_length_le (Nat.le_of_eq hp'), List.append_nil]
    rw [List.take_replicate, Nat.min_eq_left hle, if_pos (by simp; omega)]
    have := mapM_map_some (List.replicate (n % 2 ^ 29) v)
    rwa [List.map_replicate] at this

example : fixedWidth < 2 ^ 29 := by decide

example : (([.u16 258, .str [65, 0x20AC] .len2, .fill 0 20, .u8 7] : List Op).flatMap Op.bytes).length
    < 2 ^ 29 := by decide

example : ((inflate none 3).bind fun u => runOps u [.u16 258, .fill 9 17, .u32 1]).bind contents
    = some ([2, 1] ++ List.replicate 17 9 ++ [1, 0, 0, 0]) := by decide

/-! ### C03 -/

/-- Overwriting inside the used part, on the abstract contents. -/
theorem Holds.poke {s : Store} {bs : Bytes} (h : Holds s bs) (i : Nat) (v : UInt8) :
    Holds { s with mem := s.mem.set i (some v) } (bs.set i v) := by
  obtain ⟨vr, mem, ds⟩ := s
  obtain ⟨ha, hs, hf, hu⟩ := h
  simp only at ha hs hf hu
  refine ⟨?_, by simpa using hs, by simpa using hf, ?_⟩
  · cases vr
    · simpa [Store.getSize] using ha
    · rfl
  · simp only [List.length_set, List.take_set, hu, List.map_set]

/-- C03 for single bytes: success exactly inside the record, changing exactly that byte; otherwise
    the error `ERR_INVALID_INDEX` and no change. -/
theorem c03_setValueAt8 {s : Store} {bs : Bytes} (h : Holds s bs) (v : UInt8) (i : Nat) :
    if i < bs.length then
      ∃ s', setValueAt8 (some s) v i = some (some s', 0) ∧ Holds s' (bs.set i v)
    else setValueAt8 (some s) v i = some (some s, -3) := by
  have hs := h.size
  split
  · rename_i hi
    refine ⟨_, ?_, h.poke i v⟩
    simp only [setValueAt8, Option.bind_some, hs, if_pos hi, Unit.poke]
    rw [if_pos (by have := h.fits; omega)]
    rfl
  · rename_i hi
    simp [setValueAt8, hs, hi]

theorem setValueAt8_ok {s : Store} {bs : Bytes} (h : Holds s bs) (v : UInt8) (i : Nat)
    (hi : i < bs.length) :
    ∃ s', setValueAt8 (some s) v i = some (some s', 0) ∧ Holds s' (bs.set i v) := by
  have := c03_setValueAt8 h v i
  rwa [if_pos hi] at this

theorem set_set_eq (bs : Bytes) (i : Nat) (a b : UInt8) (h : i + 2 ≤ bs.length) :
    (bs.set i a).set (i + 1) b = bs.take i ++ [a, b] ++ bs.drop (i + 2) := by
  apply List.ext_getElem
  · simp; omega
  · intro k h1 h2
    simp only [List.getElem_set, List.getElem_append, List.length_append, List.length_take]
    have : min i bs.length = i := by omega
    simp only [this, List.length_cons, List.length_nil]
    split
    · subst_vars
      rw [dif_pos (by omega), dif_neg (by omega)]
      simp
    · split
      · subst_vars
        rw [dif_pos (by omega), dif_neg (by omega)]
        simp
      · by_cases hk : k < i
        · rw [dif_pos (by omega), dif_pos hk]; simp
        · rw [dif_neg (by omega)]
          simp only [List.getElem_drop]
          congr 1
          omega

/-- C03 for 16-bit patches inside the record. -/
theorem c03_setValueAt16 {s : Store} {bs : Bytes} (h : Holds s bs) (v i : Nat)
    (hi : i + 2 ≤ bs.length) (h32 : i + 1 < 2 ^ 32) :
    ∃ s', setValueAt16 (some s) v i = some (some s', 0) ∧
      Holds s' (bs.take i ++ leN 2 v ++ bs.drop (i + 2)) := by
  obtain ⟨s1, e1, h1⟩ := setValueAt8_ok h (byteK 0 v) i (by omega)
  obtain ⟨s2, e2, h2⟩ := setValueAt8_ok h1 (byteK 1 v) (i + 1) (by simp; omega)
  have hx : idx32 i 1 = i + 1 := Nat.mod_eq_of_lt h32
  refine ⟨s2, by simp [setValueAt16, e1, e2, hx], ?_⟩
  rw [set_set_eq _ _ _ _ hi] at h2
  rw [leN_two]; exact h2

/-- C03 for 32-bit patches inside the record. -/
theorem c03_setValueAt32 {s : Store} {bs : Bytes} (h : Holds s bs) (v i : Nat)
    (hi : i + 4 ≤ bs.length) (h32 : i + 3 < 2 ^ 32) :
    ∃ s', setValueAt32 (some s) v i = some (some s', 0) ∧
      Holds s' (bs.take i ++ leN 4 v ++ bs.drop (i + 4)) := by
  obtain ⟨s1, e1, h1⟩ := setValueAt8_ok h (byteK 0 v) i (by omega)
  obtain ⟨s2, e2, h2⟩ := setValueAt8_ok h1 (byteK 1 v) (i + 1) (by simp; omega)
  obtain ⟨s3, e3, h3⟩ := setValueAt8_ok h2 (byteK 2 v) (i + 2) (by simp; omega)
  obtain ⟨s4, e4, h4⟩ := setValueAt8_ok h3 (byteK 3 v) (i + 3) (by simp; omega)
  have hx1 : idx32 i 1 = i + 1 := Nat.mod_eq_of_lt (by omega)
  have hx2 : idx32 i 2 = i + 2 := Nat.mod_eq_of_lt (by omega)
  have hx3 : idx32 i 3 = i + 3 := Nat.mod_eq_of_lt (by omega)
  refine ⟨s4, by simp [setValueAt32, e1, e2, e3, e4, hx1, hx2, hx3], ?_⟩
  have hA := set_set_eq bs i (byteK 0 v) (byteK 1 v) (by omega)
  have hB := set_set_eq ((bs.set i (byteK 0 v)).set (i + 1) (byteK 1 v)) (i + 2) (byteK 2 v) (byteK 3 v)
    (by simp; omega)
  rw [show i + 2 + 1 = i + 3 from rfl, show i + 2 + 2 = i + 4 from rfl] at hB
  rw [hB, hA] at h4
  have hl : (bs.take i ++ [byteK 0 v, byteK 1 v]).length = i + 2 := by simp; omega
  have e5 : (bs.take i ++ [byteK 0 v, byteK 1 v] ++ bs.drop (i + 2)).take (i + 2) =
      bs.take i ++ [byteK 0 v, byteK 1 v] := by
    rw [List.take_append_of_le_length (by omega), List.take_of_length_le (by omega)]
  have e6 : (bs.take i ++ [byteK 0 v, byteK 1 v] ++ bs.drop (i + 2)).drop (i + 4) =
      bs.drop (i + 4) := by
    rw [List.drop_append, List.drop_of_length_le (by omega), hl, List.nil_append, List.drop_drop]
    congr 1
    omega
  rw [e5, e6] at h4
  rw [leN_four]
  simpa using h4

/-- The full claim of C03 for a `w`-byte patch operation `op value index`: it succeeds exactly when
    all `w` bytes lie inside the record, then changes exactly those bytes, and otherwise changes
    nothing and reports an error. -/
def PatchClaim (w : Nat) (op : CUnit → Nat → Nat → Res) : Prop :=
  ∀ (s : Store) (bs : Bytes) (v i : Nat), Holds s bs → i + w < 2 ^ 32 →
    ∃ s' e, op (some s) v i = some (some s', e) ∧
      (if i + w ≤ bs.length then e = 0 ∧ Holds s' (bs.take i ++ leN w v ++ bs.drop (i + w))
       else e ≠ 0 ∧ Holds s' bs)

/-- The claim of C03 holds for one-byte patches. -/
theorem c03_patch8 : PatchClaim 1 (fun u v i => setValueAt8 u (byteK 0 v) i) := by
  intro s bs v i h hi
  have := c03_setValueAt8 h (byteK 0 v) i
  by_cases hc : i < bs.length
  · rw [if_pos hc] at this
    obtain ⟨s', e1, h1⟩ := this
    refine ⟨s', 0, e1, ?_⟩
    rw [if_pos (by omega)]
    refine ⟨rfl, ?_⟩
    rw [List.set_eq_take_append_cons_drop, if_pos hc] at h1
    simpa [leN, byteK] using h1
  · rw [if_neg hc] at this
    refine ⟨s, -3, this, ?_⟩
    rw [if_neg (by omega)]
    exact ⟨by decide, h⟩

/-- C03 is violated at the end of a record: a 16-bit patch that straddles the end reports an error
    although it has already changed the last byte. -/
theorem c03_patch16_fails : ¬ PatchClaim 2 setValueAt16 := by
  intro hc
  have h0 : Holds { varying := false, mem := List.replicate 18 (some 0), dataSize := 4 }
      [0, 0, 0, 0] := ⟨rfl, rfl, by decide, by decide⟩
  obtain ⟨s', e, h1, h2⟩ := hc _ _ 0x0102 3 h0 (by decide)
  rw [if_neg (by decide)] at h2
  have h3 : setValueAt16 (some { varying := false, mem := List.replicate 18 (some 0), dataSize := 4 })
      0x0102 3 = some (some { varying := false, mem := (List.replicate 18 (some 0)).set 3 (some 2),
                              dataSize := 4 }, -100) := rfl
  rw [h3] at h1
  simp only [Option.some.injEq, Prod.mk.injEq] at h1
  have h4 := h2.2.contents
  rw [← h1.1] at h4
  revert h4
  decide

theorem c03_patch32_fails : ¬ PatchClaim 4 setValueAt32 := by
  intro hc
  have h0 : Holds { varying := false, mem := List.replicate 18 (some 0), dataSize := 4 }
      [0, 0, 0, 0] := ⟨rfl, rfl, by decide, by decide⟩
  obtain ⟨s', e, h1, h2⟩ := hc _ _ 0x0102 3 h0 (by decide)
  rw [if_neg (by decide)] at h2
  have h3 : setValueAt32 (some { varying := false, mem := List.replicate 18 (some 0), dataSize := 4 })
      0x0102 3 = some (some { varying := false, mem := (List.replicate 18 (some 0)).set 3 (some 2),
                              dataSize := 4 }, -100) := rfl
  rw [h3] at h1
  simp only [Option.some.injEq, Prod.mk.injEq] at h1
  have h4 := h2.2.contents
  rw [← h1.1] at h4
  revert h4
  decide

theorem setValueAt8_out {s : Store} {bs : Bytes} (h : Holds s bs) (v : UInt8) (i : Nat)
    (hi : bs.length ≤ i) : setValueAt8 (some s) v i = some (some s, -3) := by
  have := c03_setValueAt8 h v i
  rwa [if_neg (by omega)] at this

/-- C03 for 16-bit patches, as far as it is true: inside the record the patch is exact; when the
    record ends before the first patched byte nothing changes; and whenever it does not fit an error
    is reported.  Missing from `PatchClaim 2`: "no change" when only the last byte does not fit
    (false, `c03_patch16_fails`). -/
theorem c03_patch16_partial {s : Store} {bs : Bytes} (v i : Nat) (h : Holds s bs)
    (h32 : i + 2 < 2 ^ 32) :
    ∃ s' e, setValueAt16 (some s) v i = some (some s', e) ∧
      (e = 0 ↔ i + 2 ≤ bs.length) ∧
      (i + 2 ≤ bs.length → Holds s' (bs.take i ++ leN 2 v ++ bs.drop (i + 2))) ∧
      (bs.length ≤ i → Holds s' bs) ∧
      (∃ bs', Holds s' bs' ∧ bs'.length = bs.length ∧ bs'.take i = bs.take i) := by
  have hx : idx32 i 1 = i + 1 := Nat.mod_eq_of_lt (by omega)
  by_cases h2 : i + 2 ≤ bs.length
  · obtain ⟨s', e, h'⟩ := c03_setValueAt16 h v i h2 (by omega)
    refine ⟨s', 0, e, by simp [h2], fun _ => h', fun hc => by omega, _, h', ?_, ?_⟩
    · simp; omega
    · rw [List.append_assoc, List.take_append_of_le_length (by simp; omega), List.take_take,
        Nat.min_self]
  · by_cases h1 : i < bs.length
    · obtain ⟨s1, e1, h1'⟩ := setValueAt8_ok h (byteK 0 v) i h1
      have e2 := setValueAt8_out h1' (byteK 1 v) (i + 1) (by simp; omega)
      refine ⟨s1, -100, by simp [setValueAt16, e1, e2, hx], by simp [h2], fun hc => absurd hc h2,
        fun hc => by omega, _, h1', by simp, ?_⟩
      simp [List.take_set_of_le]
    · have e1 := setValueAt8_out h (byteK 0 v) i (by omega)
      have e2 := setValueAt8_out h (byteK 1 v) (i + 1) (by omega)
      exact ⟨s, -100, by simp [setValueAt16, e1, e2, hx], by simp [h2], fun hc => absurd hc h2,
        fun _ => h, bs, h, rfl, rfl⟩

/-- One byte of a longer patch: whatever the position, length and prefix are kept, and the code is 0
    exactly when the byte is inside. -/
theorem setValueAt8_any {s : Store} {bs : Bytes} (h : Holds s bs) (v : UInt8) (i : Nat) :
    ∃ s' e bs', setValueAt8 (some s) v i = some (some s', e) ∧ Holds s' bs' ∧
      bs'.length = bs.length ∧ (∀ k ≤ i, bs'.take k = bs.take k) ∧ (e = 0 ↔ i < bs.length) ∧
      (bs.length ≤ i → bs' = bs) := by
  by_cases hi : i < bs.length
  · obtain ⟨s1, e1, h1⟩ := setValueAt8_ok h v i hi
    exact ⟨s1, 0, _, e1, h1, by simp, fun k hk => by simp [List.take_set_of_le, hk], by simp [hi],
      fun hc => by omega⟩
  · exact ⟨s, -3, bs, setValueAt8_out h v i (by omega), h, rfl, fun _ _ => rfl, by simp [hi],
      fun _ => rfl⟩

/-- C03 for 32-bit patches, as far as it is true (see `c03_patch16_partial`). -/
theorem c03_patch32_partial {s : Store} {bs : Bytes} (v i : Nat) (h : Holds s bs)
    (h32 : i + 4 < 2 ^ 32) :
    ∃ s' e, setValueAt32 (some s) v i = some (some s', e) ∧
      (e = 0 ↔ i + 4 ≤ bs.length) ∧
      (i + 4 ≤ bs.length → Holds s' (bs.take i ++ leN 4 v ++ bs.drop (i + 4))) ∧
      (bs.length ≤ i → Holds s' bs) ∧
      (∃ bs', Holds s' bs' ∧ bs'.length = bs.length ∧ bs'.take i = bs.take i) := by
  have hx1 : idx32 i 1 = i + 1 := Nat.mod_eq_of_lt (by omega)
  have hx2 : idx32 i 2 = i + 2 := Nat.mod_eq_of_lt (by omega)
  have hx3 : idx32 i 3 = i + 3 := Nat.mod_eq_of_lt (by omega)
  by_cases h4 : i + 4 ≤ bs.length
  · obtain ⟨s', e, h'⟩ := c03_setValueAt32 h v i h4 (by omega)
    refine ⟨s', 0, e, by simp [h4], fun _ => h', fun hc => by omega, _, h', ?_, ?_⟩
    · simp; omega
    · rw [List.append_assoc, List.take_append_of_le_length (by simp; omega), List.take_take,
        Nat.min_self]
  · obtain ⟨s1, e1, b1, r1, g1, l1, t1, z1, o1⟩ := setValueAt8_any h (byteK 0 v) i
    obtain ⟨s2, e2, b2, r2, g2, l2, t2, z2, o2⟩ := setValueAt8_any g1 (byteK 1 v) (i + 1)
    obtain ⟨s3, e3, b3, r3, g3, l3, t3, z3, o3⟩ := setValueAt8_any g2 (byteK 2 v) (i + 2)
    obtain ⟨s4, e4, b4, r4, g4, l4, t4, z4, o4⟩ := setValueAt8_any g3 (byteK 3 v) (i + 3)
    have hne : e4 ≠ 0 := by
      intro hz
      have := z4.mp hz
      omega
    refine ⟨s4, -100, ?_, by simp [h4], fun hc => absurd hc h4, fun hc => ?_, b4, g4, by omega, ?_⟩
    · simp [setValueAt32, r1, r2, r3, r4, hx1, hx2, hx3, hne]
    · rw [o4 (by omega), o3 (by omega), o2 (by omega), o1 hc] at g4
      exact g4
    · rw [t4 _ (by omega), t3 _ (by omega), t2 _ (by omega), t1 _ (by omega)]

/-- C03 is violated by array patches: past the end of the record they report success and the bytes
    never become part of the record. -/
theorem c03_array_patch_past_end {s : Store} {bs : Bytes} (h : Holds s bs) (new : Bytes) (i : Nat)
    (hi : bs.length ≤ i) :
    ∃ s', setArrayAt (some s) new i = some (some s') ∧ Holds s' bs := by
  have key : ∀ t : Store, Holds t bs → new.length + i ≤ t.mem.length →
      ∃ m, pokeSeq t.mem i new = some m ∧ Holds { t with mem := m } bs := by
    intro t ht hl
    refine ⟨_, pokeSeq_eq _ _ _ (by omega), ?_⟩
    obtain ⟨vr, mem, ds⟩ := t
    obtain ⟨ha, hs, hf, hu⟩ := ht
    simp only at ha hs hf hu hl
    have hlen : (mem.take i ++ new.map some ++ mem.drop (i + new.length)).length = mem.length := by
      simp; omega
    refine ⟨?_, hs, by simp only [hlen]; exact hf, ?_⟩
    · cases vr
      · have : mem.length = fixedWidth := ha
        show (mem.take i ++ new.map some ++ mem.drop (i + new.length)).length = fixedWidth
        omega
      · rfl
    · show (mem.take i ++ new.map some ++ mem.drop (i + new.length)).take bs.length = _
      rw [List.append_assoc, List.take_append_of_le_length (by simp; omega), List.take_take,
        Nat.min_eq_left hi, hu]
  simp only [setArrayAt, Option.bind_some]
  by_cases hc : s.getSize < new.length + i
  · rw [if_pos hc]
    obtain ⟨s1, e1, h1, h2⟩ := h.resize (new.length + i) (by omega)
    obtain ⟨m, em, hm⟩ := key s1 h1 h2
    exact ⟨_, by simp [e1, em], hm⟩
  · rw [if_neg hc]
    obtain ⟨m, em, hm⟩ := key s h (by have := h.alloc; omega)
    exact ⟨_, by simp [em], hm⟩

example : Holds { varying := false, mem := List.replicate 18 (some 0), dataSize := 4 } [0, 0, 0, 0] :=
  ⟨rfl, rfl, by decide, by decide⟩

/-! ### C01 -/

theorem Holds.at? {s : Store} {bs : Bytes} (h : Holds s bs) (i : Nat) (hi : i < bs.length) :
    Unit.at? (some s) i = some bs[i] := by
  have h1 : s.mem[i]? = (s.mem.take bs.length)[i]? := by rw [List.getElem?_take_of_lt hi]
  simp [Unit.at?, h1, h.used, hi]

/-- C01 (getters): reading a 16-bit field of a record at a legal position gives the little-endian
    value of the two bytes there. -/
theorem c01_getValue16 {s : Store} {bs : Bytes} (h : Holds s bs) (i : Nat) (hi : i + 2 ≤ bs.length)
    (h32 : i + 1 < 2 ^ 32) : getValue16From (some s) i = rdLE 2 bs i := by
  have hx : idx32 i 1 = i + 1 := Nat.mod_eq_of_lt h32
  have hd : bs.drop i = bs[i] :: bs[i + 1] :: bs.drop (i + 2) := by
    rw [List.drop_eq_getElem_cons (by omega), List.drop_eq_getElem_cons (by omega)]
  simp only [getValue16From, hx, h.at? i (by omega), h.at? (i + 1) (by omega), rdLE, hd, takeLE]
  have h1 := (bs[i]).toNat_lt
  have h2 := (bs[i + 1]).toNat_lt
  rw [if_pos (by simp only [List.length_cons]; omega)]
  simp only [Option.bind_some, Option.map_some, List.take_succ_cons, List.take_zero, ofLE]
  congr 1
  omega

theorem c01_getValue32 {s : Store} {bs : Bytes} (h : Holds s bs) (i : Nat) (hi : i + 4 ≤ bs.length)
    (h32 : i + 3 < 2 ^ 32) : getValue32From (some s) i = rdLE 4 bs i := by
  have hx1 : idx32 i 1 = i + 1 := Nat.mod_eq_of_lt (by omega)
  have hx2 : idx32 i 2 = i + 2 := Nat.mod_eq_of_lt (by omega)
  have hx3 : idx32 i 3 = i + 3 := Nat.mod_eq_of_lt (by omega)
  have hd : bs.drop i = bs[i] :: bs[i + 1] :: bs[i + 2] :: bs[i + 3] :: bs.drop (i + 4) := by
    rw [List.drop_eq_getElem_cons (by omega), List.drop_eq_getElem_cons (by omega),
      List.drop_eq_getElem_cons (by omega), List.drop_eq_getElem_cons (by omega)]
  simp only [getValue32From, hx1, hx2, hx3, h.at? i (by omega), h.at? (i + 1) (by omega),
    h.at? (i + 2) (by omega), h.at? (i + 3) (by omega), rdLE, hd, takeLE]
  have h1 := (bs[i]).toNat_lt
  have h2 := (bs[i + 1]).toNat_lt
  have h3 := (bs[i + 2]).toNat_lt
  have h4 := (bs[i + 3]).toNat_lt
  rw [if_pos (by simp only [List.length_cons]; omega)]
  simp only [Option.bind_some, Option.map_some, List.take_succ_cons, List.take_zero, ofLE]
  congr 1
  omega

/-- C01: a 16-bit value appended to a record is read back by the library's own getter, whatever was
    appended before and after. -/
theorem c01_append_then_get16 (hint : Nat) (before after : List Op) (v : Nat)
    (h29 : ((before ++ [Op.u16 v] ++ after).flatMap Op.bytes).length < 2 ^ 29) :
    ∃ u, (inflate none hint).bind (fun u => runOps u (before ++ [Op.u16 v] ++ after)) = some u ∧
      getValue16From u (before.flatMap Op.bytes).length = some (v % 65536) ∧
      (contents u).bind (fun bs => rdLE 2 bs (before.flatMap Op.bytes).length) = some (v % 65536) := by
  obtain ⟨s, e, h⟩ := runOps_holds (before ++ [Op.u16 v] ++ after) (prepare_holds hint)
    (by simpa using h29)
  refine ⟨some s, by simpa [inflate] using e, ?_⟩
  have hb : [] ++ (before ++ [Op.u16 v] ++ after).flatMap Op.bytes =
      before.flatMap Op.bytes ++ (leN 2 v ++ after.flatMap Op.bytes) := by
    simp [Op.bytes]
  rw [hb] at h
  have hlen : ((before ++ [Op.u16 v] ++ after).flatMap Op.bytes).length =
      (before.flatMap Op.bytes).length + (2 + (after.flatMap Op.bytes).length) := by
    simp [Op.bytes]
  have hr := rdLE_at 2 v (before.flatMap Op.bytes) (after.flatMap Op.bytes)
  constructor
  · rw [c01_getValue16 h _ (by simp) (by omega), hr]
  · simp only [contents, Option.bind_some, h.contents]
    exact hr

/-- C01, 32 bits. -/
theorem c01_append_then_get32 (hint : Nat) (before after : List Op) (v : Nat)
    (h29 : ((before ++ [Op.u32 v] ++ after).flatMap Op.bytes).length < 2 ^ 29) :
    ∃ u, (inflate none hint).bind (fun u => runOps u (before ++ [Op.u32 v] ++ after)) = some u ∧
      getValue32From u (before.flatMap Op.bytes).length = some (v % 4294967296) ∧
      (contents u).bind (fun bs => rdLE 4 bs (before.flatMap Op.bytes).length)
        = some (v % 4294967296) := by
  obtain ⟨s, e, h⟩ := runOps_holds (before ++ [Op.u32 v] ++ after) (prepare_holds hint)
    (by simpa using h29)
  refine ⟨some s, by simpa [inflate] using e, ?_⟩
  have hb : [] ++ (before ++ [Op.u32 v] ++ after).flatMap Op.bytes =
      before.flatMap Op.bytes ++ (leN 4 v ++ after.flatMap Op.bytes) := by
    simp [Op.bytes]
  rw [hb] at h
  have hlen : ((before ++ [Op.u32 v] ++ after).flatMap Op.bytes).length =
      (before.flatMap Op.bytes).length + (4 + (after.flatMap Op.bytes).length) := by
    simp [Op.bytes]
  have hr := rdLE_at 4 v (before.flatMap Op.bytes) (after.flatMap Op.bytes)
  constructor
  · rw [c01_getValue32 h _ (by simp) (by omega), hr]
  · simp only [contents, Option.bind_some, h.contents]
    exact hr

/-- C01, 64 bits (integers and IEEE bit patterns): eight bytes, least significant first. -/
theorem c01_append_then_read64 (hint : Nat) (before after : List Op) (v : Nat)
    (h29 : ((before ++ [Op.u64 v] ++ after).flatMap Op.bytes).length < 2 ^ 29) :
    ∃ u, (inflate none hint).bind (fun u => runOps u (before ++ [Op.u64 v] ++ after)) = some u ∧
      (contents u).bind (fun bs => rdLE 8 bs (before.flatMap Op.bytes).length)
        = some (v % 2 ^ 64) := by
  obtain ⟨s, e, h⟩ := runOps_holds (before ++ [Op.u64 v] ++ after) (prepare_holds hint)
    (by simpa using h29)
  refine ⟨some s, by simpa [inflate] using e, ?_⟩
  have hb : [] ++ (before ++ [Op.u64 v] ++ after).flatMap Op.bytes =
      before.flatMap Op.bytes ++ (leN 8 v ++ after.flatMap Op.bytes) := by
    simp [Op.bytes]
  rw [hb] at h
  simp only [contents, Option.bind_some, h.contents]
  exact rdLE_at 8 v (before.flatMap Op.bytes) (after.flatMap Op.bytes)

/-- C01 (patches): a 16-bit value patched into a record is read back from that position. -/
theorem c01_patch_then_get16 {s : Store} {bs : Bytes} (h : Holds s bs) (v i : Nat)
    (hi : i + 2 ≤ bs.length) (h32 : i + 1 < 2 ^ 32) :
    ∃ u, setValueAt16 (some s) v i = some (u, 0) ∧ getValue16From u i = some (v % 65536) := by
  obtain ⟨s', e, h'⟩ := c03_setValueAt16 h v i hi h32
  refine ⟨some s', e, ?_⟩
  rw [c01_getValue16 h' i (by simp; omega) h32, List.append_assoc,
    rdLE_at' 2 v (bs.take i) (bs.drop (i + 2)) (by simp; omega)]

theorem c01_patch_then_get32 {s : Store} {bs : Bytes} (h : Holds s bs) (v i : Nat)
    (hi : i + 4 ≤ bs.length) (h32 : i + 3 < 2 ^ 32) :
    ∃ u, setValueAt32 (some s) v i = some (u, 0) ∧ getValue32From u i = some (v % 4294967296) := by
  obtain ⟨s', e, h'⟩ := c03_setValueAt32 h v i hi h32
  refine ⟨some s', e, ?_⟩
  rw [c01_getValue32 h' i (by simp; omega) h32, List.append_assoc,
    rdLE_at' 4 v (bs.take i) (bs.drop (i + 4)) (by simp; omega)]

example : ((before : List Op) = [.fill 1 30]) → ((before ++ [Op.u16 999] ++ [Op.u8 1]).flatMap Op.bytes).length
    < 2 ^ 29 := by rintro rfl; decide

/-! ### C04 -/

theorem readChars_narrow (s : List UInt16) (h : ∀ c ∈ s, c ≤ 0x7F) (r : Bytes) :
    Spec.readChars false s.length (s.map (fun c => c.toUInt8) ++ r) = some (s, r) := by
  induction s with
  | nil => rfl
  | cons c t ih =>
    have hc := h c (by simp)
    have := ih (fun x hx => h x (by simp [hx]))
    simp only [List.length_cons, List.map_cons, List.cons_append, Spec.readChars, this,
      Option.map_some]
    congr 3
    apply UInt16.toNat_inj.mp
    simp only [UInt16.le_iff_toNat_le] at hc
    have h127 : (0x7F : UInt16).toNat = 127 := rfl
    rw [h127] at hc
    simp only [UInt16.toNat_ofNat', UInt16.toNat_toUInt8]
    omega

theorem readChars_wide (s : List UInt16) (r : Bytes) :
    Spec.readChars true s.length
      (s.flatMap (fun c => [byteK 0 c.toNat, byteK 1 c.toNat]) ++ r) = some (s, r) := by
  induction s with
  | nil => rfl
  | cons c t ih =>
    simp only [List.length_cons, List.flatMap_cons, List.cons_append, List.nil_append,
      Spec.readChars, ih, Option.map_some]
    congr 3
    apply UInt16.toNat_inj.mp
    have := c.toNat_lt
    simp only [UInt16.toNat_ofNat', byteK, UInt8.toNat_ofNat']
    omega

theorem readFlagged_str (s : List UInt16) (r : Bytes) :
    Spec.readFlagged s.length ((if isASCII s then (0 : UInt8) else 1) :: (strChars s ++ r))
      = some (s, r) := by
  unfold strChars
  by_cases hA : isASCII s = true
  · simp only [hA, if_true]
    exact readChars_narrow s ((isASCII_iff s).mp hA) r
  · simp only [hA]
    exact readChars_wide s r

/-- C04: a string of fewer than 2^16 units stored with a 16-bit count decodes to itself, whatever
    follows it. -/
theorem c04_len2_roundtrip (s : List UInt16) (r : Bytes) (h : s.length < 65536) :
    Spec.readStr2 (strBytes s .len2 ++ r) = some (s, r) := by
  have hh : strBytes s .len2 ++ r =
      leN 2 s.length ++ ((if isASCII s then (0 : UInt8) else 1) :: (strChars s ++ r)) := by
    simp [strBytes, strHeader, leN_two]
  rw [hh]
  simp only [Spec.readStr2, takeLE_leN_append, Option.bind_some]
  rw [show s.length % 256 ^ 2 = s.length from Nat.mod_eq_of_lt h]
  exact readFlagged_str s r

/-- C04: a string of fewer than 2^8 units stored with an 8-bit count decodes to itself. -/
theorem c04_len1_roundtrip (s : List UInt16) (r : Bytes) (h : s.length < 256) :
    Spec.readStr1 (strBytes s .len1 ++ r) = some (s, r) := by
  have hh : strBytes s .len1 ++ r =
      leN 1 s.length ++ ((if isASCII s then (0 : UInt8) else 1) :: (strChars s ++ r)) := by
    simp [strBytes, strHeader, leN, byteK]
  rw [hh]
  simp only [Spec.readStr1, takeLE_leN_append, Option.bind_some]
  rw [show s.length % 256 ^ 1 = s.length from Nat.mod_eq_of_lt h]
  exact readFlagged_str s r

/-- C04: without a count the reader must know the number of characters; given it, the string decodes
    to itself. -/
theorem c04_nolen_roundtrip (s : List UInt16) (r : Bytes) :
    Spec.readFlagged s.length (strBytes s .nolen ++ r) = some (s, r) := by
  have hh : strBytes s .nolen ++ r =
      (if isASCII s then (0 : UInt8) else 1) :: (strChars s ++ r) := by
    simp [strBytes, strHeader]
  rw [hh]
  exact readFlagged_str s r

/-- C04: one byte per unit exactly when every unit is at most 0x7F. -/
theorem c04_compression (s : List UInt16) :
    (strChars s).length = (if ∀ c ∈ s, c ≤ 0x7F then s.length else 2 * s.length) := by
  have := isASCII_iff s
  unfold strChars
  by_cases hA : isASCII s = true
  · rw [if_pos hA, if_pos (this.mp hA)]; simp
  · rw [if_neg hA, if_neg (fun h => hA (this.mpr h)), length_flatMap_pair]; omega

theorem readChars_length {w : Bool} {n : Nat} {bs : Bytes} {s : List UInt16} {r : Bytes}
    (h : Spec.readChars w n bs = some (s, r)) : s.length = n := by
  induction n generalizing bs s r with
  | zero => simp [Spec.readChars] at h; simp [← h.1]
  | succ n ih =>
    unfold Spec.readChars at h
    split at h
    · rename_i b t
      cases hc : Spec.readChars false n t with
      | none => simp [hc] at h
      | some p => simp [hc] at h; rw [← h.1]; simp [ih hc]
    · rename_i b b' t
      cases hc : Spec.readChars true n t with
      | none => simp [hc] at h
      | some p => simp [hc] at h; rw [← h.1]; simp [ih hc]
    · simp at h

theorem readFlagged_length {n : Nat} {bs : Bytes} {s : List UInt16} {r : Bytes}
    (h : Spec.readFlagged n bs = some (s, r)) : s.length = n := by
  unfold Spec.readFlagged at h
  split at h
  · exact readChars_length h
  · exact readChars_length h
  · simp at h

/-- C04 fails for every string longer than the prefix can count: a reader never gets it back. -/
theorem c04_len1_too_long (s : List UInt16) (r r' : Bytes) (h : 256 ≤ s.length) :
    Spec.readStr1 (strBytes s .len1 ++ r) ≠ some (s, r') := by
  have hh : strBytes s .len1 ++ r =
      leN 1 s.length ++ ((if isASCII s then (0 : UInt8) else 1) :: (strChars s ++ r)) := by
    simp [strBytes, strHeader, leN, byteK]
  rw [hh]
  simp only [Spec.readStr1, takeLE_leN_append, Option.bind_some]
  intro hc
  have := readFlagged_length hc
  omega

theorem c04_len2_too_long (s : List UInt16) (r r' : Bytes) (h : 65536 ≤ s.length) :
    Spec.readStr2 (strBytes s .len2 ++ r) ≠ some (s, r') := by
  have hh : strBytes s .len2 ++ r =
      leN 2 s.length ++ ((if isASCII s then (0 : UInt8) else 1) :: (strChars s ++ r)) := by
    simp [strBytes, strHeader, leN_two]
  rw [hh]
  simp only [Spec.readStr2, takeLE_leN_append, Option.bind_some]
  intro hc
  have := readFlagged_length hc
  omega

example : Spec.readStr2 (strBytes [72, 0x20AC, 105] .len2 ++ [1, 2]) = some ([72, 0x20AC, 105], [1, 2]) :=
  c04_len2_roundtrip _ _ (by decide)

end Xls.Unit
