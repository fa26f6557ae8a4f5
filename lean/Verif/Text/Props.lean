import Verif.Text.Model
import Verif.Text.Spec
import Verif.Unit.Props
/-
C56: the characters of a text are stored as given.
-/
namespace Xls.Text
open Spec

/-! ### Bytes and characters -/

theorem high_iff (b : UInt8) : b &&& 0x80 ≠ 0 ↔ 0x80 ≤ b := by
  obtain ⟨⟨n, h⟩⟩ := b
  have : ∀ n : Fin 256, (UInt8.ofBitVec ⟨n⟩ &&& 0x80 ≠ 0 ↔ 0x80 ≤ UInt8.ofBitVec ⟨n⟩) := by decide +kernel
  exact this ⟨n, h⟩

theorem or_high (a b : UInt8) : (a ||| b) &&& 0x80 ≠ 0 ↔ a &&& 0x80 ≠ 0 ∨ b &&& 0x80 ≠ 0 := by
  have : (a ||| b) &&& 0x80 = (a &&& 0x80) ||| (b &&& 0x80) := by
    apply UInt8.toBitVec_inj.mp; simp only [UInt8.toBitVec_and, UInt8.toBitVec_or]; ext i; simp [Bool.and_or_distrib_right]
  rw [this]
  have h1 := Nat.left_le_or (n := (a &&& 0x80).toNat) (m := (b &&& 0x80).toNat)
  have h2 := Nat.right_le_or (n := (a &&& 0x80).toNat) (m := (b &&& 0x80).toNat)
  have h0 : (0 : UInt8).toNat = 0 := rfl
  constructor
  · intro h
    by_cases ha : a &&& 0x80 = 0
    · refine .inr fun hb => h ?_
      rw [ha, hb]; rfl
    · exact .inl ha
  · rintro h e
    have h' := congrArg UInt8.toNat e
    simp only [UInt8.toNat_or] at h'
    rcases h with h | h <;> exact h (UInt8.toNat_inj.mp (by omega))

theorem fold_high (s : Bytes) (a : UInt8) : s.foldl (· ||| ·) a &&& 0x80 ≠ 0 ↔ a &&& 0x80 ≠ 0 ∨ ∃ b ∈ s, 0x80 ≤ b := by
  induction s generalizing a with
  | nil => simp
  | cons b r ih =>
    simp only [List.foldl_cons, ih, or_high, high_iff b, List.mem_cons, exists_eq_or_imp, or_assoc]

theorem any_high (s : Bytes) : s.foldl (· ||| ·) 0 &&& 0x80 ≠ 0 ↔ ∃ b ∈ s, 0x80 ≤ b := by
  rw [fold_high]; simp

theorem widen_low (signed : Bool) (b : UInt8) (h : ¬ 0x80 ≤ b) : widen signed b = b.toUInt16 := by
  simp [widen, h]

/-- The bytes of a character above 0x7F all have their top bit set; an ASCII character is its own byte. -/
theorem encode_high (c : Char) (h : 0x80 ≤ c.val.toNat) : ∀ b ∈ String.utf8EncodeChar c, 0x80 ≤ b := by
  have hb : ∀ n, 128 ≤ n → n < 256 → (0x80 : UInt8) ≤ UInt8.ofNat n := by
    intro n h1 h2
    rw [UInt8.le_iff_toNat_le, UInt8.toNat_ofNat']
    show 128 ≤ n % 256
    omega
  rw [String.utf8EncodeChar.eq_1, if_neg (by omega)]
  intro b
  split
  · intro hm; simp only [List.mem_cons, List.not_mem_nil, or_false] at hm
    rcases hm with rfl | rfl <;> exact hb _ (by omega) (by omega)
  · split
    · intro hm; simp only [List.mem_cons, List.not_mem_nil, or_false] at hm
      rcases hm with rfl | rfl | rfl <;> exact hb _ (by omega) (by omega)
    · intro hm; simp only [List.mem_cons, List.not_mem_nil, or_false] at hm
      rcases hm with rfl | rfl | rfl | rfl <;> exact hb _ (by omega) (by omega)

theorem encode_low (c : Char) (h : c.val.toNat < 0x80) : String.utf8EncodeChar c = [UInt8.ofNat c.val.toNat] := by
  rw [String.utf8EncodeChar.eq_1, if_pos (by omega)]

theorem encode_ne_nil (c : Char) : ∃ b r, String.utf8EncodeChar c = b :: r := by
  rw [String.utf8EncodeChar.eq_1]; split
  · exact ⟨_, _, rfl⟩
  · split
    · exact ⟨_, _, rfl⟩
    · split <;> exact ⟨_, _, rfl⟩

theorem exists_not {α : Type} {P : α → Prop} {l : List α} (h : ¬ ∀ c ∈ l, P c) : ∃ c ∈ l, ¬ P c :=
  Classical.byContradiction fun hn => h fun c hc => Classical.byContradiction fun hp => hn ⟨c, hc, hp⟩

/-- A text has a byte above 0x7F exactly when it has a character above 0x7F. -/
theorem high_byte_iff (cs : List Char) : (∃ b ∈ utf8 cs, (0x80 : UInt8) ≤ b) ↔ ¬ Ascii cs := by
  constructor
  · rintro ⟨b, hb, h8⟩ ha
    simp only [utf8, List.mem_flatMap] at hb
    obtain ⟨c, hc, hb⟩ := hb
    have h := ha c hc
    rw [encode_low c h] at hb
    simp only [List.mem_singleton] at hb; subst hb
    rw [UInt8.le_iff_toNat_le, UInt8.toNat_ofNat'] at h8
    change 128 ≤ c.val.toNat % 256 at h8
    omega
  · intro h
    obtain ⟨c, hc, h8⟩ := exists_not h
    obtain ⟨b, r, e⟩ := encode_ne_nil c
    refine ⟨b, ?_, encode_high c (by omega) b (by rw [e]; simp)⟩
    simp only [utf8, List.mem_flatMap]
    exact ⟨c, hc, by rw [e]; simp⟩

theorem _root_.Xls.Text.Spec.Ascii.basic {cs : List Char} (h : Ascii cs) : Basic cs := fun c hc => by have := h c hc; omega

theorem utf16_basic {cs : List Char} (h : Basic cs) : utf16 cs = cs.map fun c => UInt16.ofNat c.val.toNat := by
  induction cs with
  | nil => rfl
  | cons c r ih =>
    have hc := h c (by simp)
    have hr := ih fun d hd => h d (by simp [hd])
    simp only [utf16] at hr
    rw [utf16, List.flatMap_cons, hr, utf16Char]; simp only [if_pos hc, List.map_cons, List.cons_append, List.nil_append]

/-- The byte-by-byte copy of an ASCII text. -/
theorem copy_ascii (signed : Bool) {cs : List Char} (h : Ascii cs) : (utf8 cs).map (widen signed) = utf16 cs := by
  rw [utf16_basic h.basic]
  induction cs with
  | nil => rfl
  | cons c r ih =>
    have hc := h c (by simp)
    have e : utf8 (c :: r) = UInt8.ofNat c.val.toNat :: utf8 r := by simp [utf8, encode_low c hc]
    rw [e, List.map_cons, List.map_cons, ih fun d hd => h d (by simp [hd]), widen_low]
    · congr 1
      apply UInt16.toNat_inj.mp
      rw [UInt8.toNat_toUInt16, UInt8.toNat_ofNat', UInt16.toNat_ofNat']
      omega
    · rw [UInt8.le_iff_toNat_le, UInt8.toNat_ofNat']
      show ¬ 128 ≤ c.val.toNat % 256
      omega

/-! ### C56 -/

/-- C56, ASCII: in every build, whatever `iconv` does, an ASCII text is stored as it is. -/
theorem c56_ascii (signed : Bool) (conv : Option (Bytes → Option (List UInt16))) (cs : List Char) (h : Ascii cs) :
    char2str16 signed conv (utf8 cs) = utf16 cs := by
  have hn : ¬ ((utf8 cs).foldl (· ||| ·) 0 &&& 0x80 ≠ 0) := by
    rw [any_high, high_byte_iff]; exact fun hn => hn h
  cases conv with
  | none => exact copy_ascii signed h
  | some f => simp only [char2str16]; rw [if_neg hn]; exact copy_ascii signed h

/-- C56 for UTF-8 texts, with `iconv`.  Missing: texts with characters from 0x10000 on (`c56_beyond`) and builds without `iconv`
    (`c56_bytes_lost`). -/
theorem c56_utf8_partial (signed : Bool) (f : Bytes → Option (List UInt16)) (hf : IconvBytes f) (cs : List Char) (h : Basic cs) :
    char2str16 signed (some f) (utf8 cs) = utf16 cs := by
  by_cases ha : Ascii cs
  · exact c56_ascii signed _ cs ha
  · simp only [char2str16]
    rw [if_pos ((any_high _).mpr ((high_byte_iff cs).mpr ha)), hf.basic cs h, Option.getD_some]

theorem wide_basic {cs : List Char} (h : Basic cs) : (wide cs).map (·.toUInt16) = utf16 cs := by
  rw [utf16_basic h, wide, List.map_map]
  rfl

/-- C56 for wide texts, in every build.  Missing: characters from 0x10000 on (`c56_beyond`). -/
theorem c56_wide_partial (conv : Option (List UInt32 → Option (List UInt16))) (hf : ∀ f ∈ conv, IconvWide f) (cs : List Char)
    (h : Basic cs) : wide2str16 conv (wide cs) = utf16 cs := by
  cases conv with
  | none => exact wide_basic h
  | some f => simp only [wide2str16]; rw [(hf f rfl).basic cs h, Option.getD_some]

theorem utf16_le_utf8 (c : Char) : (utf16Char c).length ≤ (String.utf8EncodeChar c).length ∧
    (0x80 ≤ c.val.toNat → (utf16Char c).length < (String.utf8EncodeChar c).length) := by
  rw [String.utf8EncodeChar.eq_1]
  simp only [utf16Char]
  split <;> split <;> try split
  all_goals (try split)
  all_goals (simp only [List.length_cons, List.length_nil]; omega)

theorem utf16_shorter (cs : List Char) : (utf16 cs).length ≤ (utf8 cs).length ∧
    (¬ Ascii cs → (utf16 cs).length < (utf8 cs).length) := by
  induction cs with
  | nil => exact ⟨Nat.le_refl _, fun h => absurd (fun c hc => by simp at hc) h⟩
  | cons c r ih =>
    obtain ⟨h1, h2⟩ := utf16_le_utf8 c
    have e16 : (utf16 (c :: r)).length = (utf16Char c).length + (utf16 r).length := by simp [utf16]
    have e8 : (utf8 (c :: r)).length = (String.utf8EncodeChar c).length + (utf8 r).length := by simp [utf8]
    refine ⟨by omega, fun hn => ?_⟩
    by_cases hc : 0x80 ≤ c.val.toNat
    · have := h2 hc; omega
    · have := ih.2 fun hr => hn fun d hd => by
        rcases List.mem_cons.mp hd with rfl | hd
        · omega
        · exact hr d hd
      omega

/-- C56 is false for byte texts in builds without `iconv`: every text with a character beyond ASCII is stored as another text,
    one unit per byte. -/
theorem c56_bytes_lost (signed : Bool) (cs : List Char) (h : ¬ Ascii cs) : char2str16 signed none (utf8 cs) ≠ utf16 cs := by
  intro e
  have := congrArg List.length e
  have h2 := (utf16_shorter cs).2 h
  simp [char2str16] at this
  omega

/-- Nor is the text taken as Latin-1 where `char` is signed: every byte from 0x80 on is stored as a unit from 0xFF80 on. -/
theorem c56_sign_extended (s : Bytes) (i : Nat) (b : UInt8) (hi : s[i]? = some b) (hb : 0x80 ≤ b) :
    (char2str16 true none s)[i]? = some (0xFF00 ||| b.toUInt16) ∧ 0xFF00 ||| b.toUInt16 ≠ b.toUInt16 := by
  refine ⟨by simp [char2str16, hi, widen, hb], ?_⟩
  intro e
  have h1 := congrArg UInt16.toNat e
  simp only [UInt16.toNat_or, UInt8.toNat_toUInt16] at h1
  have h2 := Nat.left_le_or (n := (0xFF00 : UInt16).toNat) (m := b.toNat)
  have h3 := b.toNat_lt
  have h4 : (0xFF00 : UInt16).toNat = 65280 := rfl
  omega

theorem utf16_longer (cs : List Char) : cs.length ≤ (utf16 cs).length ∧ (¬ Basic cs → cs.length < (utf16 cs).length) := by
  induction cs with
  | nil => exact ⟨Nat.le_refl _, fun h => absurd (fun c hc => by simp at hc) h⟩
  | cons c r ih =>
    have e16 : (utf16 (c :: r)).length = (utf16Char c).length + (utf16 r).length := by simp [utf16]
    have hc : (utf16Char c).length = if c.val.toNat < 0x10000 then 1 else 2 := by simp only [utf16Char]; split <;> rfl
    have el : (c :: r).length = r.length + 1 := rfl
    by_cases hb : c.val.toNat < 0x10000
    · rw [if_pos hb] at hc
      refine ⟨by omega, fun hn => ?_⟩
      have := ih.2 fun hr => hn fun d hd => by
        rcases List.mem_cons.mp hd with rfl | hd
        · exact hb
        · exact hr d hd
      omega
    · rw [if_neg hb] at hc
      exact ⟨by omega, fun _ => by omega⟩

/-- A text with a character from 0x10000 on has a unit from 0xD800 on, which no ASCII text has. -/
theorem utf16_surrogate {cs : List Char} (h : ¬ Basic cs) : ∃ u ∈ utf16 cs, 0xD800 ≤ u.toNat := by
  obtain ⟨c, hc, hb⟩ := exists_not h
  refine ⟨UInt16.ofNat (0xD800 + (c.val.toNat - 0x10000) / 1024), ?_, ?_⟩
  · simp only [utf16, List.mem_flatMap]
    exact ⟨c, hc, by simp only [utf16Char]; rw [if_neg hb]; simp⟩
  · rw [UInt16.toNat_ofNat']
    have : c.val.toNat < 0x110000 := by
      have := c.valid
      rcases this with h | ⟨_, h⟩ <;> (have : c.val.toNat = c.val.toNat := rfl) <;> simp [UInt32.isValidChar, Nat.isValidChar] at * <;> omega
    omega

theorem fail_ascii : ∀ u ∈ convFail, u.toNat < 128 := by decide

/-- C56 is false for every text with a character from 0x10000 on, in every build and however it is passed: with `iconv` the words
    "iconv failed!" are stored instead of the text, without it each wide character loses its upper half. -/
theorem c56_beyond (cs : List Char) (h : ¬ Basic cs) :
    (∀ signed f, IconvBytes f → char2str16 signed (some f) (utf8 cs) = convFail) ∧
    (∀ f, IconvWide f → wide2str16 (some f) (wide cs) = convFail) ∧ convFail ≠ utf16 cs ∧
    wide2str16 none (wide cs) ≠ utf16 cs ∧ (∀ signed, char2str16 signed none (utf8 cs) ≠ utf16 cs) := by
  refine ⟨fun signed f hf => ?_, fun f hf => ?_, fun e => ?_, fun e => ?_, fun signed => ?_⟩
  · simp only [char2str16]
    rw [if_pos ((any_high _).mpr ((high_byte_iff cs).mpr fun ha => h ha.basic)), hf.other cs h, Option.getD_none]
  · simp only [wide2str16]; rw [hf.other cs h, Option.getD_none]
  · obtain ⟨u, hu, hl⟩ := utf16_surrogate h
    have := fail_ascii u (e ▸ hu)
    omega
  · have h1 := congrArg List.length e
    have h2 := (utf16_longer cs).2 h
    simp [wide2str16, wide] at h1
    omega
  · exact c56_bytes_lost signed cs fun ha => h ha.basic

/-- A text kept by the library and given back as bytes (`str16toascii`) is the text that was passed, for ASCII texts. -/
theorem ascii_back (signed : Bool) (conv : Option (Bytes → Option (List UInt16))) (cs : List Char) (h : Ascii cs) :
    str16toascii (char2str16 signed conv (utf8 cs)) = utf8 cs := by
  rw [c56_ascii signed conv cs h, utf16_basic h.basic]
  induction cs with
  | nil => rfl
  | cons c r ih =>
    have hc := h c (by simp)
    have e : utf8 (c :: r) = UInt8.ofNat c.val.toNat :: utf8 r := by simp [utf8, encode_low c hc]
    have hr := ih fun d hd => h d (by simp [hd])
    simp only [str16toascii, List.map_cons, List.map_map] at hr ⊢
    rw [e, ← hr]
    congr 1
    have hl : ¬ (0x7F : UInt16) < UInt16.ofNat c.val.toNat := by
      rw [UInt16.lt_iff_toNat_lt, UInt16.toNat_ofNat']; show ¬ 127 < c.val.toNat % 65536; omega
    rw [if_neg hl]
    apply UInt8.toNat_inj.mp
    rw [UInt16.toNat_toUInt8, UInt8.toNat_ofNat', UInt16.toNat_ofNat']
    omega

/-! ### Texts stored without conversion -/

theorem widen_ascii (signed : Bool) (b : UInt8) : widen signed b ≤ 0x7F ↔ ¬ 0x80 ≤ b := by
  obtain ⟨⟨n, h⟩⟩ := b
  have : ∀ n : Fin 256, (widen signed (UInt8.ofBitVec ⟨n⟩) ≤ 0x7F ↔ ¬ 0x80 ≤ UInt8.ofBitVec ⟨n⟩) := by
    cases signed <;> decide +kernel
  exact this ⟨n, h⟩

theorem isAscii_iff (signed : Bool) (s : Bytes) : isAsciiBytes signed s = true ↔ ∀ b ∈ s, ¬ 0x80 ≤ b := by
  have : isAsciiBytes signed s = Unit.isASCII (s.map (widen signed)) := by
    simp [isAsciiBytes, Unit.isASCII, List.foldl_map]
  rw [this, Unit.isASCII_iff]
  simp only [List.mem_map, forall_exists_index, and_imp, forall_apply_eq_imp_iff₂, widen_ascii]

/-- C56 for the calls that store a byte string directly (font names): the same bytes as converting first, for every text, format
    and buffer. -/
theorem c56_direct (signed : Bool) (conv : Option (Bytes → Option (List UInt16))) (u : Unit.CUnit) (s : Bytes) (f : Unit.Fmt) :
    addString signed conv u s f = Unit.addUnicodeString u (char2str16 signed conv s) f := by
  simp only [addString]
  split
  · rename_i ha
    have hl := (isAscii_iff signed s).mp ha
    have hn : ¬ (s.foldl (· ||| ·) 0 &&& 0x80 ≠ 0) := by
      rw [any_high]; rintro ⟨b, hb, h⟩; exact hl b hb h
    have e : char2str16 signed conv s = s.map (·.toUInt16) := by
      have : s.map (widen signed) = s.map (·.toUInt16) := List.map_congr_left fun b hb => widen_low signed b (hl b hb)
      cases conv with
      | none => exact this
      | some g => simp only [char2str16]; rw [if_neg hn]; exact this
    have h16 : Unit.isASCII (s.map (·.toUInt16)) = true := by
      rw [Unit.isASCII_iff]
      simp only [List.mem_map, forall_exists_index, and_imp, forall_apply_eq_imp_iff₂]
      intro b hb
      have := (widen_ascii false b).mpr (hl b hb)
      rwa [widen_low false b (hl b hb)] at this
    have hc : Unit.strChars (s.map (·.toUInt16)) = s := by
      rw [Unit.strChars, if_pos h16, List.map_map]
      conv => rhs; rw [← List.map_id s]
      exact List.map_congr_left fun b _ => by simp
    rw [e]
    simp only [Unit.addUnicodeString, Unit.strBytes, hc]
    have h1 : asciiLength s f = Unit.unicodeStringLength (s.map (·.toUInt16)) f := by
      cases f <;> simp [asciiLength, Unit.unicodeStringLength, h16] <;> omega
    have h2 : asciiHeader s f = Unit.strHeader (s.map (·.toUInt16)) f := by
      cases f <;> simp [asciiHeader, Unit.strHeader, h16]
    rw [h1, h2]
  · rfl

/-! ### Examples -/

/-- A conversion that keeps its promises exists. -/
example : ∃ f, IconvWide f := by
  refine ⟨fun s => if s.all (·.toNat < 0x10000) then some (s.map (·.toUInt16)) else none, ⟨fun cs h => ?_, fun cs h => ?_⟩⟩
  · have : (wide cs).all (·.toNat < 0x10000) = true := by
      simp only [wide, List.all_map, List.all_eq_true]
      exact fun c hc => decide_eq_true (h c hc)
    simp only [this, if_true, wide_basic h]
  · have : ¬ (wide cs).all (·.toNat < 0x10000) = true := by
      simp only [wide, List.all_map, List.all_eq_true]
      exact fun ha => h fun c hc => of_decide_eq_true (ha c hc)
    simp only [this]; rfl

example : char2str16 true none (utf8 ['A', 'b', '1']) = [65, 98, 49] := c56_ascii true none _ (by simp only [Ascii]; decide)
example : char2str16 true none (utf8 ['é']) = [0xFFC3, 0xFFA9] := by decide
example : wide2str16 none (wide ['é', '€']) = [0xE9, 0x20AC] := by decide
example : wide2str16 none (wide ['😀']) = [0xF600] ∧ utf16 ['😀'] = [0xD83D, 0xDE00] := by decide
example : Basic ['é', '€'] ∧ ¬ Basic ['😀'] ∧ ¬ Ascii ['é'] := by
  simp only [Basic, Ascii]; decide

end Xls.Text
