import Verif.Ask.Model
import Verif.Ask.Spec
import Verif.Xf.Props
import Verif.Font.Props
import Verif.Num.Props
/-
C64: what the getters answer is what the saved file says.
-/
namespace Xls.Ask
open Xls.Xf Xls.Font Xls.Num

/-! ### Formats -/

/-- A new user format after the calls `ops`. -/
def formatAfter (ops : List Xf.Op) : Option Xf := (new true true false).bind fun x => Xf.runAll x ops

theorem getFormatFrom_none (x : Xf) (n k : Nat) (h : ∀ i, k ≤ i → i < k + n → format2index i ≠ some x.formatIndex) :
    getFormatFrom x n k = 0 := by
  induction n generalizing k with
  | zero => rfl
  | succ n ih =>
    rw [getFormatFrom, if_neg (h k (by omega) (by omega))]
    exact ih (k + 1) fun i h1 h2 => h i (by omega) (by omega)

theorem getFormatFrom_some (x : Xf) (n k i : Nat) (h1 : k ≤ i) (h2 : i < k + n) (hi : format2index i = some x.formatIndex)
    (hu : ∀ j, j < i → format2index j ≠ some x.formatIndex) : getFormatFrom x n k = i := by
  induction n generalizing k with
  | zero => omega
  | succ n ih =>
    rw [getFormatFrom]
    by_cases e : format2index k = some x.formatIndex
    · rw [if_pos e]
      exact Classical.byContradiction fun hne => hu k (by omega) e
    · rw [if_neg e]
      refine ih (k + 1) ?_ (by omega)
      exact Classical.byContradiction fun hne => e (by rw [show k = i by omega]; exact hi)

theorem codes_distinct : ∀ i, i < 36 → ∀ j, j < i → Spec.formatCode j ≠ Spec.formatCode i := by decide

/-- The answer of `GetFormat` on a format whose index is that of a predefined one. -/
theorem getFormat_code (x : Xf) (n : Nat) (hn : n < 36) (h : x.formatIndex = Spec.formatCode n) : getFormat x = n := by
  refine getFormatFrom_some x 36 0 n (by omega) (by omega) (by rw [format_small n hn, h]) ?_
  intro j hj e
  rw [format_small j (by omega), h, Option.some.injEq] at e
  exact codes_distinct n hn j hj e

/-- The answer of `GetFormat` on any other. -/
theorem getFormat_other (x : Xf) (h : ∀ n, n < 36 → x.formatIndex ≠ Spec.formatCode n) : getFormat x = 0 := by
  refine getFormatFrom_none x 36 0 ?_
  intro i _ hi e
  rw [format_small i (by omega), Option.some.injEq] at e
  exact h i (by omega) e.symm

theorem record_of {ops : List Xf.Op} {x : Xf} {bs : Bytes} (hx : formatAfter ops = some x) (h : written ops = some bs) :
    Xf.record x = some bs := by
  have e : written ops = (formatAfter ops).bind Xf.record := rfl
  rw [e, hx, Option.bind_some] at h
  exact h

/-- The flag byte is made of its six bits. -/
theorem flags_parts (ops : List Xf.Op) (f : Nat) (hf : f < 256) (h4 : f % 4 = 0) :
    (ops.foldl (fun f o => f ||| flagOf o) f) < 256 ∧ (ops.foldl (fun f o => f ||| flagOf o) f) % 4 = 0 := by
  induction ops generalizing f with
  | nil => exact ⟨hf, h4⟩
  | cons o r ih =>
    have hb : flagOf o < 256 ∧ flagOf o % 4 = 0 := by
      unfold flagOf
      repeat' split
      all_goals decide
    refine ih _ ?_ ?_
    · exact Nat.or_lt_two_pow (n := 8) hf hb.1
    · have : (f ||| flagOf o) % 2 ^ 2 = (f % 2 ^ 2) ||| (flagOf o % 2 ^ 2) := Nat.or_mod_two_pow
      rw [show (2 : Nat) ^ 2 = 4 from rfl] at this
      rw [this, h4, hb.2]
      rfl

theorem byte_parts : ∀ f, f < 256 → f % 4 = 0 → f = 4 * (bits f 2 1 == 1).toNat + 8 * (bits f 3 1 == 1).toNat +
    16 * (bits f 4 1 == 1).toNat + 32 * (bits f 5 1 == 1).toNat + 64 * (bits f 6 1 == 1).toNat +
    128 * (bits f 7 1 == 1).toNat := by decide +kernel

theorem indent_parts : ∀ n, n < 19 → indentCode n = (if n < 16 then n else 0) + 16 * (n == 16).toNat +
    64 * (if n = 17 then 1 else if n = 18 then 2 else 0) := by decide

/-- C64 for formats: after any calls, what the getters answer is in the XF record.  The predefined format is the one whose
    number the record has (built-in numbers 0-22 and 37-49).  Missing for the full claim: the record
    has seven bits for a colour (`c64_colour_cut`), nothing for the diagonals (`c64_diagonals`), and `GetFormat` answers
    General for formats that are not predefined (`c64_get_format`). -/
theorem c64_format_partial (ops : List Xf.Op) (ho : ∀ o ∈ ops, Xf.Spec.Valid o) :
    ∃ x bs s, formatAfter ops = some x ∧ Xf.record x = some bs ∧ readXf (bs.drop 4) = some s ∧
      (askFormat x).fontIndex = s.font ∧ (askFormat x).formatIndex = s.format ∧
      (askFormat x).halign = s.halign ∧ (askFormat x).valign = s.valign ∧ (askFormat x).orient = s.orient ∧
      (askFormat x).indent = s.indent + 16 * s.shrink.toNat + 64 * s.direction ∧
      (askFormat x).fill = s.pattern ∧ (askFormat x).fg % 128 = s.fg ∧ (askFormat x).bg % 128 = s.bg ∧
      (askFormat x).locked = s.locked ∧ (askFormat x).hidden = s.hidden ∧ (askFormat x).wrap = s.wrap ∧
      (∀ d, d ≠ Side.diagonals → (askFormat x).bstyle d = (lineAt s d).style ∧ (askFormat x).bcolor d % 128 = (lineAt s d).color) ∧
      (askFormat x).flags = 4 * s.usesFormat.toNat + 8 * s.usesFont.toNat + 16 * s.usesAlign.toNat +
        32 * s.usesBorder.toNat + 64 * s.usesPattern.toNat + 128 * s.usesProtect.toNat ∧
      (∀ n, n < 36 → s.format = Xf.Spec.formatCode n → (askFormat x).format = n) := by
  obtain ⟨bs, h1, -, -, h4⟩ := c28_xf_partial ops ho
  have hx : formatAfter ops = some (track Xf.fresh ops) := by
    rw [formatAfter, new_user, Option.bind_some, runAll_track Xf.fresh rfl ops ho]
  have hr := record_of hx h1
  obtain ⟨i1, i2⟩ := indent_last ops ho
  refine ⟨_, bs, _, hx, hr, h4, (font_last ops ho).1, rfl, rfl, rfl, rfl, ?_, rfl, rfl, rfl, rfl, rfl, rfl, ?_, ?_, ?_⟩
  · show Xf.Spec.last pickIndentCode 0 ops = _
    rw [i1, indent_parts _ i2]
    rfl
  · intro d hd
    cases d with
    | diagonals => exact absurd rfl hd
    | _ => exact ⟨rfl, rfl⟩
  · obtain ⟨p1, p2⟩ := flags_parts ops 0 (by decide) (by decide)
    show ops.foldl (fun f o => f ||| flagOf o) 0 = _
    rw [byte_parts _ p1 p2]
    simp only [flags_any 2 _ flag_num, flags_any 3 _ flag_font, flags_any 4 _ flag_alc,
      flags_any 5 _ flag_bdr, flags_any 6 _ flag_pat, flags_any 7 _ flag_prot]
    have hfl : ∀ k, (bits 0 k 1 == 1) = false := by intro k; simp [bits]
    simp only [hfl, Bool.false_or]
    rfl
  · intro n hn hs
    exact getFormat_code _ n hn hs

/-- Colours with an index below 128, which all colours of the palette have, and no diagonals: then the getters answer what
    the record says without reservation. -/
theorem c64_colours (ops : List Xf.Op) (ho : ∀ o ∈ ops, Xf.Spec.Valid o)
    (hf : ∀ c, .fgIdx c ∈ ops → c < 128) (hb : ∀ c, .bgIdx c ∈ ops → c < 128) (hl : ∀ s c, .bcolorIdx s c ∈ ops → c < 128) :
    ∃ x bs s, formatAfter ops = some x ∧ Xf.record x = some bs ∧ readXf (bs.drop 4) = some s ∧
      (askFormat x).fg = s.fg ∧ (askFormat x).bg = s.bg ∧
      ∀ d, d ≠ Side.diagonals → (askFormat x).bcolor d = (lineAt s d).color := by
  obtain ⟨x, bs, s, h1, h2, h3, -, -, -, -, -, -, -, g1, g2, -, -, -, g3, -, -⟩ := c64_format_partial ops ho
  have hx : x = track Xf.fresh ops := by
    have : formatAfter ops = some (track Xf.fresh ops) := by
      rw [formatAfter, new_user, Option.bind_some, runAll_track Xf.fresh rfl ops ho]
    rw [h1] at this
    exact Option.some.inj this
  have hc : ∀ n, n < 59 → Xf.Spec.colorCode n < 128 := by decide
  have e1 : (askFormat x).fg < 128 := by
    rw [hx]
    refine Xf.last_inv Xf.Spec.pickFg (· < 128) _ ops (by decide) ?_
    intro o hm v h
    have hv := ho o hm
    cases o <;> simp only [Xf.Spec.pickFg, reduceCtorEq] at h
    · simp only [Option.some.injEq] at h; subst h; exact hc _ hv
    · simp only [Option.some.injEq] at h; subst h; exact hf _ hm
  have e2 : (askFormat x).bg < 128 := by
    rw [hx]
    refine Xf.last_inv Xf.Spec.pickBg (· < 128) _ ops (by decide) ?_
    intro o hm v h
    have hv := ho o hm
    cases o <;> simp only [Xf.Spec.pickBg, reduceCtorEq] at h
    · simp only [Option.some.injEq] at h; subst h; exact hc _ hv
    · simp only [Option.some.injEq] at h; subst h; exact hb _ hm
  have e3 : ∀ d, (ops.foldl (Xf.Spec.lineStep d) ⟨0, 0⟩).color < 128 := by
    intro d
    have key : ∀ (r : List Xf.Op) (l : Line), (∀ o ∈ r, o ∈ ops) → l.color < 128 → (r.foldl (Xf.Spec.lineStep d) l).color < 128 := by
      intro r
      induction r with
      | nil => intro l _ h; exact h
      | cons o r ih =>
        intro l hr hlc
        refine ih _ (fun o h => hr o (by simp [h])) ?_
        have hm := hr o (by simp)
        have hv := ho o hm
        cases o <;> simp only [Xf.Spec.lineStep] <;> (try exact hlc)
        · split
          · show (if l.color = 0 then 0x40 else l.color) < 128
            split
            · decide
            · exact hlc
          · exact hlc
        · split
          · exact hc _ hv
          · exact hlc
        · split
          · exact hl _ _ hm
          · exact hlc
    exact key ops ⟨0, 0⟩ (fun _ h => h) (by decide)
  refine ⟨x, bs, s, h1, h2, h3, ?_, ?_, ?_⟩
  · rw [← g1, Nat.mod_eq_of_lt e1]
  · rw [← g2, Nat.mod_eq_of_lt e2]
  · intro d hd
    rw [← (g3 d hd).2, Nat.mod_eq_of_lt]
    rw [hx]
    cases d <;> exact e3 _

/-- A colour index from 128 on is what the getter answers, and not what the record says. -/
theorem c64_colour_cut (c : Nat) (h1 : 128 ≤ c) (h2 : c < 256) :
    ∃ x bs s, formatAfter [.fgIdx c] = some x ∧ Xf.record x = some bs ∧ readXf (bs.drop 4) = some s ∧
      (askFormat x).fg = c ∧ s.fg = c - 128 := by
  obtain ⟨x, bs, s, e1, e2, e3, -, -, -, -, -, -, -, g1, -⟩ := c64_format_partial [.fgIdx c] (by
    intro o h
    simp only [List.mem_cons, List.not_mem_nil, or_false] at h
    subst h
    exact h2)
  have hx : (askFormat x).fg = c := by
    have : formatAfter [.fgIdx c] = some (track Xf.fresh [.fgIdx c]) := by
      rw [formatAfter, new_user, Option.bind_some, runAll_track Xf.fresh rfl]
      intro o h
      simp only [List.mem_cons, List.not_mem_nil, or_false] at h
      subst h
      exact h2
    rw [e1] at this
    rw [Option.some.inj this]
    rfl
  refine ⟨x, bs, s, e1, e2, e3, hx, ?_⟩
  rw [← g1, hx]
  omega

/-- The getters answer the diagonals that were asked for; the record has none. -/
theorem c64_diagonals (n : Nat) (h1 : 0 < n) (h2 : n < 8) :
    ∃ x bs s, formatAfter [.bstyle .diagonals n] = some x ∧ Xf.record x = some bs ∧ readXf (bs.drop 4) = some s ∧
      (askFormat x).bstyle .diagonals = n ∧ (lineAt s .diagonals).style = 0 := by
  have hv : ∀ o ∈ [Xf.Op.bstyle .diagonals n], Xf.Spec.Valid o := by
    intro o h
    simp only [List.mem_cons, List.not_mem_nil, or_false] at h
    subst h
    exact h2
  obtain ⟨bs, e1, -, -, e4⟩ := c28_xf_partial _ hv
  have hx : formatAfter [.bstyle .diagonals n] = some (track Xf.fresh [.bstyle .diagonals n]) := by
    rw [formatAfter, new_user, Option.bind_some, runAll_track Xf.fresh rfl _ hv]
  exact ⟨_, bs, _, hx, record_of hx e1, e4, rfl, rfl⟩

/-- `GetFormat` after any calls: the predefined format given last, or General when the last format given is not one of the
    36 predefined ones, as for every format made with `workbook::format` (index 164 and up). -/
theorem c64_get_format (ops : List Xf.Op) (ho : ∀ o ∈ ops, Xf.Spec.Valid o) :
    ∃ x, formatAfter ops = some x ∧
      (∀ n, n < 36 → Xf.Spec.last Xf.Spec.pickFormat 0 ops = Xf.Spec.formatCode n → (askFormat x).format = n) ∧
      ((∀ n, n < 36 → Xf.Spec.last Xf.Spec.pickFormat 0 ops ≠ Xf.Spec.formatCode n) → (askFormat x).format = 0) ∧
      (164 ≤ Xf.Spec.last Xf.Spec.pickFormat 0 ops → (askFormat x).format = 0) := by
  have hx : formatAfter ops = some (track Xf.fresh ops) := by
    rw [formatAfter, new_user, Option.bind_some, runAll_track Xf.fresh rfl ops ho]
  refine ⟨_, hx, fun n hn h => getFormat_code _ n hn h, fun h => getFormat_other _ h, fun h => getFormat_other _ ?_⟩
  intro n hn e
  have : ∀ n, n < 36 → Xf.Spec.formatCode n < 164 := by decide
  have h2 := this n hn
  have e' : Xf.Spec.last Xf.Spec.pickFormat 0 ops = Xf.Spec.formatCode n := e
  omega

/-! ### Fonts -/

/-- C64 for fonts: after any calls every getter answers what a reader finds in the FONT record. -/
theorem c64_font (ops : List FOp) (ho : ∀ o ∈ ops, Font.Spec.Valid o) :
    ∃ f s, Font.runAll Font.fresh ops = some f ∧ readFont (Font.payload f) = some s ∧
      askFont f = ⟨s.name, s.height, s.weight, s.underline, s.script, s.color, s.italic, s.strike, s.outline, s.shadow,
        s.family, s.charset⟩ := by
  obtain ⟨f, h1, h2, h3, h4, h5, h6⟩ := c30_font ops ho
  refine ⟨f, _, h1, h2, ?_⟩
  have e := run_mk ops ho verdana 0xc8 400 0 false false false false false 0x7fff 0 0 1
  have e' : Font.runAll Font.fresh ops = _ := e
  rw [h1, Option.some.injEq] at e'
  simp only [askFont, h3, h4, h5, h6]
  rw [e']
  rfl

theorem takeWhile_append_zero (a r : Bytes) (h : ∀ c ∈ a, c ≠ 0) : (a ++ 0 :: r).takeWhile (· ≠ 0) = a := by
  induction a with
  | nil => simp
  | cons c a ih =>
    have hc := h c (by simp)
    rw [List.cons_append, List.takeWhile_cons_of_pos (by simpa using hc), ih fun c h' => h c (by simp [h'])]

theorem cText_clean (name : Bytes) : ∀ c ∈ cText name, c ≠ 0 := by
  intro c h
  have := List.all_takeWhile (p := fun c : UInt8 => decide (c ≠ 0)) (l := name)
  rw [List.all_eq_true] at this
  simpa using this c h

/-- `xlsFontGetName` into a buffer of `size > 0` bytes: the buffer then has the name, up to its first NUL and cut to
    `size - 1` bytes, followed by a NUL, and keeps its size. -/
theorem c64_font_name (name dst : Bytes) (hd : 0 < dst.length) :
    ∃ d, getName name dst dst.length = some d ∧ d.length = dst.length ∧
      cText d = (cText name).take (dst.length - 1) ∧ (cText d).length < d.length := by
  have hcl := cText_clean name
  unfold getName
  generalize cText name = t at *
  simp only
  by_cases h : t.length + 1 > dst.length
  · rw [if_pos h]
    have e : ((t ++ [0]).take dst.length) = t.take dst.length := by
      rw [List.take_append, show dst.length - t.length = 0 by omega]
      simp
    have el : (t.take dst.length).length = dst.length := by simp; omega
    rw [e, copyTo, if_pos (by omega), Option.bind_some, el, List.drop_length, List.append_nil, if_pos ⟨hd, by omega⟩]
    have e2 : (t.take dst.length).set (dst.length - 1) 0 = t.take (dst.length - 1) ++ 0 :: [] := by
      apply List.ext_getElem
      · simp; omega
      · intro i h1 h2
        rw [List.getElem_set]
        simp only [List.length_set, List.length_take] at h1
        by_cases hi : dst.length - 1 = i
        · rw [if_pos hi, List.getElem_append_right (by simp; omega)]
          simp
        · rw [if_neg hi, List.getElem_append_left (by simp; omega)]
          simp
    refine ⟨_, rfl, by simp; omega, ?_, ?_⟩
    · rw [e2, cText, takeWhile_append_zero _ _ fun c hc => hcl c (List.mem_of_mem_take hc)]
    · rw [e2, cText, takeWhile_append_zero _ _ fun c hc => hcl c (List.mem_of_mem_take hc)]
      simp
  · rw [if_neg h]
    have e : ((t ++ [0]).take (t.length + 1)) = t ++ [0] := List.take_of_length_le (by simp)
    rw [e, copyTo, if_pos (by simp; omega), Option.bind_some, if_pos ⟨hd, by simp; omega⟩]
    have e2 : ∃ r, (t ++ [0] ++ dst.drop (t ++ [(0 : UInt8)]).length).set (dst.length - 1) 0 = t ++ 0 :: r := by
      rw [List.append_assoc, List.set_append_right _ _ (by omega)]
      cases hk : dst.length - 1 - t.length with
      | zero => exact ⟨_, rfl⟩
      | succ k => exact ⟨_, rfl⟩
    have e3 : (t ++ [0] ++ dst.drop (t ++ [(0 : UInt8)]).length).length = dst.length := by simp; omega
    obtain ⟨r, hr⟩ := e2
    refine ⟨_, rfl, by rw [List.length_set, e3], ?_, ?_⟩
    · rw [hr, cText, takeWhile_append_zero _ _ hcl, List.take_of_length_le (by omega)]
    · rw [hr, cText, takeWhile_append_zero _ _ hcl]
      simp

/-- With a size of 0 it writes outside the buffer, whatever the buffer. -/
theorem c64_font_name_empty (name dst : Bytes) : getName name dst 0 = none := by
  simp [getName, copyTo]

/-! ### Numbers -/

theorem floor_eq (sig e : Nat) :
    (if e ≤ 1075 then sig / 2 ^ (1075 - e) else sig * 2 ^ (e - 1075)) = sig * 2 ^ e / 2 ^ 1075 := by
  by_cases h : e ≤ 1075
  · rw [if_pos h]
    have : (2 : Nat) ^ 1075 = 2 ^ (1075 - e) * 2 ^ e := by rw [← Nat.pow_add]; congr 1; omega
    rw [this, Nat.mul_div_mul_right _ _ (Nat.two_pow_pos e)]
  · rw [if_neg h]
    have : (2 : Nat) ^ e = 2 ^ (e - 1075) * 2 ^ 1075 := by rw [← Nat.pow_add]; congr 1; omega
    rw [this, ← Nat.mul_assoc, Nat.mul_div_cancel _ (Nat.two_pow_pos 1075)]

/-- `GetInt` of a cell holding any double: the integer part of its value, if it has one and that fits 32 bits; in all other
    cases the conversion is undefined. -/
theorem c64_int_of_double (b : Nat) (z : Int) :
    getInt (ofDouble b) = some z ↔ (IntegerPart b z ∧ -2147483648 ≤ z ∧ z < 2147483648) := by
  show truncDbl b = some z ↔ _
  unfold truncDbl
  simp only [floor_eq]
  unfold IntegerPart dblParts
  simp only
  by_cases hi : b / 2 ^ 52 % 2048 = 2047
  · rw [if_pos hi, if_pos hi]
    simp
  · rw [if_neg hi, if_neg hi]
    generalize hs : (if b / 2 ^ 52 % 2048 = 0 then b % 2 ^ 52 else 2 ^ 52 + b % 2 ^ 52 : Nat) = sig
    generalize he : (if b / 2 ^ 52 % 2048 = 0 then 1 else b / 2 ^ 52 % 2048 : Nat) = e
    have hsi : (if b / 2 ^ 52 % 2048 = 0 then ((b % 2 ^ 52 : Nat) : Int) else 2 ^ 52 + ((b % 2 ^ 52 : Nat) : Int)) = (sig : Int) := by
      rw [← hs]
      split <;> simp
    rw [hsi]
    have hD : 0 < (2 : Nat) ^ 1075 := Nat.two_pow_pos 1075
    generalize (2 : Nat) ^ 1075 = D at *
    -- the quotient, and that it is the only number with these bounds
    have hq1 : sig * 2 ^ e / D * D ≤ sig * 2 ^ e := Nat.div_mul_le_self _ _
    have hq2 : sig * 2 ^ e < (sig * 2 ^ e / D + 1) * D := by
      have h1 := Nat.div_add_mod (sig * 2 ^ e) D
      have h2 := Nat.mod_lt (sig * 2 ^ e) hD
      rw [Nat.add_mul, Nat.one_mul, Nat.mul_comm _ D]
      omega
    have hu : ∀ q', q' * D ≤ sig * 2 ^ e → sig * 2 ^ e < (q' + 1) * D → q' = sig * 2 ^ e / D := by
      intro q' h1 h2
      have a : q' ≤ sig * 2 ^ e / D := (Nat.le_div_iff_mul_le hD).mpr h1
      have b : sig * 2 ^ e / D < q' + 1 := (Nat.div_lt_iff_lt_mul hD).mpr h2
      omega
    have hz : sig = 0 → sig * 2 ^ e / D = 0 := by
      intro h0
      rw [h0, Nat.zero_mul, Nat.zero_div]
    generalize sig * 2 ^ e / D = q at *
    constructor
    · intro h
      by_cases hn : b / 2 ^ 63 % 2 = 1
      · simp only [if_pos hn] at h ⊢
        split at h
        · rename_i hr
          simp only [Option.some.injEq] at h
          subst h
          refine ⟨⟨_, _, rfl, ?_, ?_, ?_, ?_⟩, hr⟩
          · simpa using hq1
          · simpa using hq2
          · intro h; omega
          · intro h; omega
        · simp at h
      · simp only [if_neg hn] at h ⊢
        split at h
        · rename_i hr
          simp only [Option.some.injEq] at h
          subst h
          refine ⟨⟨_, _, rfl, ?_, ?_, ?_, ?_⟩, hr⟩
          · simpa using hq1
          · simpa using hq2
          · intro h; omega
          · intro h; omega
        · simp at h
    · rintro ⟨⟨m, e', hm, b1, b2, s1, s2⟩, hr⟩
      simp only [Option.some.injEq, Prod.mk.injEq] at hm
      obtain ⟨hm, he'⟩ := hm
      subst he'
      have hma : m.natAbs = sig := by
        rw [← hm]
        split <;> simp
      rw [hma] at b1 b2
      have hqz := hu _ b1 b2
      by_cases hn : b / 2 ^ 63 % 2 = 1
      · simp only [if_pos hn] at hm ⊢
        have : -(q : Int) = z := by omega
        rw [this, if_pos hr]
      · simp only [if_neg hn] at hm ⊢
        have : (q : Int) = z := by omega
        rw [this, if_pos hr]

/-- The three ways to give a number to a cell, `worksheet::number` with a `double`, a `signed32_t` or an `unsigned32_t`,
    the patterns and values being those of the types. -/
inductive Given : Number → Prop
  | double {b : Nat} (h : b < 2 ^ 64) : Given (ofDouble b)
  | signed {z : Int} (h1 : -2147483648 ≤ z) (h2 : z < 2147483648) : Given (ofSigned z)
  | unsigned {n : Nat} (h : n < 2 ^ 32) : Given (ofUnsigned n)

/-- What such a cell holds. -/
def Fits : Number → Prop
  | .dbl b => b < 2 ^ 64
  | .int z => -0x20000000 ≤ z ∧ z < 0x20000000

theorem given_holds {n : Number} (h : Given n) : Fits n := by
  cases h with
  | double h => exact h
  | @signed z h1 h2 =>
    unfold ofSigned
    by_cases hc : z ≤ 0x1FFFFFFF ∧ z ≥ -0x20000000
    · rw [if_pos hc]
      exact ⟨by omega, by omega⟩
    · rw [if_neg hc]
      exact dblOfInt_lt (by omega)
  | @unsigned n h =>
    unfold ofUnsigned
    by_cases hc : n ≥ 0xE0000000
    · rw [if_pos hc]
      show -0x20000000 ≤ s32OfNat n ∧ s32OfNat n < 0x20000000
      unfold s32OfNat
      split <;> omega
    · rw [if_neg hc]
      exact dblOfInt_lt (by omega)

/-- C64 for numbers: however the number was given, the file holds either exactly the double that `GetDouble` answers, or an
    integer, and then `GetInt` answers that integer and `GetDouble` the double that denotes it; `GetIsDouble` tells which. -/
theorem c64_number {row col xf : Nat} (hr : row < 65536) (hc : col < 65536) (hx : xf < 65536) {n : Number} (h : Given n) :
    ∃ v, readCell (numberRecord row col xf n).1 (numberRecord row col xf n).2 = some ⟨row, col, xf, .number v⟩ ∧
      ((v = .dbl (getDouble n) ∧ isDouble n = true) ∨
       ∃ z, v = .int z ∧ isDouble n = false ∧ getInt n = some z ∧ Denotes (getDouble n) z) := by
  refine ⟨_, readCell_number hr hc hx n, ?_⟩
  have hh := given_holds h
  cases n with
  | dbl b =>
    refine Or.inl ⟨?_, rfl⟩
    show Value.dbl (b % 2 ^ 64) = _
    rw [Nat.mod_eq_of_lt hh]
    rfl
  | int z =>
    refine Or.inr ⟨z, rkValue_int hh.1 hh.2, rfl, rfl, dblOfInt_denotes (z := z) ?_⟩
    have h1 := hh.1
    have h2 := hh.2
    omega

/-- The integer part of a double that denotes an integer. -/
theorem integerPart_denotes {b : Nat} {z : Int} (h : Denotes b z) : IntegerPart b z := by
  obtain ⟨m, e, h1, h2⟩ := h
  have hp : (0 : Int) < 2 ^ 1075 := Int.pow_pos (by decide)
  have hpe : (0 : Int) < 2 ^ e := Int.pow_pos (by decide)
  have hn : m.natAbs * 2 ^ e = z.natAbs * 2 ^ 1075 := by
    have := congrArg Int.natAbs h2
    rw [Int.natAbs_mul, Int.natAbs_mul, Int.natAbs_pow, Int.natAbs_pow] at this
    exact this
  refine ⟨m, e, h1, by omega, ?_, ?_, ?_⟩
  · rw [hn]
    exact Nat.mul_lt_mul_of_pos_right (by omega) (Nat.two_pow_pos 1075)
  · intro hz
    have : 0 < m * 2 ^ e := by rw [h2]; exact Int.mul_pos hz hp
    exact Int.pos_of_mul_pos_left this hpe
  · intro hz
    have : m * 2 ^ e < 0 := by rw [h2]; exact Int.mul_neg_of_neg_of_pos hz hp
    exact Classical.byContradiction fun hm => by
      have := Int.mul_nonneg (a := m) (b := 2 ^ e) (by omega) (by omega)
      omega

/-- A `signed32_t` is given back by `GetInt` whatever its value, although the large ones are kept as doubles. -/
theorem c64_signed {z : Int} (h1 : -2147483648 ≤ z) (h2 : z < 2147483648) : getInt (ofSigned z) = some z := by
  unfold ofSigned
  by_cases hc : z ≤ 0x1FFFFFFF ∧ z ≥ -0x20000000
  · rw [if_pos hc]
    rfl
  · rw [if_neg hc]
    exact (c64_int_of_double _ z).mpr ⟨integerPart_denotes (dblOfInt_denotes (by omega)), h1, h2⟩

theorem integerPart_unique {b : Nat} {x y : Int} (hx : IntegerPart b x) (hy : IntegerPart b y) : x = y := by
  obtain ⟨m, e, h1, a1, a2, s1, s2⟩ := hx
  obtain ⟨m', e', h1', b1, b2, t1, t2⟩ := hy
  rw [h1, Option.some.injEq, Prod.mk.injEq] at h1'
  obtain ⟨rfl, rfl⟩ := h1'
  have hD := Nat.two_pow_pos 1075
  generalize (2 : Nat) ^ 1075 = D at *
  have c1 : x.natAbs < y.natAbs + 1 := Nat.lt_of_mul_lt_mul_right (Nat.lt_of_le_of_lt a1 b2)
  have c2 : y.natAbs < x.natAbs + 1 := Nat.lt_of_mul_lt_mul_right (Nat.lt_of_le_of_lt b1 a2)
  omega

/-- An `unsigned32_t` is given back by `GetInt` below 2^31; up to 0xE0000000 the conversion is undefined, and from there on
    the answer is off by 2^32 (as is the file, C23). -/
theorem c64_unsigned {n : Nat} (h : n < 2 ^ 32) :
    (n < 2 ^ 31 → getInt (ofUnsigned n) = some (n : Int)) ∧
    (2 ^ 31 ≤ n → n < 0xE0000000 → getInt (ofUnsigned n) = none) ∧
    (0xE0000000 ≤ n → getInt (ofUnsigned n) = some ((n : Int) - 2 ^ 32)) := by
  have hd : ∀ n : Nat, n < 2 ^ 32 → Denotes (dblOfInt n) n := fun n hn => dblOfInt_denotes (by omega)
  refine ⟨fun h1 => ?_, fun h1 h2 => ?_, fun h1 => ?_⟩
  · unfold ofUnsigned
    rw [if_neg (by omega)]
    exact (c64_int_of_double _ _).mpr ⟨integerPart_denotes (hd n h), by omega, by omega⟩
  · unfold ofUnsigned
    rw [if_neg (by omega)]
    cases hg : getInt (.dbl (dblOfInt n)) with
    | none => rfl
    | some z =>
      obtain ⟨g1, g2, g3⟩ := (c64_int_of_double _ z).mp hg
      have := integerPart_unique g1 (integerPart_denotes (hd n h))
      omega
  · unfold ofUnsigned
    rw [if_pos (by omega)]
    show some (s32OfNat n) = _
    unfold s32OfNat
    rw [if_neg (by omega)]
    congr 1

/-! ### Meeting the hypotheses -/

example : ∃ x bs s, formatAfter [.format 9, .fg 17, .bstyle .top 2, .indent 17, .userFormat (some 3)] = some x ∧
    Xf.record x = some bs ∧ readXf (bs.drop 4) = some s ∧ (askFormat x).fg = 10 ∧ s.fg = 10 ∧ (askFormat x).bstyle .top = 2 ∧
    s.top.style = 2 ∧ (askFormat x).formatIndex = 167 ∧ s.format = 167 ∧ (askFormat x).format = 0 ∧ (askFormat x).indent = 64 :=
  ⟨_, _, _, rfl, rfl, rfl, by decide +kernel⟩

example : ∃ f s, Font.runAll Font.fresh [.italic true, .height 240, .colorIdx 200, .bold 0] = some f ∧
    readFont (Font.payload f) = some s ∧ (askFont f).color = 200 ∧ s.color = 200 ∧ (askFont f).bold = 700 := ⟨_, _, rfl, rfl, by decide⟩

example : getName [0x41, 0x72, 0x69, 0x61, 0x6c] [9, 9, 9, 9] 4 = some [0x41, 0x72, 0x69, 0] := by decide
example : getName [0x41, 0x72] [9, 9, 9, 9] 4 = some [0x41, 0x72, 0, 0] := by decide
example : getInt (ofDouble 0x400921FB54442D18) = some 3 := by decide +kernel
example : getInt (ofDouble 0xC00921FB54442D18) = some (-3) := by decide +kernel
example : getInt (ofDouble 0x7FF0000000000000) = none := by decide +kernel

end Xls.Ask
