import Verif.Touch.Spec
/-
What setters make of the answers of formats and fonts.
-/
namespace Xls.Touch
open Xls.Ask (FormatReport FontReport askFormat askFont)
open Xls.Xf (Xf)
open Xls.Mirror (XfFits)
open Xls.Xf.Spec

/-! ### Formats -/

theorem report_ext {a b : FormatReport} (h1 : a.fontIndex = b.fontIndex) (h2 : a.formatIndex = b.formatIndex) (h3 : a.format = b.format) (h4 : a.halign = b.halign)
    (h5 : a.valign = b.valign) (h6 : a.indent = b.indent) (h7 : a.orient = b.orient) (h8 : a.fg = b.fg) (h9 : a.bg = b.bg) (h10 : a.fill = b.fill)
    (h11 : a.locked = b.locked) (h12 : a.hidden = b.hidden) (h13 : a.wrap = b.wrap) (h14 : a.bstyle = b.bstyle) (h15 : a.bcolor = b.bcolor)
    (h16 : a.flags = b.flags) : a = b := by
  cases a; cases b; simp only at *; simp [*]

theorem getFormat_eq {x y : Xf} (h : x.formatIndex = y.formatIndex) : Ask.getFormat x = Ask.getFormat y := by
  unfold Ask.getFormat
  suffices ∀ n k, Ask.getFormatFrom x n k = Ask.getFormatFrom y n k from this 36 0
  intro n
  induction n with
  | zero => exact fun _ => rfl
  | succ n ih => intro k; simp only [Ask.getFormatFrom, h, ih]

theorem getFormat_predefined (x : Xf) : Ask.getFormat x = predefined x.formatIndex := by
  by_cases h : ∃ n, n < 36 ∧ x.formatIndex = formatCode n
  · obtain ⟨n, hn, e⟩ := h
    rw [Ask.getFormat_code x n hn e, e]
    have : ∀ n, n < 36 → n = predefined (formatCode n) := by decide
    exact this n hn
  · rw [Ask.getFormat_other x fun n hn e => h ⟨n, hn, e⟩]
    unfold predefined
    split
    · rename_i h1
      exact absurd ⟨x.formatIndex, by omega, by simp [formatCode, h1]⟩ h
    · split
      · rename_i h1 h2
        refine absurd ⟨x.formatIndex - 14, by omega, ?_⟩ h
        unfold formatCode
        rw [if_neg (by omega), if_pos (by omega)]
        omega
      · rfl

/-- The answers of a copy. -/
theorem copied {x : Xf} (h : XfFits x) : noFlags (askFormat (Xf.dup x)) = noFlags (askFormat x) ∧ (Xf.dup x).isCell = true ∧
    ∃ m ∈ [0, 4, 8, 12], (Xf.dup x).flags = x.flags ||| m := by
  have hfont : Xf.fontIndex (Xf.dup x) = Xf.fontIndex x := by unfold Xf.fontIndex; rw [Styles.dup_font]
  unfold Xf.dup at *
  cases hx : x.format with
  | none =>
    simp only [hx] at hfont ⊢
    refine ⟨?_, ?_, ?_⟩
    · refine report_ext hfont ?_ (getFormat_eq ?_) ?_ ?_ ?_ ?_ ?_ ?_ ?_ ?_ ?_ ?_ ?_ ?_ rfl <;> cases x.font <;> rfl
    · cases x.font <;> rfl
    · cases x.font with
      | none => exact ⟨0, by simp, by simp [Xf.setFont, Xf.flagIf]⟩
      | some p => exact ⟨8, by simp, by simp [Xf.setFont, Xf.flagIf, Xf.setFlag, Xf.atrFont]⟩
  | some k =>
    simp only [hx] at hfont ⊢
    have ht := h.tied k hx
    refine ⟨?_, ?_, ?_⟩
    · unfold Xf.setUserFormat at *
      refine report_ext hfont ht.symm (getFormat_eq ht.symm) ?_ ?_ ?_ ?_ ?_ ?_ ?_ ?_ ?_ ?_ ?_ ?_ rfl <;> cases Xf.formatIndexOf k != 0 <;> cases x.font <;> rfl
    · unfold Xf.setUserFormat
      cases Xf.formatIndexOf k != 0 <;> cases x.font <;> rfl
    · unfold Xf.setUserFormat
      cases Xf.formatIndexOf k != 0 <;> cases x.font
      · exact ⟨0, by simp, by simp [Xf.setFont, Xf.flagIf]⟩
      · exact ⟨8, by simp, by simp [Xf.setFont, Xf.flagIf, Xf.setFlag, Xf.atrFont]⟩
      · exact ⟨4, by simp, by simp [Xf.setFont, Xf.flagIf, Xf.setFlag, Xf.atrNum]⟩
      · exact ⟨12, by simp, by simp [Xf.setFont, Xf.flagIf, Xf.setFlag, Xf.atrNum, Xf.atrFont, Nat.or_assoc]⟩

theorem put_set (f : Xf.Five) (s : Xf.Side) (v : Nat) : (f.set s v).get = put f.get s v := by
  funext d
  cases s <;> cases d <;> rfl

theorem flag_eq {x : Xf} (hc : x.isCell = true) (b : Bool) (m : Nat) : Xf.flagIf b m x = { x with flags := x.flags ||| (if b then m else 0) } := by
  cases x
  simp only at hc
  subst hc
  cases b <;> simp [Xf.flagIf, Xf.setFlag]

/-- A setter on a format of a cell. -/
theorem set_told {x y : Xf} {o : Xf.Op} (hc : x.isCell = true) (ho : Valid o) (h : o.run x = some y) :
    noFlags (askFormat y) = noFlags (told (askFormat x) o) ∧ y.flags = x.flags ||| given o := by
  cases o with
  | font f =>
    simp only [Xf.Op.run, Xf.setFont, Option.some.injEq, flag_eq hc] at h
    subst h
    cases f with
    | none => exact ⟨report_ext rfl rfl (getFormat_eq rfl) rfl rfl rfl rfl rfl rfl rfl rfl rfl rfl rfl rfl rfl, rfl⟩
    | some p =>
      refine ⟨report_ext ?_ rfl (getFormat_eq rfl) rfl rfl rfl rfl rfl rfl rfl rfl rfl rfl rfl rfl rfl, rfl⟩
      show Xf.fontIndexOf p = fontCode p
      unfold Xf.fontIndexOf fontCode
      have : p < 65535 := ho
      split
      · rfl
      · omega
  | formatIndex i =>
    simp only [Xf.Op.run, Xf.setFormatIndex, Option.some.injEq, flag_eq hc] at h
    subst h
    refine ⟨report_ext rfl rfl (getFormat_predefined _) rfl rfl rfl rfl rfl rfl rfl rfl rfl rfl rfl rfl rfl, ?_⟩
    simp only [given, setsFormat, Xf.atrNum]
    cases i <;> rfl
  | format n =>
    have hn : ∀ n, n < 36 → Xf.format2index n = some (formatCode n) ∧ predefined (formatCode n) = n := by decide
    have hf : Xf.format2index (if n > 35 then 0 else n) = some (formatCode n) := by
      by_cases h : n > 35
      · rw [if_pos h]
        unfold formatCode
        rw [if_neg (by omega), if_neg (by omega)]
        rfl
      · rw [if_neg h]
        exact (hn n (by omega)).1
    simp only [Xf.Op.run, Xf.setFormat, hf, Option.map_some, Option.some.injEq, flag_eq hc] at h
    subst h
    refine ⟨report_ext rfl rfl ((getFormat_predefined _).trans ?_) rfl rfl rfl rfl rfl rfl rfl rfl rfl rfl rfl rfl rfl, ?_⟩
    · show predefined (formatCode n) = if n < 36 then n else 0
      by_cases h : n < 36
      · rw [if_pos h, (hn n h).2]
      · rw [if_neg h]
        unfold formatCode
        rw [if_neg (by omega), if_neg (by omega)]
        rfl
    · simp only [given, setsFormat, setsFont, setsAlign, setsBorder, setsPattern, setsProtect, Xf.atrNum, Bool.false_eq_true, if_false]
  | userFormat k =>
    cases k with
    | none =>
      cases h
      exact ⟨rfl, by simp [given, setsFormat, setsFont, setsAlign, setsBorder, setsPattern, setsProtect]⟩
    | some k =>
      have hk : k < 65372 := ho
      have e : Xf.formatIndexOf k = 164 + k := by unfold Xf.formatIndexOf; omega
      simp only [Xf.Op.run, Xf.setUserFormat, Option.some.injEq, flag_eq hc, e] at h
      subst h
      refine ⟨report_ext rfl rfl ((getFormat_predefined _).trans ?_) rfl rfl rfl rfl rfl rfl rfl rfl rfl rfl rfl rfl rfl, ?_⟩
      · show predefined (164 + k) = 0
        unfold predefined
        rw [if_neg (by omega), if_neg (by omega)]
      · simp only [given, setsFormat, Xf.atrNum, if_true]
        rw [if_pos (by simp)]
  | halign n =>
    have e : Xf.halignTable[n]? = some n := (by decide : ∀ n, n < 7 → Xf.halignTable[n]? = some n) n ho
    simp only [Xf.Op.run, Xf.setHAlign, e, Option.map_some, Option.some.injEq, flag_eq hc] at h
    subst h
    refine ⟨report_ext rfl rfl (getFormat_eq rfl) rfl rfl rfl rfl rfl rfl rfl rfl rfl rfl rfl rfl rfl, ?_⟩
    simp only [given, setsFormat, setsFont, setsAlign, setsBorder, setsPattern, setsProtect, Xf.atrAlc, Bool.false_eq_true, if_false]
  | valign n =>
    have e : Xf.valignTable[n]? = some n := (by decide : ∀ n, n < 4 → Xf.valignTable[n]? = some n) n ho
    simp only [Xf.Op.run, Xf.setVAlign, e, Option.map_some, Option.some.injEq, flag_eq hc] at h
    subst h
    refine ⟨report_ext rfl rfl (getFormat_eq rfl) rfl rfl rfl rfl rfl rfl rfl rfl rfl rfl rfl rfl rfl, ?_⟩
    simp only [given, setsFormat, setsFont, setsAlign, setsBorder, setsPattern, setsProtect, Xf.atrAlc, Bool.false_eq_true, if_false]
  | indent n =>
    have e : Xf.indentTable[n]? = some (if n = 17 then 64 else if n = 18 then 128 else n) :=
      (by decide : ∀ n, n < 19 → Xf.indentTable[n]? = some (if n = 17 then 64 else if n = 18 then 128 else n)) n ho
    simp only [Xf.Op.run, Xf.setIndent, e, Option.map_some, Option.some.injEq, flag_eq hc] at h
    subst h
    refine ⟨report_ext rfl rfl (getFormat_eq rfl) rfl rfl rfl rfl rfl rfl rfl rfl rfl rfl rfl rfl rfl, ?_⟩
    simp only [given, setsFormat, setsFont, setsAlign, setsBorder, setsPattern, setsProtect, Xf.atrAlc, Bool.false_eq_true, if_false]
  | orient n =>
    simp only [Xf.Op.run, Xf.setOrient, Xf.orient_code n ho, Option.map_some, Option.some.injEq, flag_eq hc] at h
    subst h
    refine ⟨report_ext rfl rfl (getFormat_eq rfl) rfl rfl rfl rfl rfl rfl rfl rfl rfl rfl rfl rfl rfl, ?_⟩
    simp only [given, setsFormat, setsFont, setsAlign, setsBorder, setsPattern, setsProtect, Xf.atrAlc, Bool.false_eq_true, if_false]
  | fg n =>
    simp only [Xf.Op.run, Xf.setFg, Xf.color_code n ho, Option.map_some, Option.some.injEq, flag_eq hc] at h
    subst h
    refine ⟨report_ext rfl rfl (getFormat_eq rfl) rfl rfl rfl rfl rfl rfl rfl rfl rfl rfl rfl rfl rfl, ?_⟩
    simp only [given, setsFormat, setsFont, setsAlign, setsBorder, setsPattern, setsProtect, Xf.atrPat, Bool.false_eq_true, if_false]
  | bg n =>
    simp only [Xf.Op.run, Xf.setBg, Xf.color_code n ho, Option.map_some, Option.some.injEq, flag_eq hc] at h
    subst h
    refine ⟨report_ext rfl rfl (getFormat_eq rfl) rfl rfl rfl rfl rfl rfl rfl rfl rfl rfl rfl rfl rfl, ?_⟩
    simp only [given, setsFormat, setsFont, setsAlign, setsBorder, setsPattern, setsProtect, Xf.atrPat, Bool.false_eq_true, if_false]
  | fgIdx c =>
    cases h
    refine ⟨report_ext rfl rfl (getFormat_eq rfl) rfl rfl rfl rfl rfl rfl rfl rfl rfl rfl rfl rfl rfl, ?_⟩
    simp [Xf.setFgIdx, Xf.setFlag, hc, given, setsFormat, setsFont, setsAlign, setsBorder, setsPattern, setsProtect, Xf.atrPat]
  | bgIdx c =>
    cases h
    refine ⟨report_ext rfl rfl (getFormat_eq rfl) rfl rfl rfl rfl rfl rfl rfl rfl rfl rfl rfl rfl rfl, ?_⟩
    simp [Xf.setBgIdx, Xf.setFlag, hc, given, setsFormat, setsFont, setsAlign, setsBorder, setsPattern, setsProtect, Xf.atrPat]
  | fill n =>
    simp only [Xf.Op.run, Xf.setFill, Xf.fill_code n ho, Option.map_some, Option.some.injEq, flag_eq hc] at h
    subst h
    refine ⟨report_ext rfl rfl (getFormat_eq rfl) rfl rfl rfl rfl rfl rfl rfl rfl rfl rfl rfl rfl rfl, ?_⟩
    simp only [given, setsFormat, setsFont, setsAlign, setsBorder, setsPattern, setsProtect, Xf.atrPat, Bool.false_eq_true, if_false]
  | locked b =>
    simp only [Xf.Op.run, Xf.setLocked, Option.some.injEq, flag_eq hc] at h
    subst h
    refine ⟨report_ext rfl rfl (getFormat_eq rfl) rfl rfl rfl rfl rfl rfl rfl rfl rfl rfl rfl rfl rfl, ?_⟩
    cases b <;> rfl
  | hidden b =>
    simp only [Xf.Op.run, Xf.setHidden, Option.some.injEq, flag_eq hc] at h
    subst h
    refine ⟨report_ext rfl rfl (getFormat_eq rfl) rfl rfl rfl rfl rfl rfl rfl rfl rfl rfl rfl rfl rfl, ?_⟩
    cases b <;> rfl
  | wrap b =>
    simp only [Xf.Op.run, Xf.setWrap, Option.some.injEq, flag_eq hc] at h
    subst h
    refine ⟨report_ext rfl rfl (getFormat_eq rfl) rfl rfl rfl rfl rfl rfl rfl rfl rfl rfl rfl rfl rfl, ?_⟩
    cases b <;> rfl
  | bstyle s n =>
    have e : Xf.borderTable[n]? = some n := (by decide : ∀ n, n < 8 → Xf.borderTable[n]? = some n) n ho
    have hc' : ({ x with bstyle := x.bstyle.set s n } : Xf).isCell = true := hc
    have e57 : Xf.colorTable[57]? = some 0x40 := rfl
    simp only [Xf.Op.run, Xf.setBorderStyle, e, Option.bind_some] at h
    rw [flag_eq hc'] at h
    simp only [e57, Option.map_some] at h
    rw [hc, Bool.true_and] at h
    have hflag : ∀ f : Nat, (f ||| if (n != 0) = true then Xf.atrBdr else 0) = f ||| given (.bstyle s n) := by
      intro f
      simp only [given, setsFormat, setsFont, setsAlign, setsBorder, setsPattern, setsProtect, Xf.atrBdr, Bool.false_eq_true, if_false]
    by_cases hz : x.bcolor.get s = 0
    · rw [if_pos (by simp [hz])] at h
      cases h
      refine ⟨report_ext rfl rfl (getFormat_eq rfl) rfl rfl rfl rfl rfl rfl rfl rfl rfl rfl (put_set _ _ _) ?_ rfl, hflag _⟩
      show (x.bcolor.set s 0x40).get = if x.bcolor.get s = 0 then put x.bcolor.get s 0x40 else x.bcolor.get
      rw [if_pos hz, put_set]
    · rw [if_neg (by simp [hz])] at h
      cases h
      refine ⟨report_ext rfl rfl (getFormat_eq rfl) rfl rfl rfl rfl rfl rfl rfl rfl rfl rfl (put_set _ _ _) ?_ rfl, hflag _⟩
      show x.bcolor.get = if x.bcolor.get s = 0 then put x.bcolor.get s 0x40 else x.bcolor.get
      rw [if_neg hz]
  | bcolor s n =>
    have hc' : ({ x with bcolor := x.bcolor.set s (colorCode n) } : Xf).isCell = true := hc
    simp only [Xf.Op.run, Xf.setBorderColor, Xf.color_code n ho, Option.map_some, Xf.setBorderColorIdx, Option.some.injEq, flag_eq hc'] at h
    subst h
    refine ⟨report_ext rfl rfl (getFormat_eq rfl) rfl rfl rfl rfl rfl rfl rfl rfl rfl rfl rfl (put_set _ _ _) rfl, ?_⟩
    simp only [given, setsFormat, setsFont, setsAlign, setsBorder, setsPattern, setsProtect, Xf.atrBdr, Xf.color_zero n ho, Bool.false_eq_true, if_false]
  | bcolorIdx s c =>
    have hc' : ({ x with bcolor := x.bcolor.set s c } : Xf).isCell = true := hc
    simp only [Xf.Op.run, Xf.setBorderColorIdx, Option.some.injEq, flag_eq hc'] at h
    subst h
    refine ⟨report_ext rfl rfl (getFormat_eq rfl) rfl rfl rfl rfl rfl rfl rfl rfl rfl rfl rfl (put_set _ _ _) rfl, ?_⟩
    simp only [given, setsFormat, setsFont, setsAlign, setsBorder, setsPattern, setsProtect, Xf.atrBdr, Bool.false_eq_true, if_false]

theorem told_noFlags {a b : FormatReport} (h : noFlags a = noFlags b) (o : Xf.Op) : noFlags (told a o) = noFlags (told b o) := by
  obtain ⟨a1, a2, a3, a4, a5, a6, a7, a8, a9, a10, a11, a12, a13, a14, a15, a16⟩ := a
  obtain ⟨b1, b2, b3, b4, b5, b6, b7, b8, b9, b10, b11, b12, b13, b14, b15, b16⟩ := b
  simp only [noFlags, FormatReport.mk.injEq] at h
  obtain ⟨rfl, rfl, rfl, rfl, rfl, rfl, rfl, rfl, rfl, rfl, rfl, rfl, rfl, rfl, rfl, -⟩ := h
  cases o with
  | font f => cases f <;> rfl
  | userFormat k => cases k <;> rfl
  | _ => rfl

theorem foldl_told {a b : FormatReport} (h : noFlags a = noFlags b) (ops : List Xf.Op) : noFlags (ops.foldl told a) = noFlags (ops.foldl told b) := by
  induction ops generalizing a b with
  | nil => exact h
  | cons o r ih => exact ih (told_noFlags h o)

theorem foldl_given (f m : Nat) (ops : List Xf.Op) :
    ops.foldl (fun f o => f ||| given o) (f ||| m) = ops.foldl (fun f o => f ||| given o) f ||| m := by
  induction ops generalizing f with
  | nil => rfl
  | cons o r ih =>
    rw [List.foldl_cons, List.foldl_cons, ← ih]
    rw [Nat.or_assoc, Nat.or_comm m, ← Nat.or_assoc]

theorem Became.refl (r : FormatReport) : Became r [] r := ⟨rfl, 0, by simp, by simp⟩

theorem Became.cons {a b c : FormatReport} {o : Xf.Op} {ops : List Xf.Op} (h1 : Became a [o] b) (h2 : Became b ops c) : Became a (o :: ops) c := by
  obtain ⟨e1, m, hm, f1⟩ := h1
  obtain ⟨e2, n, hn, f2⟩ := h2
  refine ⟨e2.trans (foldl_told e1 ops), m ||| n, ?_, ?_⟩
  · have : ∀ m ∈ [0, 4, 8, 12], ∀ n ∈ [0, 4, 8, 12], m ||| n ∈ [0, 4, 8, 12] := by decide
    exact this m hm n hn
  · rw [f2, f1]
    simp only [List.foldl_cons, List.foldl_nil]
    congr 1
    rw [Nat.or_assoc, Nat.or_assoc, Nat.or_assoc, Nat.or_comm (given o) n]
    simp [Nat.or_assoc]

/-- The formats that a cell gets with one format call after the other: each works on a copy. -/
def chain (x : Xf) : List Xf.Op → Option Xf
  | [] => some x
  | o :: r => (o.run (Xf.dup x)).bind fun y => chain y r

theorem chain_became {x y : Xf} (hx : XfFits x) {ops : List Xf.Op} (ho : ∀ o ∈ ops, Valid o) (h : chain x ops = some y) : Became (askFormat x) ops (askFormat y) := by
  induction ops generalizing x with
  | nil => cases h; exact .refl _
  | cons o r ih =>
    obtain ⟨z, h1, h2⟩ := Option.bind_eq_some_iff.mp h
    obtain ⟨z', h3, h4⟩ := hx.dup.run (ho o (by simp))
    rw [h1] at h3
    obtain rfl := Option.some.inj h3
    refine Became.cons ?_ (ih h4 (fun o h => ho o (by simp [h])) h2)
    obtain ⟨c1, c2, m, hm, c3⟩ := copied hx
    obtain ⟨d1, d2⟩ := set_told c2 (ho o (by simp)) h1
    refine ⟨d1.trans (told_noFlags c1 o), m, hm, ?_⟩
    show z.flags = _
    rw [d2, c3]
    rfl

/-! ### Fonts -/

theorem font_told {f g : Font.Font} (hf : Mirror.FontFits f) {o : Font.FOp} (ho : Font.Spec.Valid o) (h : o.run f = some g) :
    askFont g = fontTold (askFont f) o := by
  obtain ⟨-, -, -, -, -, -, -, -, z, i, s, p, w, h9⟩ := hf
  have hi : ∀ z i s o h, (Font.word z i s o h &&& Font.aItalic != 0) = i ∧ (Font.word z i s o h &&& Font.aStrike != 0) = s ∧
      (Font.word z i s o h &&& Font.aOutline != 0) = o ∧ (Font.word z i s o h &&& Font.aShadow != 0) = h := by decide
  have col : ∀ n, n < 59 → Xf.colorTable[n]? = some (colorCode n) := Xf.color_code
  have bol : ∀ n, n < 4 → Font.boldTable[n]? = some (Font.Spec.weightOf n) := by decide
  have und : ∀ n, n < 5 → Font.underlineTable[n]? = some (Font.Spec.underlineOf n) := by decide
  have scr : ∀ n, n < 3 → Font.scriptTable[n]? = some n := by decide
  cases o with
  | name s => cases h; rfl
  | height s => cases h; rfl
  | colorIdx s => cases h; rfl
  | family s => cases h; rfl
  | charset s => cases h; rfl
  | bold n => rw [Font.FOp.run, bol n ho] at h; cases h; rfl
  | underline n => rw [Font.FOp.run, und n ho] at h; cases h; rfl
  | script n => rw [Font.FOp.run, scr n ho] at h; cases h; rfl
  | color n => rw [Font.FOp.run, col n ho] at h; cases h; rfl
  | italic b =>
    cases h
    simp only [askFont, fontTold, Font.getAttr, Font.setAttr, h9, Font.set_i, (hi _ _ _ _ _).1, (hi _ _ _ _ _).2.1, (hi _ _ _ _ _).2.2.1, (hi _ _ _ _ _).2.2.2]
  | strike b =>
    cases h
    simp only [askFont, fontTold, Font.getAttr, Font.setAttr, h9, Font.set_s, (hi _ _ _ _ _).1, (hi _ _ _ _ _).2.1, (hi _ _ _ _ _).2.2.1, (hi _ _ _ _ _).2.2.2]
  | outline b =>
    cases h
    simp only [askFont, fontTold, Font.getAttr, Font.setAttr, h9, Font.set_o, (hi _ _ _ _ _).1, (hi _ _ _ _ _).2.1, (hi _ _ _ _ _).2.2.1, (hi _ _ _ _ _).2.2.2]
  | shadow b =>
    cases h
    simp only [askFont, fontTold, Font.getAttr, Font.setAttr, h9, Font.set_h, (hi _ _ _ _ _).1, (hi _ _ _ _ _).2.1, (hi _ _ _ _ _).2.2.1, (hi _ _ _ _ _).2.2.2]

theorem fontTold_twice (r : FontReport) (o : Font.FOp) : fontTold (fontTold r o) o = fontTold r o := by
  cases o <;> rfl

end Xls.Touch
