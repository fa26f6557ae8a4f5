import Verif.Styles.Props
import Verif.Ask.Props
/-
Values of fonts and formats that their setters can make, whatever program calls them: they fit the records, and every setter is defined on them.
-/
namespace Xls.Mirror
open Xls.Xf (Xf)
open Xls.Font (Font FOp)
open Xls.Ask (askFormat askFont)

/-- A font whose values fit a FONT record. -/
structure FontFits (f : Font) : Prop where
  name : f.name.length < 256
  height : f.height < 65536
  bold : f.bold < 65536
  script : f.script < 65536
  color : f.color < 65536
  underline : f.underline < 256
  family : f.family < 256
  charset : f.charset < 256
  attrs : ∃ z i s o h, f.attrs = Font.word z i s o h

theorem FontFits.run {f : Font} (hf : FontFits f) {o : FOp} (ho : Font.Spec.Valid o) : ∃ g, o.run f = some g ∧ FontFits g := by
  obtain ⟨h1, h2, h3, h4, h5, h6, h7, h8, z, i, s, p, h, h9⟩ := hf
  obtain ⟨n, he, b, sc, at', co, un, fa, ch⟩ := f
  simp only at h1 h2 h3 h4 h5 h6 h7 h8 h9
  subst h9
  cases o with
  | name m => exact ⟨_, rfl, ho, h2, h3, h4, h5, h6, h7, h8, z, i, s, p, h, rfl⟩
  | height m => exact ⟨_, rfl, h1, ho, h3, h4, h5, h6, h7, h8, z, i, s, p, h, rfl⟩
  | bold m =>
    have : Font.Spec.weightOf m < 65536 := by unfold Font.Spec.weightOf; split <;> decide
    exact ⟨_, by simp only [FOp.run, Font.bold_code m ho]; rfl, h1, h2, this, h4, h5, h6, h7, h8, z, i, s, p, h, rfl⟩
  | underline m =>
    have : Font.Spec.underlineOf m < 256 := by unfold Font.Spec.underlineOf; split <;> decide
    exact ⟨_, by simp only [FOp.run, Font.underline_code m ho]; rfl, h1, h2, h3, h4, h5, this, h7, h8, z, i, s, p, h, rfl⟩
  | script m =>
    have : m < 65536 := Nat.lt_trans ho (by decide)
    exact ⟨_, by simp only [FOp.run, Font.script_code m ho]; rfl, h1, h2, h3, this, h5, h6, h7, h8, z, i, s, p, h, rfl⟩
  | color m =>
    have : Xf.Spec.colorCode m < 65536 := (by decide : ∀ n, n < 59 → Xf.Spec.colorCode n < 65536) _ ho
    exact ⟨_, by simp only [FOp.run, Xf.color_code m ho]; rfl, h1, h2, h3, h4, this, h6, h7, h8, z, i, s, p, h, rfl⟩
  | colorIdx m =>
    have : m < 65536 := Nat.lt_trans ho (by decide)
    exact ⟨_, rfl, h1, h2, h3, h4, this, h6, h7, h8, z, i, s, p, h, rfl⟩
  | italic v => exact ⟨_, rfl, h1, h2, h3, h4, h5, h6, h7, h8, z, v, s, p, h, Font.set_i ..⟩
  | strike v => exact ⟨_, rfl, h1, h2, h3, h4, h5, h6, h7, h8, z, i, v, p, h, Font.set_s ..⟩
  | outline v => exact ⟨_, rfl, h1, h2, h3, h4, h5, h6, h7, h8, z, i, s, v, h, Font.set_o ..⟩
  | shadow v => exact ⟨_, rfl, h1, h2, h3, h4, h5, h6, h7, h8, z, i, s, p, v, Font.set_h ..⟩
  | family v => exact ⟨_, rfl, h1, h2, h3, h4, h5, h6, ho, h8, z, i, s, p, h, rfl⟩
  | charset v => exact ⟨_, rfl, h1, h2, h3, h4, h5, h6, h7, ho, z, i, s, p, h, rfl⟩

/-- The FONT record says what the getters answer. -/
theorem FontFits.read {f : Font} (hf : FontFits f) :
    ∃ s, Font.readFont (Font.payload f) = some s ∧
      askFont f = ⟨s.name, s.height, s.weight, s.underline, s.script, s.color, s.italic, s.strike, s.outline, s.shadow, s.family, s.charset⟩ := by
  obtain ⟨h1, h2, h3, h4, h5, h6, h7, h8, z, i, s, p, h, h9⟩ := hf
  obtain ⟨n, he, b, sc, at', co, un, fa, ch⟩ := f
  simp only at h1 h2 h3 h4 h5 h6 h7 h8 h9
  subst h9
  refine ⟨_, Font.read_mk n he b sc z i s p h co un fa ch h1 h2 h3 h4 h5 h6 h7 h8, ?_⟩
  have e : ∀ z i s p h, (Font.word z i s p h &&& Font.aItalic != 0) = i ∧ (Font.word z i s p h &&& Font.aStrike != 0) = s ∧
      (Font.word z i s p h &&& Font.aOutline != 0) = p ∧ (Font.word z i s p h &&& Font.aShadow != 0) = h := by decide
  obtain ⟨e1, e2, e3, e4⟩ := e z i s p h
  simp only [askFont, Font.getAttr, e1, e2, e3, e4]

/-- A format whose values fit an XF record. -/
structure XfFits (x : Xf) : Prop where
  format : x.formatIndex < 65536
  halign : x.halign < 8
  valign : x.valign < 8
  indent : x.indent ∈ Xf.indentTable
  orient : x.orient < 256
  fill : x.fill < 64
  lines : ∀ s, x.bstyle.get s < 16
  flags : x.flags < 256
  low : x.flags % 4 = 0
  tied : ∀ k, x.format = some k → x.formatIndex = Xf.formatIndexOf k

theorem flag_values : ∀ f, f < 256 → f % 4 = 0 → ∀ m ∈ [Xf.atrNum, Xf.atrFont, Xf.atrAlc, Xf.atrBdr, Xf.atrPat, Xf.atrProt],
    (f ||| m) < 256 ∧ (f ||| m) % 4 = 0 ∧ (f &&& (0xFF ^^^ m)) < 256 ∧ (f &&& (0xFF ^^^ m)) % 4 = 0 := by decide +kernel

/-- Marking an attribute as given. -/
theorem XfFits.flag {x : Xf} (h : XfFits x) (m : Nat) (hm : m ∈ [Xf.atrNum, Xf.atrFont, Xf.atrAlc, Xf.atrBdr, Xf.atrPat, Xf.atrProt]) (c : Bool) :
    XfFits (Xf.flagIf c m x) := by
  obtain ⟨h1, h2, h3, h4, h5, h6, h7, h8, h9, h10⟩ := h
  obtain ⟨f1, f2, f3, f4⟩ := flag_values x.flags h8 h9 m hm
  cases c with
  | false => exact ⟨h1, h2, h3, h4, h5, h6, h7, h8, h9, h10⟩
  | true =>
    refine ⟨h1, h2, h3, h4, h5, h6, h7, ?_, ?_, ?_⟩
    · simp only [Xf.flagIf, Xf.setFlag, if_true]; split <;> assumption
    · simp only [Xf.flagIf, Xf.setFlag, if_true]; split <;> assumption
    · exact h10

theorem XfFits.format_set {x : Xf} (h : XfFits x) {i : Nat} (hi : i < 65536) (p : Option Nat) (hp : ∀ k, p = some k → i = Xf.formatIndexOf k) :
    XfFits { x with formatIndex := i, format := p } :=
  ⟨hi, h.2, h.3, h.4, h.5, h.6, h.7, h.8, h.9, hp⟩

theorem halign_small : ∀ n, n < 7 → ∃ c, Xf.halignTable[n]? = some c ∧ c < 8 := by decide
theorem valign_small : ∀ n, n < 4 → ∃ c, Xf.valignTable[n]? = some c ∧ c < 8 := by decide
theorem indent_small : ∀ n, n < 19 → ∃ c, Xf.indentTable[n]? = some c ∧ c ∈ Xf.indentTable := fun n h =>
  ⟨_, List.getElem?_eq_getElem (show n < Xf.indentTable.length from h), List.getElem_mem _⟩
theorem orient_small : ∀ n, n < 4 → ∃ c, Xf.orientTable[n]? = some c ∧ c < 256 := by decide
theorem fill_small : ∀ n, n < 19 → ∃ c, Xf.fillTable[n]? = some c ∧ c < 64 := by decide
theorem border_small : ∀ n, n < 8 → ∃ c, Xf.borderTable[n]? = some c ∧ c < 16 := by decide
theorem color_small : ∀ n, n < 59 → ∃ c, Xf.colorTable[n]? = some c := fun n h =>
  ⟨_, List.getElem?_eq_getElem (show n < Xf.colorTable.length from h)⟩
theorem format_small : ∀ n, n < 36 → ∃ c, Xf.formatTable[n]? = some c ∧ c < 65536 := by decide

theorem five_get {f : Xf.Five} {P : Nat → Prop} (h : ∀ s, P (f.get s)) (s : Xf.Side) {v : Nat} (hv : P v) : ∀ d, P ((f.set s v).get d) := by
  intro d
  have := h d
  cases s <;> cases d <;> first | exact hv | exact this

/-- Every setter with arguments of its types is defined, and what it leaves fits. -/
theorem XfFits.run {x : Xf} (h : XfFits x) {o : Xf.Op} (ho : Xf.Spec.Valid o) : ∃ y, o.run x = some y ∧ XfFits y := by
  have num : Xf.atrNum ∈ [Xf.atrNum, Xf.atrFont, Xf.atrAlc, Xf.atrBdr, Xf.atrPat, Xf.atrProt] := by decide
  have fnt : Xf.atrFont ∈ [Xf.atrNum, Xf.atrFont, Xf.atrAlc, Xf.atrBdr, Xf.atrPat, Xf.atrProt] := by decide
  have alc : Xf.atrAlc ∈ [Xf.atrNum, Xf.atrFont, Xf.atrAlc, Xf.atrBdr, Xf.atrPat, Xf.atrProt] := by decide
  have bdr : Xf.atrBdr ∈ [Xf.atrNum, Xf.atrFont, Xf.atrAlc, Xf.atrBdr, Xf.atrPat, Xf.atrProt] := by decide
  have pat : Xf.atrPat ∈ [Xf.atrNum, Xf.atrFont, Xf.atrAlc, Xf.atrBdr, Xf.atrPat, Xf.atrProt] := by decide
  have prot : Xf.atrProt ∈ [Xf.atrNum, Xf.atrFont, Xf.atrAlc, Xf.atrBdr, Xf.atrPat, Xf.atrProt] := by decide
  cases o with
  | font f =>
    have k := h.flag _ fnt (f != none)
    exact ⟨_, rfl, k.1, k.2, k.3, k.4, k.5, k.6, k.7, k.8, k.9, k.10⟩
  | formatIndex i => exact ⟨_, rfl, (h.flag _ num (i != 0)).format_set ho none (by simp)⟩
  | format n =>
    obtain ⟨c, c1, c2⟩ := format_small (if n > 35 then 0 else n) (by split <;> omega)
    have e : Xf.format2index (if n > 35 then 0 else n) = some c := by
      unfold Xf.format2index
      rw [if_neg (by split <;> omega)]
      exact c1
    simp only [Xf.Op.run, Xf.setFormat, e, Option.map_some]
    exact ⟨_, rfl, (h.flag _ num (c != 0)).format_set c2 none (by simp)⟩
  | userFormat k =>
    cases k with
    | none => exact ⟨x, rfl, h⟩
    | some k => exact ⟨_, rfl, (h.flag _ num _).format_set (by unfold Xf.formatIndexOf; omega) _ (fun _ e => by cases e; rfl)⟩
  | halign n =>
    obtain ⟨c, c1, c2⟩ := halign_small n ho
    have k := h.flag _ alc (n != 0)
    simp only [Xf.Op.run, Xf.setHAlign, c1, Option.map_some]
    exact ⟨_, rfl, k.1, c2, k.3, k.4, k.5, k.6, k.7, k.8, k.9, k.10⟩
  | valign n =>
    obtain ⟨c, c1, c2⟩ := valign_small n ho
    have k := h.flag _ alc (n != 2)
    simp only [Xf.Op.run, Xf.setVAlign, c1, Option.map_some]
    exact ⟨_, rfl, k.1, k.2, c2, k.4, k.5, k.6, k.7, k.8, k.9, k.10⟩
  | indent n =>
    obtain ⟨c, c1, c2⟩ := indent_small n ho
    have k := h.flag _ alc (n != 0)
    simp only [Xf.Op.run, Xf.setIndent, c1, Option.map_some]
    exact ⟨_, rfl, k.1, k.2, k.3, c2, k.5, k.6, k.7, k.8, k.9, k.10⟩
  | orient n =>
    obtain ⟨c, c1, c2⟩ := orient_small n ho
    have k := h.flag _ alc (n != 0)
    simp only [Xf.Op.run, Xf.setOrient, c1, Option.map_some]
    exact ⟨_, rfl, k.1, k.2, k.3, k.4, c2, k.6, k.7, k.8, k.9, k.10⟩
  | fg n =>
    obtain ⟨c, c1⟩ := color_small n ho
    have k := h.flag _ pat (n != 57)
    simp only [Xf.Op.run, Xf.setFg, c1, Option.map_some]
    exact ⟨_, rfl, k.1, k.2, k.3, k.4, k.5, k.6, k.7, k.8, k.9, k.10⟩
  | bg n =>
    obtain ⟨c, c1⟩ := color_small n ho
    have k := h.flag _ pat (n != 58)
    simp only [Xf.Op.run, Xf.setBg, c1, Option.map_some]
    exact ⟨_, rfl, k.1, k.2, k.3, k.4, k.5, k.6, k.7, k.8, k.9, k.10⟩
  | fgIdx c =>
    have k := h.flag _ pat true
    exact ⟨_, rfl, k.1, k.2, k.3, k.4, k.5, k.6, k.7, k.8, k.9, k.10⟩
  | bgIdx c =>
    have k := h.flag _ pat true
    exact ⟨_, rfl, k.1, k.2, k.3, k.4, k.5, k.6, k.7, k.8, k.9, k.10⟩
  | fill n =>
    obtain ⟨c, c1, c2⟩ := fill_small n ho
    have k := h.flag _ pat (n != 0)
    simp only [Xf.Op.run, Xf.setFill, c1, Option.map_some]
    exact ⟨_, rfl, k.1, k.2, k.3, k.4, k.5, c2, k.7, k.8, k.9, k.10⟩
  | locked b =>
    have k := h.flag _ prot (b != true)
    exact ⟨_, rfl, k.1, k.2, k.3, k.4, k.5, k.6, k.7, k.8, k.9, k.10⟩
  | hidden b =>
    have k := h.flag _ prot (b != false)
    exact ⟨_, rfl, k.1, k.2, k.3, k.4, k.5, k.6, k.7, k.8, k.9, k.10⟩
  | wrap b =>
    have k := h.flag _ alc (b != false)
    exact ⟨_, rfl, k.1, k.2, k.3, k.4, k.5, k.6, k.7, k.8, k.9, k.10⟩
  | bstyle s n =>
    obtain ⟨c, c1, c2⟩ := border_small n ho
    have h' : XfFits { x with bstyle := x.bstyle.set s c } :=
      ⟨h.1, h.2, h.3, h.4, h.5, h.6, five_get (P := (· < 16)) h.7 s c2, h.8, h.9, h.10⟩
    have k := h'.flag _ bdr (c != 0)
    simp only [Xf.Op.run, Xf.setBorderStyle, c1, Option.bind_some]
    split
    · exact ⟨_, rfl, k.1, k.2, k.3, k.4, k.5, k.6, k.7, k.8, k.9, k.10⟩
    · exact ⟨_, rfl, k⟩
  | bcolor s n =>
    obtain ⟨c, c1⟩ := color_small n ho
    have h' : XfFits { x with bcolor := x.bcolor.set s c } := ⟨h.1, h.2, h.3, h.4, h.5, h.6, h.7, h.8, h.9, h.10⟩
    simp only [Xf.Op.run, Xf.setBorderColor, c1, Option.map_some]
    exact ⟨_, rfl, h'.flag _ bdr (c != 0)⟩
  | bcolorIdx s c =>
    have h' : XfFits { x with bcolor := x.bcolor.set s c } := ⟨h.1, h.2, h.3, h.4, h.5, h.6, h.7, h.8, h.9, h.10⟩
    exact ⟨_, rfl, h'.flag _ bdr (c != 0)⟩

theorem XfFits.dup {x : Xf} (h : XfFits x) : XfFits (Xf.dup x) := by
  have h1 : XfFits { x with font := none, format := none, isCell := true, isUser := true } :=
    ⟨h.1, h.2, h.3, h.4, h.5, h.6, h.7, h.8, h.9, by simp⟩
  have k := h1.flag Xf.atrFont (by decide) (x.font != none)
  have h2 : XfFits (Xf.setFont { x with font := none, format := none, isCell := true, isUser := true } x.font) :=
    ⟨k.1, k.2, k.3, k.4, k.5, k.6, k.7, k.8, k.9, k.10⟩
  unfold Xf.dup
  cases hx : x.format with
  | none => simpa [hx] using h2
  | some n =>
    have := (h2.flag Xf.atrNum (by decide) (Xf.formatIndexOf n != 0)).format_set (i := Xf.formatIndexOf n) (by unfold Xf.formatIndexOf; omega) (some n) (fun _ e => by cases e; rfl)
    simpa [hx, Xf.setUserFormat] using this

theorem XfFits.font {x : Xf} (h : XfFits x) (p : Option Nat) : XfFits (Xf.setFont x p) := by
  have k := h.flag Xf.atrFont (by decide) (p != none)
  exact ⟨k.1, k.2, k.3, k.4, k.5, k.6, k.7, k.8, k.9, k.10⟩

/-- The answers of the getters of a format (`GetFontIndex`, …) agree with what an XF record says: all but the diagonals, of which the record has
    nothing; colours in seven bits; `GetFormat` for the predefined number formats. -/
structure Agrees (r : Ask.FormatReport) (s : Xf.Seen) : Prop where
  font : r.fontIndex = s.font
  number : r.formatIndex = s.format
  halign : r.halign = s.halign
  valign : r.valign = s.valign
  orient : r.orient = s.orient
  indent : r.indent = s.indent + 16 * s.shrink.toNat + 64 * s.direction
  fill : r.fill = s.pattern
  fg : r.fg % 128 = s.fg
  bg : r.bg % 128 = s.bg
  locked : r.locked = s.locked
  hidden : r.hidden = s.hidden
  wrap : r.wrap = s.wrap
  lines : ∀ d, d ≠ Xf.Side.diagonals → r.bstyle d = (Ask.lineAt s d).style ∧ r.bcolor d % 128 = (Ask.lineAt s d).color
  flags : r.flags = 4 * s.usesFormat.toNat + 8 * s.usesFont.toNat + 16 * s.usesAlign.toNat +
    32 * s.usesBorder.toNat + 64 * s.usesPattern.toNat + 128 * s.usesProtect.toNat
  format : ∀ n, n < 36 → s.format = Xf.Spec.formatCode n → r.format = n

theorem indent_bits : ∀ c ∈ Xf.indentTable, c = c % 16 + 16 * (Xf.bits c 4 1 == 1).toNat + 64 * Xf.bits c 6 2 := by decide

theorem XfFits.read {x : Xf} (h : XfFits x) : ∃ bs s, Xf.record x = some bs ∧ Xf.readXf (bs.drop 4) = some s ∧ Agrees (askFormat x) s := by
  obtain ⟨bs, r1, -, -, r2⟩ := Xf.read_record x h.indent
  have hfi : Xf.fontIndex x < 65536 := by
    unfold Xf.fontIndex
    split
    · decide
    · unfold Xf.fontIndexOf; split <;> omega
  have l := h.lines
  refine ⟨bs, _, r1, r2, (Nat.mod_eq_of_lt hfi).symm, (Nat.mod_eq_of_lt h.format).symm, (Nat.mod_eq_of_lt h.halign).symm,
    (Nat.mod_eq_of_lt h.valign).symm, (Nat.mod_eq_of_lt h.orient).symm, indent_bits _ h.indent, (Nat.mod_eq_of_lt h.fill).symm, rfl, rfl, rfl, rfl, rfl,
    ?_, Ask.byte_parts _ h.flags h.low, ?_⟩
  · intro d hd
    have := (Nat.mod_eq_of_lt (l d)).symm
    cases d with
    | diagonals => exact absurd rfl hd
    | _ => exact ⟨this, rfl⟩
  · intro n hn hs
    refine Ask.getFormat_code _ n hn ?_
    rw [← hs]
    exact (Nat.mod_eq_of_lt h.format).symm

end Xls.Mirror
