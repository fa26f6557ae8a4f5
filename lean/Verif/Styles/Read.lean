import Verif.Styles.Step
/-
Reading a cell's format back from the records: the cell's XF number selects an XF record, whose font number selects a FONT
record.
-/
namespace Xls.Styles
open Xls.Xf (Xf)
open Xls.Font (Font FOp)
open Spec

/-- The payloads of the FONT records, in the order of globalrec.cpp 378-396: default fonts, then `m_Fonts`. -/
def fontRecords (s : State) : List Bytes := s.fonts.map fun f => Font.payload f.font

/-- The payloads of the XF records, globalrec.cpp 416-437: default formats, then `m_XFs`. -/
def xfRecords (s : State) : Option (List Bytes) := s.xfs.mapM fun e => (Xf.record e.xf).map (·.drop 4)

/-- `cell_t::GetXFIndex`, cell.cpp 53-58. -/
def xfIndexOf (s : State) (c : Nat) : Option Nat := ((s.cells[c]?).join.bind fun q => s.xfs[q]?).map (·.index)

/-- A reader: XF record `i`, and the FONT record it names ([MS-XLS] 2.5.129 FontIndex: the number 4 is not used). -/
def readLook (fonts xfs : List Bytes) (i : Nat) : Option (Xf.Seen × Font.Seen) := do
  let x ← Xf.readXf (← xfs[i]?)
  if x.font = 4 then none
  else
    let f ← Font.readFont (← fonts[if x.font < 4 then x.font else x.font - 1]?)
    some ({ x with font := 0 }, f)

/-- What a reader sees of cell `c`. -/
def seen (s : State) (c : Nat) : Option (Xf.Seen × Font.Seen) := do
  readLook (fontRecords s) (← xfRecords s) (← xfIndexOf s c)

theorem mapM_all {α β : Type} (f : α → Option β) (g : α → β) (h : ∀ a, f a = some (g a)) (xs : List α) : xs.mapM f = some (xs.map g) := by
  induction xs with
  | nil => rfl
  | cons x r ih => simp [List.mapM_cons, h, ih]

theorem FontIs.read {f : Font} {h : FontH} (hf : FontIs f h) : Font.readFont (Font.payload f) = some (wantFont h) := by
  obtain ⟨h1, h2, h3⟩ := hf
  have hb := base_mk h.base h1
  have hlen : h.base.name.length < 256 := by
    revert h1
    cases h.base with
    | dflt => intro _; decide
    | stock n => intro _; exact (by decide : Base.dflt.name.length < 256)
    | named n => exact id
  have hcol : h.base.color < 65536 := by
    cases h.base
    · decide
    · exact (by decide : 0 < 65536)
    · exact (by decide : 0x7fff < 65536)
  have hbold : (if h.base.bold then 700 else 400) < 65536 := by split <;> decide
  rw [hb, Option.bind_some, Font.run_mk _ h2] at h3
  rw [← Option.some.inj h3, wantFont]
  clear h3
  refine (Font.read_mk _ _ _ _ _ _ _ _ _ _ _ _ _ ?_ ?_ ?_ ?_ ?_ ?_ ?_ ?_).trans ?_
  · refine Font.last_inv _ (fun n : List UInt16 => n.length < 256) _ _ hlen ?_
    intro o hm v h
    have hv := h2 o hm
    cases o <;> simp only [Font.Spec.pickName, reduceCtorEq] at h
    simp only [Option.some.injEq] at h; simp only [Font.Spec.Valid] at hv; exact h ▸ hv
  · refine Font.last_inv _ (· < 65536) _ _ (by decide) ?_
    intro o hm v h
    have hv := h2 o hm
    cases o <;> simp only [Font.Spec.pickHeight, reduceCtorEq] at h
    simp only [Option.some.injEq] at h; simp only [Font.Spec.Valid] at hv; exact h ▸ hv
  · refine Font.last_inv _ (· < 65536) _ _ hbold ?_
    intro o hm v h
    cases o <;> simp only [Font.Spec.pickBold, reduceCtorEq] at h
    simp only [Option.some.injEq, Font.Spec.weightOf] at h; split at h <;> omega
  · refine Font.last_inv _ (· < 65536) _ _ (by decide) ?_
    intro o hm v h
    have hv := h2 o hm
    cases o <;> simp only [Font.Spec.pickScript, reduceCtorEq] at h
    simp only [Option.some.injEq] at h; simp only [Font.Spec.Valid] at hv; omega
  · refine Font.last_inv _ (· < 65536) _ _ hcol ?_
    intro o hm v h
    have hv := h2 o hm
    cases o <;> simp only [Font.Spec.pickColor, reduceCtorEq] at h
    · simp only [Option.some.injEq] at h; simp only [Font.Spec.Valid] at hv; subst h
      exact (by decide : ∀ n, n < 59 → Xf.Spec.colorCode n < 65536) _ hv
    · simp only [Option.some.injEq] at h; simp only [Font.Spec.Valid] at hv; omega
  · refine Font.last_inv _ (· < 256) _ _ (by decide) ?_
    intro o hm v h
    cases o <;> simp only [Font.Spec.pickUnderline, reduceCtorEq] at h
    simp only [Option.some.injEq, Font.Spec.underlineOf] at h; split at h <;> omega
  · refine Font.last_inv _ (· < 256) _ _ (by decide) ?_
    intro o hm v h
    have hv := h2 o hm
    cases o <;> simp only [Font.Spec.pickFamily, reduceCtorEq] at h
    simp only [Option.some.injEq] at h; simp only [Font.Spec.Valid] at hv; omega
  · refine Font.last_inv _ (· < 256) _ _ (by decide) ?_
    intro o hm v h
    have hv := h2 o hm
    cases o <;> simp only [Font.Spec.pickCharset, reduceCtorEq] at h
    simp only [Option.some.injEq] at h; simp only [Font.Spec.Valid] at hv; omega
  · rfl

theorem Looks.read {fw : List Font} {mine : Nat → Option FontH} {x : Xf} {l : Look} (h : Looks fw mine x l) :
    ∃ bs, Xf.record x = some bs ∧ ∃ y, Xf.readXf (bs.drop 4) = some y ∧ { y with font := 0 } = wantXf l ∧
      y.font = Xf.fontIndex x % 65536 := by
  have hi : x.indent ∈ Xf.indentTable := by
    have e : x.indent = (Xf.track Xf.fresh l.calls).indent := by
      have := congrArg Xf.indent h.attrs
      exact this
    obtain ⟨i1, i2⟩ := Xf.indent_last l.calls h.valid
    rw [e]
    show Xf.Spec.last Xf.pickIndentCode 0 l.calls ∈ Xf.indentTable
    rw [i1]
    exact (Xf.indent_codes _ i2).1
  obtain ⟨bs, h1, -, -, h4⟩ := Xf.read_record x hi
  refine ⟨bs, h1, _, h4, ?_, rfl⟩
  have e1 : ({ Xf.seenOf x with font := 0 } : Xf.Seen) = { Xf.seenOf { x with font := none, isUser := true } with font := 0 } := rfl
  rw [e1, h.attrs, wantXf]
  have e2 := Xf.seen_track l.calls h.valid
  have e3 : ({ Xf.seenOf { Xf.track Xf.fresh l.calls with font := none } with font := 0 } : Xf.Seen) =
      { Xf.seenOf (Xf.track Xf.fresh l.calls) with font := 0 } := rfl
  rw [e3, e2]

/-- The reader finds the look in the record of the format. -/
theorem Good.read_xf {s : State} {A : Spec.State} (G : Good s A) {q : Nat} {e : XEnt} {l : Look} (h3 : s.xfs[q]? = some e)
    (h4 : Looks (fv s) A.fonts e.xf l) : ∃ X h, xfRecords s = some X ∧ fontOf A l = some h ∧ readLook (fontRecords s) X q = some (wantXf l, wantFont h) := by
  obtain ⟨bs, r1, y, r2, r3, r4⟩ := h4.read
  have hrec : ∀ e : XEnt, (Xf.record e.xf).map (·.drop 4) = some (((Xf.record e.xf).map (·.drop 4)).getD []) := by
    intro e
    rw [Xf.record_words]
    rfl
  have hxr : xfRecords s = some (s.xfs.map fun e => ((Xf.record e.xf).map (·.drop 4)).getD []) := mapM_all _ _ hrec _
  have hget : (s.xfs.map fun e => ((Xf.record e.xf).map (·.drop 4)).getD [])[q]? = some (bs.drop 4) := by
    rw [List.getElem?_map, h3, Option.map_some, r1]
    rfl
  have main : ∀ p f h, Xf.fontIndex e.xf % 65536 = (if p < 4 then p else p + 1) → (fv s)[p]? = some f → FontIs f h →
      fontOf A l = some h → ∃ X h, xfRecords s = some X ∧ fontOf A l = some h ∧ readLook (fontRecords s) X q = some (wantXf l, wantFont h) := by
    intro p f h k1 k2 k3 k4
    refine ⟨_, h, hxr, k4, ?_⟩
    obtain ⟨fe, m1, m2⟩ := fv_get k2
    have hf : (fontRecords s)[p]? = some (Font.payload f) := by
      rw [fontRecords, List.getElem?_map, m1, Option.map_some, m2]
    have hp : (if y.font < 4 then y.font else y.font - 1) = p := by
      rw [r4, k1]
      by_cases hc : p < 4
      · rw [if_pos hc, if_pos hc]
      · rw [if_neg hc, if_neg (by omega)]; omega
    have hne : ¬ y.font = 4 := by
      rw [r4, k1]
      split <;> omega
    simp only [Option.bind_eq_bind, Option.bind_some, readLook, hget, r2, hne, if_false, hp, hf, k3.read, r3]
  have hf := h4.font
  have idx : ∀ p, e.xf.font = some p → p < 65535 → Xf.fontIndex e.xf % 65536 = (if p < 4 then p else p + 1) := by
    intro p hp hlt
    rw [Xf.fontIndex, hp]
    simp only
    rw [Xf.font_code p hlt, Xf.Spec.fontCode]
    split <;> omega
  revert hf
  cases hlf : l.font with
  | shared p =>
    rintro ⟨k1, k2, h, k3⟩
    obtain ⟨-, f, b, d⟩ := G.rel.fonts p h k3
    exact main p f h (idx p k1 k2) b d (by simp only [fontOf, hlf, k3])
  | own h =>
    rintro (⟨k1, k2⟩ | ⟨p, f, k1, k2, k3, k4, k5⟩)
    · obtain ⟨d, hd⟩ : ∃ d, Font.defaults[0]? = some d := ⟨_, rfl⟩
      have h0 := G.rel.f0
      rw [hd] at h0
      refine main 0 d h ?_ h0 ?_ (by simp only [fontOf, hlf])
      · rw [Xf.fontIndex, k1]
        rfl
      · subst k2
        refine ⟨trivial, by simp, ?_⟩
        show (Font.defaults[0]?).bind _ = _
        rw [hd]
        rfl
    · exact main p f h (idx p k1 k2) k4 k5 (by simp only [fontOf, hlf])

/-- The reader finds what was asked for. -/
theorem Good.read {s : State} {A : Spec.State} (G : Good s A) (hx : s.xfs.length ≤ 65536) (c : Nat) (l : Look)
    (hl : A.cells c = some l) : ∃ h, fontOf A l = some h ∧ seen s c = some (wantXf l, wantFont h) := by
  obtain ⟨q, e, h1, h2, h3, h4⟩ := G.cell hl
  have hq := (List.getElem?_eq_some_iff.mp h3).1
  obtain ⟨X, h, k1, k2, k3⟩ := G.read_xf h3 h4
  have hidx : xfIndexOf s c = some q := by
    simp only [xfIndexOf, h1, Option.join_some, Option.bind_some, h3, Option.map_some, G.inv.index q e h3,
      Nat.mod_eq_of_lt (Nat.lt_of_lt_of_le hq hx)]
  exact ⟨h, k2, by simp only [seen, k1, hidx, Option.bind_eq_bind, Option.bind_some, k3]⟩

end Xls.Styles
