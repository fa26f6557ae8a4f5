import Verif.Palette.Spec
import Verif.Xf.Props
import Verif.Font.Props
/-
C31: custom colours.  C50: named colours.
-/
namespace Xls.Palette
open Xls.Palette.Spec Xls.Unit Xls.Biff

theorem run_results (c : Colors) (calls : List Call) : (run c calls).2 = calls.map good := by
  induction calls generalizing c with
  | nil => rfl
  | cons k r ih =>
    rw [run, List.map_cons, ih]
    congr 1
    unfold setColor good
    have h1 : (k.idx < 0x8) ↔ k.idx.toNat < 8 := UInt8.lt_iff_toNat_lt
    have h2 : (64 ≤ k.idx) ↔ 64 ≤ k.idx.toNat := UInt8.le_iff_toNat_le
    have h3 : (k.idx < 64) ↔ k.idx.toNat < 64 := UInt8.lt_iff_toNat_lt
    by_cases hb : k.idx.toNat < 8 ∨ 64 ≤ k.idx.toNat
    · rw [if_pos (by simpa [h1, h2] using hb)]
      simp
      omega
    · rw [if_neg (by simpa [h1, h2, h3] using hb)]
      simp
      omega

/-- The table after the calls: still 56 entries with zero fillers, each the last one set. -/
theorem run_table (c : Colors) (calls : List Call) (hl : (c.getD defaultPalette).length = 56)
    (hz : ∀ e ∈ c.getD defaultPalette, e.nuttin = 0) :
    (((run c calls).1).getD defaultPalette).length = 56 ∧ (∀ e ∈ ((run c calls).1).getD defaultPalette, e.nuttin = 0) ∧
      ∀ i (e : Entry), (c.getD defaultPalette)[i]? = some e → ∃ e', (((run c calls).1).getD defaultPalette)[i]? = some e' ∧
        (e'.r.toNat, e'.g.toNat, e'.b.toNat) = colorAt (e.r.toNat, e.g.toNat, e.b.toNat) (i + 8) calls := by
  induction calls generalizing c with
  | nil => exact ⟨hl, hz, fun i e h => ⟨e, h, rfl⟩⟩
  | cons k r ih =>
    rw [run]
    have h1 : (k.idx < 0x8) ↔ k.idx.toNat < 8 := UInt8.lt_iff_toNat_lt
    have h2 : (64 ≤ k.idx) ↔ 64 ≤ k.idx.toNat := UInt8.le_iff_toNat_le
    have h3 : (k.idx < 64) ↔ k.idx.toNat < 64 := UInt8.lt_iff_toNat_lt
    by_cases hb : k.idx.toNat < 8 ∨ 64 ≤ k.idx.toNat
    · have hs : setColor c k.r k.g k.b k.idx = (c, false) := by
        unfold setColor
        rw [if_pos (by simpa [h1, h2] using hb)]
      simp only [hs]
      obtain ⟨a, b, d⟩ := ih c hl hz
      refine ⟨a, b, fun i e h => ?_⟩
      obtain ⟨e', he, hc⟩ := d i e h
      refine ⟨e', he, ?_⟩
      have hi : i < 56 := by
        rw [← hl]
        exact (List.getElem?_eq_some_iff.mp h).1
      rw [hc, colorAt, colorAt, List.foldl_cons, if_neg (by omega)]
    · have hs : setColor c k.r k.g k.b k.idx =
          (some ((c.getD defaultPalette).set (k.idx.toNat - 8) ⟨k.r, k.g, k.b, 0⟩), true) := by
        unfold setColor
        rw [if_neg (by simpa [h1, h2, h3] using hb)]
      simp only [hs]
      obtain ⟨a, b, d⟩ := ih (some ((c.getD defaultPalette).set (k.idx.toNat - 8) ⟨k.r, k.g, k.b, 0⟩)) (by simpa using hl) (by
        intro e he
        simp only [Option.getD_some] at he
        rcases List.mem_or_eq_of_mem_set he with h | h
        · exact hz e h
        · rw [h])
      refine ⟨a, b, fun i e h => ?_⟩
      have hi : i < (c.getD defaultPalette).length := (List.getElem?_eq_some_iff.mp h).1
      by_cases hk : k.idx.toNat = i + 8
      · obtain ⟨e', he, hc⟩ := d i ⟨k.r, k.g, k.b, 0⟩ (by
          rw [Option.getD_some, hk, Nat.add_sub_cancel, List.getElem?_set_self hi])
        refine ⟨e', he, ?_⟩
        rw [hc]
        simp only [colorAt, List.foldl_cons, hk, if_true]
      · obtain ⟨e', he, hc⟩ := d i e (by
          rw [Option.getD_some, List.getElem?_set_ne (by omega), h])
        refine ⟨e', he, ?_⟩
        rw [hc]
        simp only [colorAt, List.foldl_cons, hk, if_false]

theorem readColors_flat (l : List Entry) (hz : ∀ e ∈ l, e.nuttin = 0) :
    readColors l.length (l.flatMap fun e => [e.r, e.g, e.b, e.nuttin]) = some (l.map fun e => (e.r.toNat, e.g.toNat, e.b.toNat)) := by
  induction l with
  | nil => rfl
  | cons e r ih =>
    rw [List.length_cons, List.flatMap_cons]
    show readColors (r.length + 1) (e.r :: e.g :: e.b :: e.nuttin :: r.flatMap _) = _
    rw [readColors, if_pos (hz e (by simp)), ih fun e h => hz e (by simp [h])]
    rfl

/-- C31: whatever colours are set, each call is accepted exactly if its index is 8 to 63, and the PALETTE record lists 56
    colours of which the `i`-th is the one last set for index `i + 8`, or else the default one. -/
theorem c31_palette (calls : List Call) : (run none calls).2 = calls.map good ∧
    ∃ cs, readPalette (payload (run none calls).1) = some cs ∧ cs.length = 56 ∧
      ∀ i (e : Entry), defaultPalette[i]? = some e → cs[i]? = some (colorAt (e.r.toNat, e.g.toNat, e.b.toNat) (i + 8) calls) := by
  refine ⟨run_results none calls, ?_⟩
  obtain ⟨a, b, d⟩ := run_table none calls rfl (by decide)
  refine ⟨(((run none calls).1).getD defaultPalette).map fun e => (e.r.toNat, e.g.toNat, e.b.toNat), ?_, by simpa using a, ?_⟩
  · have e : payload (run none calls).1 =
        leN 2 56 ++ (((run none calls).1).getD defaultPalette).flatMap fun e => [e.r, e.g, e.b, e.nuttin] := by
      simp [payload, recordOps, Unit.Op.bytes]
    rw [e, readPalette, takeLE_leN_append, Option.bind_some]
    show readColors 56 _ = _
    have := readColors_flat _ b
    rw [a] at this
    exact this
  · intro i e h
    obtain ⟨e', he, hc⟩ := d i e h
    rw [List.getElem?_map, he, Option.map_some, hc]

/-- A colour set for one index leaves every other index as it was. -/
theorem c31_own_slot (calls : List Call) (k : Call) (i : Nat) (hi : k.idx.toNat ≠ i + 8) :
    ∃ cs cs', readPalette (payload (run none calls).1) = some cs ∧ readPalette (payload (run none (calls ++ [k])).1) = some cs' ∧
      cs[i]? = cs'[i]? := by
  obtain ⟨-, cs, h1, h2, h3⟩ := c31_palette calls
  obtain ⟨-, cs', h1', h2', h3'⟩ := c31_palette (calls ++ [k])
  refine ⟨cs, cs', h1, h1', ?_⟩
  by_cases hl : i < 56
  · have hd : defaultPalette[i]? = some (defaultPalette[i]'hl) := List.getElem?_eq_getElem hl
    rw [h3 i _ hd, h3' i _ hd]
    simp [colorAt, hi]
  · rw [List.getElem?_eq_none (by omega), List.getElem?_eq_none (by omega)]

theorem c31_record (c : Colors) (h : (c.getD defaultPalette).length = 56) :
    ∃ s, buildRecord 0x92 (recordOps c) = some (some s) ∧ Holds s (enc (0x92, payload c)) := by
  refine record_built 0x92 (recordOps c) ?_
  have e : ((c.getD defaultPalette).flatMap fun e => [e.r, e.g, e.b, e.nuttin]).length = 4 * 56 := by
    rw [← h]
    generalize c.getD defaultPalette = l
    induction l with
    | nil => rfl
    | cons x r ih => simp only [List.flatMap_cons, List.length_append, List.length_cons, List.length_nil, ih]; omega
  simp only [recordOps, List.flatMap_cons, List.flatMap_nil, Unit.Op.bytes, List.length_append, leN_length, List.length_nil, e]
  decide

example : (run none [⟨1, 2, 3, 8⟩, ⟨4, 5, 6, 64⟩, ⟨7, 8, 9, 63⟩, ⟨10, 11, 12, 8⟩]).2 = [true, false, true, true] ∧
    ∃ cs, readPalette (payload (run none [⟨1, 2, 3, 8⟩, ⟨4, 5, 6, 64⟩, ⟨7, 8, 9, 63⟩, ⟨10, 11, 12, 8⟩]).1) = some cs ∧
      cs[0]? = some (10, 11, 12) ∧ cs[55]? = some (7, 8, 9) ∧ cs[2]? = some (255, 0, 0) := ⟨rfl, _, rfl, rfl, rfl, rfl⟩

/-! ### Named colours -/

/-- The colour a reader shows for palette index `i`. -/
def shown (bs : Bytes) (i : Nat) : Option Nat := (readPalette bs).bind fun cs => if 8 ≤ i then (cs[i - 8]?).map rgb else none

theorem shown_default (calls : List Call) (i : Nat) (hi : 8 ≤ i ∧ i < 64) (hc : ∀ k ∈ calls, k.idx.toNat ≠ i) :
    shown (payload (run none calls).1) i = (defaultPalette[i - 8]?).map fun e => rgb (e.r.toNat, e.g.toNat, e.b.toNat) := by
  obtain ⟨-, cs, h1, h2, h3⟩ := c31_palette calls
  have hl : i - 8 < defaultPalette.length := by show i - 8 < 56; omega
  have hd : defaultPalette[i - 8]? = some (defaultPalette[i - 8]'hl) := List.getElem?_eq_getElem hl
  rw [shown, h1, Option.bind_some, if_pos hi.1, h3 _ _ hd, hd, Option.map_some, Option.map_some]
  congr 2
  unfold colorAt
  clear h1 h2 h3
  generalize ((defaultPalette[i - 8].r.toNat, defaultPalette[i - 8].g.toNat, defaultPalette[i - 8].b.toNat)) = d
  induction calls generalizing d with
  | nil => rfl
  | cons k r ih =>
    have := hc k (by simp)
    rw [List.foldl_cons, if_neg (by omega)]
    exact ih (fun k h => hc k (by simp [h])) d

theorem named_codes : ∀ n, n < 56 → (8 ≤ Xf.Spec.colorCode (n + 1) ∧ Xf.Spec.colorCode (n + 1) < 64) ∧
    (n ≠ 33 → (defaultPalette[Xf.Spec.colorCode (n + 1) - 8]?).map (fun e => rgb (e.r.toNat, e.g.toNat, e.b.toNat)) = named[n]?) := by
  decide

/-- C50, for all names but CLR_TAN: a cell format filled in a named colour, and a font in that colour, show that colour in
    the file, whatever else was done to the format, the font and the other colours of the palette.
    Missing: CLR_TAN, for which it is false (`c50_tan`). -/
theorem c50_named_partial (n : Nat) (hn : n < 56) (ht : n ≠ 33) (calls : List Call)
    (hc : ∀ k ∈ calls, k.idx.toNat ≠ Xf.Spec.colorCode (n + 1))
    (before after : List Xf.Op) (hb : ∀ o ∈ before, Xf.Spec.Valid o) (ha : ∀ o ∈ after, Xf.Spec.Valid o)
    (hf : ∀ o ∈ after, Xf.about o ≠ .fg)
    (fb fa : List Font.FOp) (hfb : ∀ o ∈ fb, Font.Spec.Valid o) (hfa : ∀ o ∈ fa, Font.Spec.Valid o)
    (hff : ∀ o ∈ fa, Font.Spec.pickColor o = none) :
    (∃ bs s, Xf.written (before ++ .fg (n + 1) :: after) = some bs ∧ Xf.readXf (bs.drop 4) = some s ∧
      shown (payload (run none calls).1) s.fg = named[n]?) ∧
    (∃ f s, Font.runAll Font.fresh (fb ++ .color (n + 1) :: fa) = some f ∧ Font.readFont (Font.payload f) = some s ∧
      shown (payload (run none calls).1) s.color = named[n]?) := by
  obtain ⟨hi, hv⟩ := named_codes n hn
  have hs := shown_default calls _ hi hc
  rw [hv ht] at hs
  constructor
  · obtain ⟨bs, h1, -, -, h4⟩ := Xf.c28_xf_partial (before ++ .fg (n + 1) :: after) (by
      intro o h
      simp only [List.mem_append, List.mem_cons] at h
      rcases h with h | h | h
      · exact hb o h
      · subst h; show n + 1 < 59; omega
      · exact ha o h)
    refine ⟨bs, _, h1, h4, ?_⟩
    have e : Xf.Spec.last Xf.Spec.pickFg 64 (before ++ .fg (n + 1) :: after) = Xf.Spec.colorCode (n + 1) := by
      unfold Xf.Spec.last
      rw [List.foldl_append, List.foldl_cons]
      generalize before.foldl _ 64 = d
      clear h1 h4
      have : ∀ c, after.foldl (fun a o => (Xf.Spec.pickFg o).getD a) c = c := by
        intro c
        induction after with
        | nil => rfl
        | cons o r ih =>
          have ho := hf o (by simp)
          have : Xf.Spec.pickFg o = none := by cases o <;> simp [Xf.about] at ho <;> rfl
          rw [List.foldl_cons, this, Option.getD_none]
          exact ih (fun o h => ha o (by simp [h])) (fun o h => hf o (by simp [h]))
      rw [this]
      rfl
    show shown _ (Xf.Spec.last Xf.Spec.pickFg 64 (before ++ .fg (n + 1) :: after) % 128) = _
    rw [e, Nat.mod_eq_of_lt (by omega), hs]
  · obtain ⟨f, h1, h2, -⟩ := Font.c30_font (fb ++ .color (n + 1) :: fa) (by
      intro o h
      simp only [List.mem_append, List.mem_cons] at h
      rcases h with h | h | h
      · exact hfb o h
      · subst h; show n + 1 < 59; omega
      · exact hfa o h)
    refine ⟨f, _, h1, h2, ?_⟩
    have e : Font.Spec.last Font.Spec.pickColor 0x7fff (fb ++ .color (n + 1) :: fa) = Xf.Spec.colorCode (n + 1) := by
      unfold Font.Spec.last
      rw [List.foldl_append, List.foldl_cons]
      generalize fb.foldl _ 0x7fff = d
      clear h1 h2
      have : ∀ c, fa.foldl (fun a o => (Font.Spec.pickColor o).getD a) c = c := by
        intro c
        induction fa with
        | nil => rfl
        | cons o r ih =>
          rw [List.foldl_cons, hff o (by simp), Option.getD_none]
          exact ih (fun o h => hfa o (by simp [h])) (fun o h => hff o (by simp [h]))
      rw [this]
      rfl
    show shown _ (Font.Spec.last Font.Spec.pickColor 0x7fff (fb ++ .color (n + 1) :: fa)) = _
    rw [e, hs]

/-- CLR_RED, with custom colours elsewhere. -/
example : ∃ bs s, Xf.written [.halign 2, .fg 17, .fill 1] = some bs ∧ Xf.readXf (bs.drop 4) = some s ∧
    shown (payload (run none [⟨1, 2, 3, 8⟩, ⟨4, 5, 6, 11⟩]).1) s.fg = some 0xff0000 :=
  (c50_named_partial 16 (by decide) (by decide) [⟨1, 2, 3, 8⟩, ⟨4, 5, 6, 11⟩] (by decide) [.halign 2] [.fill 1]
    (by simp [Xf.Spec.Valid]) (by simp [Xf.Spec.Valid]) (by simp [Xf.about]) [] [] (by simp) (by simp) (by simp)).1

/-- CLR_TAN comes out as a light grey. -/
theorem c50_tan : ∃ bs s, Xf.written [.fg 34] = some bs ∧ Xf.readXf (bs.drop 4) = some s ∧
    shown (payload none) s.fg = some 0xe3e3e3 ∧ named[33]? = some 0xffcc99 := by
  obtain ⟨bs, h1, -, -, h4⟩ := Xf.c28_xf_partial [.fg 34] (by intro o h; simp at h; subst h; simp [Xf.Spec.Valid])
  refine ⟨bs, _, h1, h4, ?_, rfl⟩
  exact shown_default [] 47 (by decide) (by simp)

end Xls.Palette
