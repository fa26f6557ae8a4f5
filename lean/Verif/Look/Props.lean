import Verif.Look.Lemmas
/-
C57: a cell written and formatted through the API is read from the saved workbook with its content and its look.
-/
namespace Xls.Look
open Xls.Whole Xls.Cells Xls.Biff Xls.Book Xls.Save
open Xls.Styles (Action)
open Xls.Styles.Spec (upd fontOf wantXf wantFont)

/-! ### The FONT, FORMAT and XF records among the records of the workbook globals -/

theorem ofType_append (t : Nat) (a b : List Rec) : ofType t (a ++ b) = ofType t a ++ ofType t b := by simp [ofType]

theorem ofType_nil {t : Nat} {rs : List Rec} (h : ∀ r ∈ rs, r.1 ≠ t) : ofType t rs = [] := by
  unfold ofType
  rw [List.filter_eq_nil_iff.mpr (fun r hr => by simpa using h r hr)]
  rfl

theorem none_of {pos : Nat → Option Nat} {t : Nat} {us : List U} {rs : List Rec} (h : ShowsL pos us rs)
    (hu : ∀ u ∈ us, ∀ ss, Shows pos u ss → ∀ r ∈ ss, r.1 ≠ t) : ofType t rs = [] := by
  refine ofType_nil ?_
  induction h with
  | nil => simp
  | cons a _ ih =>
    intro r hr
    rcases List.mem_append.mp hr with hr | hr
    · exact hu _ (by simp) _ a r hr
    · exact ih (fun u h => hu u (by simp [h])) r hr

theorem other {bpos : List (Nat × Nat)} {t y : Nat} {p : Bytes} (ht : y < 65536) (h : y ≠ t) (h' : (0x3C : Nat) ≠ t) (ss : List Rec)
    (hs : Shows (posOf bpos) (Globals.unit y p) ss) : ∀ r ∈ ss, r.1 ≠ t := by
  rw [shows_det hs (.one rfl ht rfl rfl)]
  intro r hr
  rcases (splitRec_fits y p ht r hr).1 with e | e <;> omega

theorem all_of {bpos : List (Nat × Nat)} {t : Nat} (ht : t < 65536) {l : List Bytes} (hl : ∀ p ∈ l, p.length ≤ 8224) {rs : List Rec}
    (h : ShowsL (posOf bpos) (l.map (Globals.unit t)) rs) : ofType t rs = l := by
  induction l generalizing rs with
  | nil => cases h; rfl
  | cons p r ih =>
    rw [List.map_cons] at h
    cases h with
    | cons a b =>
      rw [ofType_append, ih (fun p hp => hl p (by simp [hp])) b, shows_det a (.one rfl ht rfl rfl), splitRec,
        if_pos (by have := hl p (by simp); simpa [maxRec] using this)]
      simp [ofType]

theorem styles_of_globals {bpos : List (Nat × Nat)} {D : Globals.Data} (hsm : SmallGlobals D) {g t : List U} (hg : Globals.groupUnits D = some g)
    (ht : Globals.sstUnits D = some t) {G : List Rec} (hG : ShowsL (posOf bpos) (Globals.units D g t) G) :
    ofType 0x31 G = D.defFonts ++ D.fonts ∧ ofType 0x41E G = D.formats ∧ ofType 0xE0 G = D.defXfs ++ D.xfs := by
  have hrec := hsm.records
  have hrec' : (∀ p ∈ D.defFonts, p.length ≤ 8224) ∧ (∀ p ∈ D.fonts, p.length ≤ 8224) ∧ (∀ p ∈ D.defXfs, p.length ≤ 8224) ∧
      (∀ p ∈ D.xfs, p.length ≤ 8224) ∧ ∀ p ∈ D.formats, p.length ≤ 8224 :=
    ⟨fun p hp => hrec p (by simp [hp]), fun p hp => hrec p (by simp [hp]), fun p hp => hrec p (by simp [hp]), fun p hp => hrec p (by simp [hp]),
      fun p hp => hrec p (by simp [hp])⟩
  unfold Globals.units Globals.headUnits at hG
  obtain ⟨H, X1, rfl, hH, hX1⟩ := showsL_split hG
  obtain ⟨H0, H1, rfl, hH0, hH1⟩ := showsL_split hH
  obtain ⟨F0, H2, rfl, hF0, hH2⟩ := showsL_split hH1
  obtain ⟨F1, H3, rfl, hF1, hH3⟩ := showsL_split hH2
  obtain ⟨Fm, H4, rfl, hFm, hH4⟩ := showsL_split hH3
  obtain ⟨Q0, H5, rfl, hQ0, hH5⟩ := showsL_split hH4
  obtain ⟨Q1, H6, rfl, hQ1, hH6⟩ := showsL_split hH5
  obtain ⟨St, Pa, rfl, hSt, hPa⟩ := showsL_split hH6
  obtain ⟨B, X2, rfl, hB, hX2⟩ := showsL_split hX1
  obtain ⟨C, X3, rfl, hC, hX3⟩ := showsL_split hX2
  obtain ⟨E, X4, rfl, hE, hX4⟩ := showsL_split hX3
  obtain ⟨F, Z, rfl, hF, hZ⟩ := showsL_split hX4
  have key : ∀ y : Nat, y = 0x31 ∨ y = 0xE0 ∨ y = 0x41E → ofType y H0 = [] ∧ ofType y St = [] ∧ ofType y Pa = [] ∧ ofType y B = [] ∧
      ofType y C = [] ∧ ofType y E = [] ∧ ofType y F = [] ∧ ofType y Z = [] := by
    intro y hy
    refine ⟨none_of hH0 ?_, none_of hSt ?_, none_of hPa ?_, none_of hB ?_, none_of hC ?_, none_of hE ?_, ?_, none_of hZ ?_⟩
    · intro u hu
      simp only [List.mem_cons, List.not_mem_nil, or_false] at hu
      rcases hu with rfl | rfl | rfl | rfl <;> exact other (by decide) (by omega) (by omega)
    · intro u hu
      obtain ⟨p, -, rfl⟩ := List.mem_map.mp hu
      exact other (by decide) (by omega) (by omega)
    · intro u hu
      simp only [List.mem_cons, List.not_mem_nil, or_false] at hu
      subst hu
      exact other (by decide) (by omega) (by omega)
    · intro u hu ss hss
      obtain ⟨b, _, rfl⟩ := List.mem_map.mp hu
      cases hss with
      | one _ _ _ h => cases h
      | many _ _ _ h => cases h
      | bound => intro r hr; rcases (splitRec_fits _ _ (by decide) r hr).1 with e | e <;> omega
    · intro u hu
      simp only [List.mem_cons, List.not_mem_nil, or_false] at hu
      rcases hu with rfl | rfl <;> exact other (by decide) (by omega) (by omega)
    · intro u hu ss hss
      obtain ⟨g', hg', hu'⟩ := group_some D
      rw [hg] at hg'
      obtain rfl := Option.some.inj hg'
      obtain ⟨p, h1, h2, h3⟩ := hu' u hu
      rw [shows_det hss (.one h1 (by decide) h2 h3)]
      intro r hr
      rcases (splitRec_fits _ _ (by decide) r hr).1 with e | e <;> omega
    · unfold Globals.sstUnits at ht
      by_cases hl : D.labels = []
      · rw [if_pos (by simp [hl])] at ht
        obtain rfl := Option.some.inj ht
        cases hF
        rfl
      · rw [if_neg (by simp [hl])] at ht
        obtain ⟨bs, rs, h1, h2, h3, h4⟩ := Sst.c05_sst_reads_back D.labels
        rw [h1] at ht
        obtain rfl := Option.some.inj ht
        obtain ⟨e, hf⟩ := records_some h2
        cases hF with
        | cons h5 h6 =>
          cases h6
          rw [List.append_nil, shows_det h5 (.many e (fun r hr => ⟨(hf r hr).1, h3 r hr⟩) (.inl rfl) rfl)]
          refine ofType_nil ?_
          cases rs with
          | nil => simp
          | cons r rest =>
            obtain ⟨a, p⟩ := r
            have hc : a = 0xFC ∧ rest.all (fun r => r.1 == 0x3C) := by
              simp only [Sst.readSST] at h4
              split at h4
              · assumption
              · simp at h4
            intro r hr
            rcases List.mem_cons.mp hr with rfl | hr
            · rw [hc.1]; omega
            · have := List.all_eq_true.mp hc.2 r hr
              simp only [beq_iff_eq] at this
              omega
    · intro u hu
      simp only [List.mem_cons, List.not_mem_nil, or_false] at hu
      subst hu
      exact other (by decide) (by omega) (by omega)
  have cross : ∀ (y z : Nat) (l : List Bytes) (rs : List Rec), ShowsL (posOf bpos) (l.map (Globals.unit y)) rs → y < 65536 → y ≠ z → 0x3C ≠ z → ofType z rs = [] := by
    intro y z l rs h h1 h2 h3
    refine none_of h ?_
    intro u hu
    obtain ⟨p, -, rfl⟩ := List.mem_map.mp hu
    exact other h1 h2 h3
  obtain ⟨a1, a3, a4, a5, a6, a7, a8, a9⟩ := key 0x31 (.inl rfl)
  obtain ⟨b1, b3, b4, b5, b6, b7, b8, b9⟩ := key 0xE0 (.inr (.inl rfl))
  obtain ⟨c1, c3, c4, c5, c6, c7, c8, c9⟩ := key 0x41E (.inr (.inr rfl))
  refine ⟨?_, ?_, ?_⟩
  · simp only [ofType_append, a1, a3, a4, a5, a6, a7, a8, a9, all_of (by decide) hrec'.1 hF0, all_of (by decide) hrec'.2.1 hF1,
      cross 0xE0 0x31 _ _ hQ0 (by decide) (by decide) (by decide), cross 0xE0 0x31 _ _ hQ1 (by decide) (by decide) (by decide),
      cross 0x41E 0x31 _ _ hFm (by decide) (by decide) (by decide), List.nil_append, List.append_nil]
  · simp only [ofType_append, c1, c3, c4, c5, c6, c7, c8, c9, all_of (by decide) hrec'.2.2.2.2 hFm,
      cross 0xE0 0x41E _ _ hQ0 (by decide) (by decide) (by decide), cross 0xE0 0x41E _ _ hQ1 (by decide) (by decide) (by decide),
      cross 0x31 0x41E _ _ hF0 (by decide) (by decide) (by decide), cross 0x31 0x41E _ _ hF1 (by decide) (by decide) (by decide),
      List.nil_append, List.append_nil]
  · simp only [ofType_append, b1, b3, b4, b5, b6, b7, b8, b9, all_of (by decide) hrec'.2.2.1 hQ0, all_of (by decide) hrec'.2.2.2.1 hQ1,
      cross 0x31 0xE0 _ _ hF0 (by decide) (by decide) (by decide), cross 0x31 0xE0 _ _ hF1 (by decide) (by decide) (by decide),
      cross 0x41E 0xE0 _ _ hFm (by decide) (by decide) (by decide), List.nil_append, List.append_nil]

/-! ### The claim -/

/-- The number in a cell's record: `cell_t::GetXFIndex`, cell.cpp 53-61. -/
def xf (s : State) (c : WCell) : Nat := (Styles.xfIndexOf s.styles c.id).getD 0

/-- The data that a save starts from holds the fonts, number formats and formats of the workbook. -/
structure Dressed (s : State) (D : Globals.Data) : Prop where
  fonts : D.defFonts ++ D.fonts = Styles.fontRecords s.styles
  formats : D.formats = s.formats.list.map NumFmt.payload
  xfs : Styles.xfRecords s.styles = some (D.defXfs ++ D.xfs)

theorem xf_lt {s : State} {A : Asked} (G : Good s A) (c : WCell) : xf s c < 65536 := by
  unfold xf Styles.xfIndexOf
  cases h : (s.styles.cells[c.id]?).join.bind fun q => s.styles.xfs[q]? with
  | none => simp
  | some e =>
    obtain ⟨q, -, hq⟩ := Option.bind_eq_some_iff.mp h
    simp only [Option.map_some, Option.getD_some]
    rw [G.styles.inv.index q e hq]
    omega

theorem code_format {l : Styles.Spec.Look} {k : Nat} (h : codeOf l.calls = some k) : (wantXf l).format = 164 + k := by
  show Xf.Spec.last Xf.Spec.pickFormat 0 l.calls = _
  have : ∀ (ops : List Xf.Op) (a : Option Nat) (b : Nat), (∀ k, a = some k → b = 164 + k) →
      ∀ k, ops.foldl (fun k o => match o with | .userFormat (some k) => some k | .formatIndex _ => none | .format _ => none | _ => k) a = some k →
        ops.foldl (fun a o => (Xf.Spec.pickFormat o).getD a) b = 164 + k := by
    intro ops
    induction ops with
    | nil => exact fun a b h k hk => h k hk
    | cons o r ih =>
      intro a b h k hk
      rw [List.foldl_cons] at hk ⊢
      refine ih _ _ ?_ k hk
      intro j hj
      cases o with
      | userFormat u => cases u <;> simp_all [Xf.Spec.pickFormat]
      | formatIndex i => simp at hj
      | format i => simp at hj
      | _ => simp_all [Xf.Spec.pickFormat]
  exact this l.calls none 0 (by simp) k h

theorem shown {ar : Nat → Option Nat} {s : State} {A : Asked} (G : Good s A) (hx : s.styles.xfs.length ≤ 65536) {D : Globals.Data} (hD : Dressed s D)
    {i : Nat} {xs : List ReadCell} (h : ReadsBack (Holds ar) A.writes (xf s) i xs) : Shown ar A ⟨D.defFonts ++ D.fonts, D.formats, D.defXfs ++ D.xfs⟩ i xs := by
  refine ⟨h.1, fun row col => ?_⟩
  have := h.2 row col
  cases hw : lastWrite A.writes i row col with
  | none => rw [hw] at this; exact this
  | some c =>
    rw [hw] at this
    simp only at this ⊢
    obtain ⟨x, h1, h2, h3, h4, h5⟩ := this
    obtain ⟨l, hl⟩ := G.live i row col c hw
    obtain ⟨f, hf, hs⟩ := G.styles.read hx c.id l hl
    refine ⟨x, h1, h2, h3, h5, l, f, hl, hf, ?_, ?_⟩
    rotate_left
    · intro k code hk hc
      rw [hD.formats, G.formats, code_format hk]
      have := ((NumFmt.c38_user A.codes G.few (fun s hs => by have := G.codes s hs; omega)).2 k code hc)
      rw [← this.1]
      exact this.2.2
    unfold Styles.seen at hs
    simp only [hD.xfs, Option.bind_eq_bind, Option.bind_some, Option.bind_eq_some_iff] at hs
    obtain ⟨n, hn, hs⟩ := hs
    rw [h4, hD.fonts]
    simp only [xf, stamp, hn, Option.getD_some]
    exact hs

/-- C57 for a reader that follows the sheet table: each sheet has the cells that were written last on each place, each with its content and
    with the look that the calls on that cell, on the format it was given and on its font ask for.
    Missing for the full claim: the conditions of C29 (`Fine`: a format is not changed while a cell uses it, nor given again after all
    its cells gave it up), and those of C55 (values outside `Whole.Fine`, workbooks with a record above 8224 bytes). -/
theorem c57_cells_partial {ar : Nat → Option Nat} (hA : Formula.KnowsArity ar) (calls : List Call) (s0 : State) (h0 : init = some s0)
    (hf : Fine s0 nothing calls) :
    ∃ t, steps s0 calls = some t ∧ (All Whole.Fine (asked s0 nothing calls).writes → t.styles.xfs.length ≤ 65536 →
      ∀ (cs : WCell → Nat) (D : Globals.Data) (gs : Globals.St) (sheets : List (Sheet.Data (Nat × Val) Note.Note × Sheet.St (Nat × Val)))
        (s s' : Book.St (Globals.Data × Globals.St) (Sheet.Data (Nat × Val) Note.Note × Sheet.St (Nat × Val))) (us : List U) (fuel : Nat),
      Dressed t D → Pours t.book D sheets → Saveable (fun c => cellBytes t.book.labels (xf t c) c) D gs sheets → start (D, gs) sheets s →
      Book.run Globals.next (Sheet.next (Note.env (fun c => cellBytes t.book.labels (xf t c) c) cs)) fuel s = .done us s' →
      SmallGlobals D → (∀ sh ∈ sheets, SmallSheet (fun c => cellBytes t.book.labels (xf t c) c) sh.1) →
      ∃ bs, stream us s'.bpos = some bs ∧ (bs.length < 2 ^ 32 → ∀ pad, ∃ L recs, openCells (bs ++ pad) = some ((D.bounds.map (·.name)).zip L) ∧
        L.length = sheets.length ∧ openStyles (bs ++ pad) = some recs ∧
        ∀ (i : Nat) xs, L[i]? = some xs → Shown ar (asked s0 nothing calls) recs i xs)) := by
  obtain ⟨s, h1, G⟩ := init_good
  rw [h0] at h1
  cases Option.some.inj h1
  obtain ⟨t, t1, G'⟩ := sim_all G calls hf
  refine ⟨t, t1, fun hfine hx cs D gs sheets s s' us fuel hD hp hok hs hrun hsm hsh => ?_⟩
  obtain ⟨bs, e1, e2⟩ := c55_open_partial hA _ t.book G'.reach hfine (xf t) (xf_lt G') cs D gs sheets s s' us fuel hp hok hs hrun hsm hsh
  refine ⟨bs, e1, fun h32 pad => ?_⟩
  obtain ⟨L, l1, l2, l3⟩ := e2 h32 pad
  obtain ⟨bs2, R, Rs2, gus, uss, offs, A, B, P, -⟩ := saved_parts hok hs hrun
  rw [P.strm] at e1
  obtain rfl := Option.some.inj e1
  obtain ⟨g, u, hg, ht, rfl⟩ := P.units
  obtain ⟨o1, o2, o3⟩ := styles_of_globals hsm hg ht P.showsG
  refine ⟨L, _, l1, l2, by rw [openStyles, P.readGlobals, Option.map_some, o1, o2, o3], fun i xs hi => shown G' hx hD (l3 i xs hi)⟩

/-- The same for the file: a compound-file reader finds the stream, and in it the sheets, the cells and their looks. -/
theorem c57_file_partial {ar : Nat → Option Nat} (hA : Formula.KnowsArity ar) (calls : List Call) (s0 : State) (h0 : init = some s0)
    (hf : Fine s0 nothing calls) :
    ∃ t, steps s0 calls = some t ∧ (All Whole.Fine (asked s0 nothing calls).writes → t.styles.xfs.length ≤ 65536 →
      ∀ (cs : WCell → Nat) (D : Globals.Data) (gs : Globals.St) (sheets : List (Sheet.Data (Nat × Val) Note.Note × Sheet.St (Nat × Val)))
        (s s' : Book.St (Globals.Data × Globals.St) (Sheet.Data (Nat × Val) Note.Note × Sheet.St (Nat × Val))) (us : List U) (fuel : Nat),
      Dressed t D → Pours t.book D sheets → Saveable (fun c => cellBytes t.book.labels (xf t c) c) D gs sheets → start (D, gs) sheets s →
      Book.run Globals.next (Sheet.next (Note.env (fun c => cellBytes t.book.labels (xf t c) c) cs)) fuel s = .done us s' →
      SmallGlobals D → (∀ sh ∈ sheets, SmallSheet (fun c => cellBytes t.book.labels (xf t c) c) sh.1) →
      ∀ wb si dsi : List Bytes, us.mapM (patch s'.bpos) = some wb → Ole.dataSize wb + Ole.dataSize si + Ole.dataSize dsi < 2 ^ 31 - 12288 →
      ∃ f w L recs, Ole.CompleteFile (Ole.workbookFiles wb si dsi) f ∧ Cfb.readStream f (Ole.nameUnits Ole.workbookNames[0]) = some w ∧
        openCells w = some ((D.bounds.map (·.name)).zip L) ∧ L.length = sheets.length ∧ openStyles w = some recs ∧
        ∀ (i : Nat) xs, L[i]? = some xs → Shown ar (asked s0 nothing calls) recs i xs) := by
  obtain ⟨t, t1, H⟩ := c57_cells_partial hA calls s0 h0 hf
  refine ⟨t, t1, fun hfine hx cs D gs sheets s s' us fuel hD hp hok hs hrun hsm hsh wb si dsi hwb hsize => ?_⟩
  obtain ⟨bs, e1, e2⟩ := H hfine hx cs D gs sheets s s' us fuel hD hp hok hs hrun hsm hsh
  obtain ⟨f, k1, k2, k3, h1, h2, _⟩ := Ole.c10_workbook wb si dsi hsize
  have hbs : bs = wb.flatten := by
    unfold stream at e1
    rw [hwb] at e1
    simpa using e1.symm
  subst hbs
  have : wb.flatten.length = Ole.dataSize wb := by rw [List.length_flatten]; rfl
  obtain ⟨L, recs, l1, l2, l3, l4⟩ := e2 (by omega) _
  exact ⟨f, _, L, recs, h1, h2, l1, l2, l3, l4⟩

end Xls.Look
