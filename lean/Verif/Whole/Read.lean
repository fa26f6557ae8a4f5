import Verif.Whole.Spec
import Verif.Save.File
/-
The cell records among the records of a saved sheet, and the string table among the records of the workbook globals.
-/
namespace Xls.Whole
open Xls.Biff Xls.Cells Xls.Book Xls.Save

variable {α : Type}

theorem enc_inj {rs rs' : List Rec} (h : rs.flatMap enc = rs'.flatMap enc) (hf : ∀ r ∈ rs, Fits r) (hf' : ∀ r ∈ rs', Fits r) : rs = rs' := by
  have h1 := records_all rs hf
  rw [h, records_all rs' hf'] at h1
  exact (Option.some.inj h1).symm

theorem fits_of {rs : List Rec} (h : ∀ r ∈ rs, r.1 < 65536 ∧ r.2.length ≤ 8224) : ∀ r ∈ rs, Fits r :=
  fun r hr => ⟨(h r hr).1, by have := (h r hr).2; omega⟩

/-- The records that a unit becomes are determined. -/
theorem shows_det {bpos : List (Nat × Nat)} {u : U} {rs rs' : List Rec} (h : Shows (posOf bpos) u rs) (h' : Shows (posOf bpos) u rs') : rs = rs' := by
  obtain ⟨⟨b, hb, e⟩, hf⟩ := shows_bytes h
  obtain ⟨⟨b', hb', e'⟩, hf'⟩ := shows_bytes h'
  rw [hb] at hb'
  rw [← Option.some.inj hb', e] at e'
  exact enc_inj e' (fits_of hf) (fits_of hf')

theorem showsL_split {pos : Nat → Option Nat} {us vs : List U} {rs : List Rec} (h : ShowsL pos (us ++ vs) rs) :
    ∃ a b, rs = a ++ b ∧ ShowsL pos us a ∧ ShowsL pos vs b := by
  induction us generalizing rs with
  | nil => exact ⟨[], rs, rfl, .nil, h⟩
  | cons u r ih =>
    rw [List.cons_append] at h
    cases h with
    | cons h1 h2 =>
      obtain ⟨a, b, rfl, h3, h4⟩ := ih h2
      exact ⟨_, b, (List.append_assoc _ _ _).symm, .cons h1 h3, h4⟩

theorem showsL_filter {β : Type} {pos : Nat → Option Nat} (f : β → U) (g : β → List Rec) (p : Rec → Bool) {l : List β} {rs : List Rec}
    (h : ShowsL pos (l.map f) rs) (hg : ∀ e ∈ l, ∀ ss, Shows pos (f e) ss → ss.filter p = g e) : rs.filter p = l.flatMap g := by
  induction l generalizing rs with
  | nil => rw [List.map_nil] at h; cases h; rfl
  | cons e r ih =>
    rw [List.map_cons] at h
    cases h with
    | cons h1 h2 =>
      rw [List.filter_append, List.flatMap_cons, hg e (by simp) _ h1, ih h2 (fun x hx => hg x (by simp [hx]))]

theorem split_filter {p : Rec → Bool} (t : Nat) (q : Bytes) (ht : t < 65536) (h : ∀ x, p (t, x) = false) (h' : ∀ x, p (0x3C, x) = false) :
    (splitRec t q).filter p = [] := by
  rw [List.filter_eq_nil_iff]
  intro r hr
  obtain ⟨a, b⟩ := r
  rcases (splitRec_fits t q ht _ hr).1 with e | e
  · simp only at e; subst e; simp [h]
  · simp only at e; subst e; simp [h']

/-- The cells among a sheet's records. -/
def cellOf : Sheet.Ev α Note.Note → List (Cell α)
  | .rb (.cell c) => [c]
  | _ => []

theorem cellOf_rows (l : List (Rows.Ev α)) : (l.map (Sheet.Ev.rb (ν := Note.Note))).flatMap cellOf = Rows.cellsIn l := by
  induction l with
  | nil => rfl
  | cons e r ih => cases e <;> simp [cellOf, Rows.cellsIn, ih]

theorem cellOf_nil (l : List (Sheet.Ev α Note.Note)) (h : ∀ e ∈ l, e.sec ≠ 6) : l.flatMap cellOf = [] := by
  rw [List.flatMap_eq_nil_iff]
  intro e he
  have := h e he
  cases e with
  | rb e => cases e <;> first | exact absurd rfl this | rfl
  | _ => rfl

theorem layout_cells (env : Sheet.Env α Note.Note) (D : Sheet.Data α Note.Note) (sp pos : Nat) (bs : List (Rows.Block α)) :
    (Sheet.layout env D sp pos bs).flatMap cellOf = bs.flatMap Rows.Block.cells := by
  have hdraw : ∀ e ∈ Sheet.drawEvs (α := α) sp 0 D.notes, e.sec ≠ 6 := fun e h => by rw [Sheet.draw_mem h]; decide
  have hnote : ∀ e ∈ Sheet.noteEvs (α := α) 0 D.notes, e.sec ≠ 6 := by
    intro e he
    have := Sheet.noteEvs_sec (α := α) D.notes 0
    have hm : e.sec ∈ (Sheet.noteEvs (α := α) 0 D.notes).map Sheet.Ev.sec := List.mem_map.mpr ⟨e, he, rfl⟩
    rw [this] at hm
    rw [(List.mem_replicate.mp hm).2]; decide
  have hdv : ∀ e ∈ Sheet.dvEvs (α := α) D, e.sec ≠ 6 := by
    intro e h
    unfold Sheet.dvEvs at h
    split at h
    · simp at h
    · rcases List.mem_cons.mp h with rfl | h
      · simp [Sheet.Ev.sec]
      · obtain ⟨v, _, rfl⟩ := List.mem_map.mp h
        simp [Sheet.Ev.sec]
  have hpane : ((if D.rowSplit ≠ 0 ∨ D.colSplit ≠ 0 then [.pane] else []) : List (Sheet.Ev α Note.Note)).flatMap cellOf = [] := by
    split <;> rfl
  unfold Sheet.layout
  simp only [List.flatMap_append, cellOf_rows, Rows.cellsIn_blocks, cellOf_nil _ hdraw, cellOf_nil _ hnote, cellOf_nil _ hdv, hpane]
  rw [cellOf_nil (D.cols.map _) (by intro e he; obtain ⟨x, _, rfl⟩ := List.mem_map.mp he; simp [Sheet.Ev.sec]),
    cellOf_nil ((Book.chunks 1027 D.merged).map _) (by intro e he; obtain ⟨x, _, rfl⟩ := List.mem_map.mp he; simp [Sheet.Ev.sec]),
    cellOf_nil (D.links.map _) (by intro e he; obtain ⟨x, _, rfl⟩ := List.mem_map.mp he; simp [Sheet.Ev.sec])]
  simp [cellOf]

/-- The unit of a cell is made of these records, and none needs to be continued. -/
structure CellIs (cd : Cell α → Bytes) (c : Cell α) (rs : List Rec) : Prop where
  bytes : cd c = rs.flatMap enc
  types : ∀ r ∈ rs, r.1 < 65536 ∧ r.2.length ≤ 8224 ∧ Inner r
  small : (cd c).length ≤ 8228

theorem CellIs.ok {cd : Cell α → Bytes} {c : Cell α} {rs : List Rec} (h : CellIs cd c rs) : CellOk (cd c) :=
  .inr ⟨rs, h.bytes, h.types, h.small⟩

theorem ev_filter {cd : Cell α → Bytes} {cs : Cell α → Nat} {recs : Cell α → List Rec} (D : Sheet.Data α Note.Note) (e : Sheet.Ev α Note.Note)
    (hc : ∀ c, e = .rb (.cell c) → CellIs cd c (recs c)) (hn : ∀ sp i n, e = .drawing sp i n → n.full.length ≤ 3900) (ss : List Rec)
    (hs : Shows (fun _ => none) (e.unit (Note.env cd cs) D) ss) :
    ss.filter isCell = (cellOf e).flatMap fun c => (recs c).filter isCell := by
  have det : ∀ rs, Shows (fun _ => none) (e.unit (Note.env cd cs) D) rs → ss = rs := fun rs h => shows_det (bpos := []) hs h
  have one : ∀ (t : Nat) (p : Bytes), t < 65536 → (∀ x, isCell (t, x) = false) → e.bytes (Note.env cd cs) D = enc (t, p) → cellOf e = [] →
      ss.filter isCell = (cellOf e).flatMap fun c => (recs c).filter isCell := by
    intro t p ht h1 hb he
    rw [det _ (.one hb ht rfl rfl), split_filter t p ht h1 (fun _ => rfl), he]
    rfl
  cases e with
  | bof => exact one 0x809 _ (by decide) (fun _ => rfl) rfl rfl
  | eof => exact one 0x0A _ (by decide) (fun _ => rfl) rfl rfl
  | rb e =>
    cases e with
    | row => exact one 0x208 _ (by decide) (fun _ => rfl) rfl rfl
    | dbcell => exact one 0xD7 _ (by decide) (fun _ => rfl) rfl rfl
    | cell c =>
      obtain ⟨hb, hr, hl⟩ := hc c rfl
      have hd : (Sheet.Ev.unit (Note.env cd cs) D (.rb (.cell c))).data = cd c := rfl
      rw [det (recs c) (.many (by rw [hd, hb]) (fun r h => ⟨(hr r h).1, (hr r h).2.1⟩) (.inr (by simp only [U.paySize, hd, maxRec]; omega)) rfl)]
      simp [cellOf]
  | drawing sp i n =>
    rw [det _ (drawing_shows D sp i n (hn sp i n rfl))]
    rfl
  | index => exact one 0x20B _ (by decide) (fun _ => rfl) rfl rfl
  | defRowHeight => exact one 0x225 _ (by decide) (fun _ => rfl) rfl rfl
  | colinfo => exact one 0x7D _ (by decide) (fun _ => rfl) rfl rfl
  | defColWidth => exact one 0x55 _ (by decide) (fun _ => rfl) rfl rfl
  | dimension => exact one 0x200 _ (by decide) (fun _ => rfl) rfl rfl
  | note => exact one 0x1C _ (by decide) (fun _ => rfl) rfl rfl
  | merged => exact one 0xE5 _ (by decide) (fun _ => rfl) rfl rfl
  | window2 => exact one 0x23E _ (by decide) (fun _ => rfl) rfl rfl
  | pane => exact one 0x41 _ (by decide) (fun _ => rfl) rfl rfl
  | link => exact one 0x1B8 _ (by decide) (fun _ => rfl) rfl rfl
  | dvHeader => exact one 0x1B2 _ (by decide) (fun _ => rfl) rfl rfl
  | dv => exact one 0x1BE _ (by decide) (fun _ => rfl) rfl rfl

/-- The cell records of a saved sheet are those of its cells, in order. -/
theorem sheet_filter {cd : Cell α → Bytes} {cs : Cell α → Nat} {recs : Cell α → List Rec} {D : Sheet.Data α Note.Note}
    (hc : ∀ c ∈ D.cells, CellIs cd c (recs c)) {s : Sheet.St α} {off fuel : Nat} {us : List U} {x : Sheet.Data α Note.Note × Sheet.St α}
    (hs : Sheet.Ready D s) (hlen : D.cells.length < 2 ^ 32) (h16 : D.notes.length ≤ 65535) (hn : ∀ n ∈ D.notes, n.full.length ≤ 3900)
    (hd : Sheet.drain (Sheet.next (Note.env cd cs)) fuel off 0 (D, s) = .done us x) {R : List Rec} (hR : ShowsL (fun _ => none) us R) :
    R.filter isCell = D.cells.flatMap fun c => (recs c).filter isCell := by
  obtain ⟨bs, hb, rfl, _⟩ := Sheet.drain_done hs hlen h16 hd
  obtain ⟨mid, hm, hsec, hdr, hcl⟩ := layout_mid (Note.env cd cs) D s.spid off bs
  have hcells := Rows.blocks_cells _ _ _ hb
  have := showsL_filter (Sheet.Ev.unit (Note.env cd cs) D) (fun e => (cellOf e).flatMap fun c => (recs c).filter isCell) isCell hR (by
    intro e he ss hss
    refine ev_filter D e ?_ ?_ ss hss
    · intro c h
      refine hc c ?_
      rw [← hcells, ← layout_cells (Note.env cd cs) D s.spid off bs, List.mem_flatMap]
      exact ⟨e, he, by rw [h]; simp [cellOf]⟩
    · intro sp i n h
      rw [hm] at he
      simp only [List.cons_append, List.mem_cons, List.mem_append, List.not_mem_nil, or_false] at he
      rcases he with rfl | he | rfl
      · cases h
      · exact hn n (hdr e he sp i n h)
      · cases h)
  rw [this, ← List.flatMap_assoc, layout_cells, hcells]

/-! ### The string table -/

theorem shows_no {bpos : List (Nat × Nat)} {t : Nat} {p : Bytes} (ht : t < 65536) (h : t ≠ 0xFC) {rs : List Rec}
    (hs : Shows (posOf bpos) (Globals.unit t p) rs) : ∀ r ∈ rs, r.1 ≠ 0xFC := by
  rw [shows_det hs (.one rfl ht rfl rfl)]
  intro r hr
  rcases (splitRec_fits t p ht r hr).1 with e | e <;> omega

theorem showsL_no {pos : Nat → Option Nat} {us : List U} {rs : List Rec} (h : ShowsL pos us rs)
    (hu : ∀ u ∈ us, ∀ ss, Shows pos u ss → ∀ r ∈ ss, r.1 ≠ 0xFC) : ∀ r ∈ rs, r.1 ≠ 0xFC := by
  induction h with
  | nil => simp
  | cons a _ ih =>
    intro r hr
    rcases List.mem_append.mp hr with hr | hr
    · exact hu _ (by simp) _ a r hr
    · exact ih (fun u h => hu u (by simp [h])) r hr

theorem dropWhile_all {β : Type} {p : β → Bool} (l m : List β) (h : ∀ x ∈ l, p x = true) : (l ++ m).dropWhile p = m.dropWhile p := by
  induction l with
  | nil => rfl
  | cons a r ih => rw [List.cons_append, List.dropWhile_cons, if_pos (h a (by simp)), ih (fun x hx => h x (by simp [hx]))]

theorem takeWhile_all {β : Type} {p : β → Bool} (l : List β) (x : β) (m : List β) (h : ∀ x ∈ l, p x = true) (hx : p x = false) :
    (l ++ x :: m).takeWhile p = l := by
  induction l with
  | nil => rw [List.nil_append, List.takeWhile_cons, hx]; rfl
  | cons a r ih => rw [List.cons_append, List.takeWhile_cons, if_pos (h a (by simp)), ih (fun x hx => h x (by simp [hx]))]

/-- The texts that a reader finds in the workbook globals are those of the table. -/
theorem sst_of_globals {bpos : List (Nat × Nat)} {D : Globals.Data} {g t : List U} (hg : Globals.groupUnits D = some g)
    (ht : Globals.sstUnits D = some t) {G : List Rec} (hG : ShowsL (posOf bpos) (Globals.units D g t) G) :
    sstOf G = some (D.labels.map Sst.stored) := by
  obtain ⟨A, X1, rfl, hA, hX1⟩ := showsL_split hG
  obtain ⟨B, X2, rfl, hB, hX2⟩ := showsL_split hX1
  obtain ⟨C, X3, rfl, hC, hX3⟩ := showsL_split hX2
  obtain ⟨E, X4, rfl, hE, hX4⟩ := showsL_split hX3
  obtain ⟨F, X5, rfl, hF, hX5⟩ := showsL_split hX4
  have hA' : ∀ r ∈ A, r.1 ≠ 0xFC := showsL_no hA (by
    intro u hu ss hss
    unfold Globals.headUnits at hu
    simp only [List.mem_append, List.mem_cons, List.not_mem_nil, or_false, List.mem_map] at hu
    rcases hu with (rfl | rfl | rfl | rfl) | ⟨_, _, rfl⟩ | ⟨_, _, rfl⟩ | ⟨_, _, rfl⟩ | ⟨_, _, rfl⟩ | ⟨_, _, rfl⟩ | ⟨_, _, rfl⟩ | rfl <;>
      exact shows_no (by decide) (by decide) hss)
  have hB' : ∀ r ∈ B, r.1 ≠ 0xFC := showsL_no hB (by
    intro u hu ss hss
    obtain ⟨b, _, rfl⟩ := List.mem_map.mp hu
    cases hss with
    | one _ _ _ h => cases h
    | many _ _ _ h => cases h
    | bound => intro r hr; rcases (splitRec_fits _ _ (by decide) r hr).1 with e | e <;> omega)
  have hC' : ∀ r ∈ C, r.1 ≠ 0xFC := showsL_no hC (by
    intro u hu ss hss
    simp only [List.mem_cons, List.not_mem_nil, or_false] at hu
    rcases hu with rfl | rfl <;> exact shows_no (by decide) (by decide) hss)
  have hE' : ∀ r ∈ E, r.1 ≠ 0xFC := showsL_no hE (by
    intro u hu ss hss
    obtain ⟨g', hg', hu'⟩ := group_some D
    rw [hg] at hg'
    obtain rfl := Option.some.inj hg'
    obtain ⟨p, h1, h2, h3⟩ := hu' u hu
    rw [shows_det hss (.one h1 (by decide) h2 h3)]
    intro r hr
    rcases (splitRec_fits _ _ (by decide) r hr).1 with e | e <;> omega)
  have hX5' : ∃ p, X5 = [(0x0A, p)] := by
    cases hX5 with
    | cons h1 h2 =>
      cases h2
      rw [shows_det h1 (.one rfl (by decide) rfl rfl)]
      exact ⟨[], rfl⟩
  obtain ⟨q, rfl⟩ := hX5'
  unfold sstOf
  rw [← List.append_assoc, ← List.append_assoc, ← List.append_assoc, dropWhile_all _ _ (by
    intro r hr
    simp only [List.mem_append] at hr
    have : r.1 ≠ 0xFC := by
      rcases hr with ((h | h) | h) | h
      · exact hA' r h
      · exact hB' r h
      · exact hC' r h
      · exact hE' r h
    simpa using this)]
  unfold Globals.sstUnits at ht
  by_cases hl : D.labels = []
  · rw [if_pos (by simp [hl])] at ht
    obtain rfl := Option.some.inj ht
    cases hF
    rw [hl]
    rfl
  · rw [if_neg (by simp [hl])] at ht
    obtain ⟨bs, rs, h1, h2, h3, h4⟩ := Sst.c05_sst_reads_back D.labels
    rw [h1] at ht
    obtain rfl := Option.some.inj ht
    obtain ⟨e, hf⟩ := records_some h2
    cases hF with
    | cons h5 h6 =>
      cases h6
      rw [shows_det h5 (.many e (fun r hr => ⟨(hf r hr).1, h3 r hr⟩) (.inl rfl) rfl)]
      cases rs with
      | nil => simp [Sst.readSST] at h4
      | cons r rest =>
        obtain ⟨a, p⟩ := r
        have hc : a = 0xFC ∧ rest.all (fun r => r.1 == 0x3C) := by
          simp only [Sst.readSST] at h4
          split at h4
          · assumption
          · simp at h4
        rw [List.append_nil, List.cons_append, List.dropWhile_cons, if_neg (by simp [hc.1])]
        simp only
        rw [takeWhile_all _ _ _ (List.all_eq_true.mp hc.2) (by rfl), h4]
        rfl

end Xls.Whole
