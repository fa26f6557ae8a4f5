import Verif.Save.Lemmas
/-
The whole workbook stream: globals and sheets.
-/
namespace Xls.Save
open Xls.Biff Xls.Book Xls.Unit Xls.Cells

variable {α : Type}

/-! ### The globals -/

theorem group_some (D : Globals.Data) : ∃ g, Globals.groupUnits D = some g ∧
    ∀ u ∈ g, ∃ p, u.data = enc (0xEB, p) ∧ u.cont = false ∧ u.tag = none := by
  unfold Globals.groupUnits Note.makeDrawingGroup
  split
  · rename_i h
    have hne : Note.withNotes 0 (D.bounds.map (·.notes)) ≠ [] := by
      intro h0
      apply h
      have := Note.withNotes_snd (D.bounds.map (·.notes)) 0
      rw [h0] at this
      have h2 := Note.filter_sum (D.bounds.map (·.notes))
      rw [← this] at h2
      rw [← h2]
      rfl
    unfold Note.drawingGroup
    cases hl : (Note.withNotes 0 (D.bounds.map (·.notes))).getLast? with
    | none => exact absurd (List.getLast?_eq_none_iff.mp hl) hne
    | some last =>
      refine ⟨_, rfl, ?_⟩
      intro u hu
      simp only [Option.toList, List.map_cons, List.map_nil, List.mem_singleton] at hu
      subst hu
      exact ⟨_, rfl, rfl, rfl⟩
  · exact ⟨[], rfl, by simp⟩

/-- Neither BOF, EOF nor BOUNDSHEET. -/
def Plain (r : Rec) : Prop := Inner r ∧ r.1 ≠ 0x85

theorem plain_unit {pos : Nat → Option Nat} (t : Nat) (p : Bytes) (ht : t < 65536) (h1 : t ≠ 0x0A) (h2 : t ≠ 0x809) (h3 : t ≠ 0x85) :
    ∃ rs, Shows pos (Globals.unit t p) rs ∧ ∀ r ∈ rs, Plain r := by
  refine ⟨splitRec t p, .one rfl ht rfl rfl, ?_⟩
  intro r hr
  rcases (splitRec_fits t p ht r hr).1 with h | h
  · exact ⟨⟨by omega, by omega⟩, by omega⟩
  · exact ⟨⟨by omega, by omega⟩, by omega⟩

/-- The records before the sheets' records, after BOF. -/
theorem head_shows (pos : Nat → Option Nat) (D : Globals.Data) :
    ∃ rs, ShowsL pos (Globals.headUnits D) ((0x809, Sheet.bofPayload 5) :: rs) ∧ ∀ r ∈ rs, Plain r := by
  have hb : Shows pos (Globals.unit 0x809 (Sheet.bofPayload 5)) [(0x809, Sheet.bofPayload 5)] := by
    have := Shows.one (pos := pos) (u := Globals.unit 0x809 (Sheet.bofPayload 5)) rfl (by decide) rfl rfl
    simpa [splitRec, Sheet.bofPayload, maxRec] using this
  have hrest : ∃ rs, ShowsL pos (Globals.headUnits D).tail rs ∧ ∀ r ∈ rs, Plain r := by
    refine showsL_of _ ?_
    intro u hu
    simp only [Globals.headUnits, List.cons_append, List.tail_cons, List.nil_append, List.mem_cons, List.mem_append, List.mem_map,
      List.not_mem_nil, or_false] at hu
    rcases hu with rfl | rfl | rfl | ⟨p, _, rfl⟩ | ⟨p, _, rfl⟩ | ⟨p, _, rfl⟩ | ⟨p, _, rfl⟩ | ⟨p, _, rfl⟩ | ⟨p, _, rfl⟩ | rfl <;>
      exact plain_unit _ _ (by decide) (by decide) (by decide) (by decide)
  obtain ⟨rs, h, hp⟩ := hrest
  exact ⟨rs, .cons hb h, hp⟩

/-- The records of the BOUNDSHEETs. -/
def boundRecs (pos : Nat → Nat) (bs : List (Globals.Bound × Nat)) : List Rec :=
  bs.flatMap fun b => splitRec 0x85 (leN 4 (pos b.2) ++ (leN 2 0 ++ strBytes b.1.name .len1))

theorem sst_shows (pos : Nat → Option Nat) (D : Globals.Data) : ∃ t rs, Globals.sstUnits D = some t ∧ ShowsL pos t rs ∧ ∀ r ∈ rs, Plain r := by
  unfold Globals.sstUnits
  split
  · exact ⟨[], [], rfl, .nil, by simp⟩
  · obtain ⟨bs, rs, h1, h2, h3, h4⟩ := Sst.c05_sst_reads_back D.labels
    obtain ⟨e, hf⟩ := records_some h2
    refine ⟨_, rs ++ [], by rw [h1]; rfl, .cons (.many e (fun r hr => ⟨(hf r hr).1, h3 r hr⟩) (.inl rfl) rfl) .nil, ?_⟩
    rw [List.append_nil]
    intro r hr
    cases rs with
    | nil => simp at hr
    | cons x rest =>
      obtain ⟨t, p⟩ := x
      simp only [Sst.readSST] at h4
      split at h4
      · rename_i hc
        rcases List.mem_cons.mp hr with rfl | hr
        · exact ⟨⟨by simp [hc.1], by simp [hc.1]⟩, by simp [hc.1]⟩
        · have := List.all_eq_true.mp hc.2 r hr
          simp only [beq_iff_eq] at this
          exact ⟨⟨by simp [this], by simp [this]⟩, by simp [this]⟩
      · simp at h4

theorem globals_shows (pos : Nat → Nat) (D : Globals.Data) (P : Nat → Option Nat) (hpos : ∀ b ∈ D.bounds.zipIdx, P b.2 = some (pos b.2)) :
    ∃ g t A B, Globals.groupUnits D = some g ∧ Globals.sstUnits D = some t ∧
      ShowsL P (Globals.units D g t) ((0x809, Sheet.bofPayload 5) :: (A ++ boundRecs pos D.bounds.zipIdx ++ B) ++ [(0x0A, [])]) ∧
      (∀ r ∈ A, Plain r) ∧ ∀ r ∈ B, Plain r := by
  obtain ⟨g, hg, hg'⟩ := group_some D
  obtain ⟨t, tr, ht, hts, htp⟩ := sst_shows P D
  obtain ⟨A, hA, hA'⟩ := head_shows P D
  obtain ⟨l1, hl1, hl1'⟩ := plain_unit (pos := P) 0x1AE (Globals.supbookPayload D.bounds.length) (by decide) (by decide) (by decide) (by decide)
  obtain ⟨l2, hl2, hl2'⟩ := plain_unit (pos := P) 0x17 (Globals.externPayload D.bounds.length) (by decide) (by decide) (by decide) (by decide)
  obtain ⟨gr, hgs, hgp⟩ : ∃ rs, ShowsL P g rs ∧ ∀ r ∈ rs, Plain r := by
    refine showsL_of _ ?_
    intro u hu
    obtain ⟨p, h1, h2, h3⟩ := hg' u hu
    refine ⟨splitRec 0xEB p, .one h1 (by decide) h2 h3, ?_⟩
    intro r hr
    rcases (splitRec_fits 0xEB p (by decide) r hr).1 with h | h
    · exact ⟨⟨by omega, by omega⟩, by omega⟩
    · exact ⟨⟨by omega, by omega⟩, by omega⟩
  have hbs : ShowsL P (D.bounds.zipIdx.map Globals.boundUnit) (boundRecs pos D.bounds.zipIdx) := by
    refine showsL_map _ _ _ ?_
    intro b hb
    exact .bound (i := b.2) (by simp [Globals.boundUnit, Globals.boundPayload]) rfl rfl (hpos b hb)
  have he : Shows P (Globals.unit 0x0A []) [(0x0A, [])] := by
    have := Shows.one (pos := P) (u := Globals.unit 0x0A []) rfl (by decide) rfl rfl
    simpa [splitRec, maxRec] using this
  refine ⟨g, t, A, l1 ++ (l2 ++ (gr ++ tr)), hg, ht, ?_, hA', ?_⟩
  · have := hA.append (hbs.append ((ShowsL.cons hl1 (.cons hl2 .nil)).append (hgs.append (hts.append (.cons he .nil)))))
    unfold Globals.units
    simpa using this
  · intro r hr
    rcases List.mem_append.mp hr with hr | hr
    · exact hl1' r hr
    · rcases List.mem_append.mp hr with hr | hr
      · exact hl2' r hr
      · rcases List.mem_append.mp hr with hr | hr
        · exact hgp r hr
        · exact htp r hr

/-! ### The sheets -/

/-- What a cell's bytes must be: one record of any length, or several records that fit one unit; none is BOF or EOF. -/
def CellOk (bs : Bytes) : Prop :=
  (∃ t p, bs = enc (t, p) ∧ t < 65536 ∧ t ≠ 0x0A ∧ t ≠ 0x809) ∨
    ∃ rs : List Rec, bs = rs.flatMap enc ∧ (∀ r ∈ rs, r.1 < 65536 ∧ r.2.length ≤ 8224 ∧ Inner r) ∧ bs.length ≤ 8228

theorem inner_split {t : Nat} {p : Bytes} (ht : t < 65536) (h1 : t ≠ 0x0A) (h2 : t ≠ 0x809) : ∀ r ∈ splitRec t p, Inner r := by
  intro r hr
  rcases (splitRec_fits t p ht r hr).1 with h | h
  · exact ⟨by omega, by omega⟩
  · exact ⟨by omega, by omega⟩

theorem drawing_shows {pos : Nat → Option Nat} {cd : Cell α → Bytes} {cs : Cell α → Nat} (D : Sheet.Data α Note.Note) (sp i : Nat) (n : Note.Note)
    (hl : n.full.length ≤ 3900) :
    Shows pos ((Sheet.Ev.drawing sp i n : Sheet.Ev α Note.Note).unit (Note.env cd cs) D) (Note.unitRecords D.index D.notes.length sp i n) := by
  have hs := Note.str_nolen_length n.full
  have hd : (Sheet.Ev.unit (Note.env cd cs) D (.drawing sp i n)).data = Note.drawing D.index D.notes.length sp i n := rfl
  refine .many (by rw [hd, Note.drawing_enc _ _ _ _ _ (by omega)]) ?_ (.inr ?_) rfl
  · intro r hr
    have hf := Note.unitRecords_fits _ _ _ _ _ (by omega) r hr
    refine ⟨hf.1, ?_⟩
    simp only [Note.unitRecords, List.mem_cons, List.not_mem_nil, or_false] at hr
    rcases hr with rfl | rfl | rfl | rfl | rfl | rfl
    · simp only [List.length_append, Note.drawingText_length]
      split
      · rw [Note.drawingContainer_length]; decide
      · decide
    · simp only [Note.objData_length]; decide
    · simp only [Note.textbox_length]; decide
    · simp only [Note.txoData_length]; decide
    · simp only; omega
    · simp only [Note.runData_length]; decide
  · simp only [U.paySize, hd, Note.drawing_enc _ _ _ _ _ (show (strBytes n.full .nolen).length < 65536 by omega), Note.unitRecords,
      List.flatMap_cons, List.flatMap_nil, List.length_append, enc, leN_length, Note.drawingText_length, Note.objData_length,
      Note.textbox_length, Note.txoData_length, Note.runData_length, List.length_nil, maxRec]
    split
    · rw [Note.drawingContainer_length]; omega
    · rw [List.length_nil]; omega

/-- One record of a sheet between BOF and EOF. -/
theorem ev_shows {pos : Nat → Option Nat} {cd : Cell α → Bytes} {cs : Cell α → Nat} (D : Sheet.Data α Note.Note)
    (e : Sheet.Ev α Note.Note) (hc : ∀ c, e = .rb (.cell c) → CellOk (cd c)) (h0 : e.sec ≠ 0) (h15 : e.sec ≠ 15) (hn : ∀ sp i n, e = .drawing sp i n → n.full.length ≤ 3900) :
    ∃ rs, Shows pos (e.unit (Note.env cd cs) D) rs ∧ ∀ r ∈ rs, Inner r := by
  have one : ∀ (t : Nat) (p : Bytes), t < 65536 → t ≠ 0x0A → t ≠ 0x809 → e.bytes (Note.env cd cs) D = enc (t, p) →
      ∃ rs, Shows pos (e.unit (Note.env cd cs) D) rs ∧ ∀ r ∈ rs, Inner r := by
    intro t p ht h1 h2 hb
    exact ⟨splitRec t p, .one hb ht rfl rfl, inner_split ht h1 h2⟩
  cases e with
  | bof => exact absurd rfl h0
  | eof => exact absurd rfl h15
  | rb e =>
    cases e with
    | row => exact one 0x208 _ (by decide) (by decide) (by decide) rfl
    | dbcell => exact one 0xD7 _ (by decide) (by decide) (by decide) rfl
    | cell c =>
      rcases hc c rfl with ⟨t, p, hb, ht, h1, h2⟩ | ⟨rs, hb, hr, hl⟩
      · exact one t p ht h1 h2 hb
      · refine ⟨rs, .many hb (fun r h => ⟨(hr r h).1, (hr r h).2.1⟩) (.inr ?_) rfl, fun r h => (hr r h).2.2⟩
        have : (Sheet.Ev.unit (Note.env cd cs) D (.rb (.cell c))).data = cd c := rfl
        simp only [U.paySize, this, maxRec]
        omega
  | drawing sp i n =>
    refine ⟨_, drawing_shows D sp i n (hn sp i n rfl), ?_⟩
    intro r hr
    simp only [Note.unitRecords, List.mem_cons, List.not_mem_nil, or_false] at hr
    rcases hr with rfl | rfl | rfl | rfl | rfl | rfl <;> exact ⟨by simp, by simp⟩
  | index => exact one 0x20B _ (by decide) (by decide) (by decide) rfl
  | defRowHeight => exact one 0x225 _ (by decide) (by decide) (by decide) rfl
  | colinfo => exact one 0x7D _ (by decide) (by decide) (by decide) rfl
  | defColWidth => exact one 0x55 _ (by decide) (by decide) (by decide) rfl
  | dimension => exact one 0x200 _ (by decide) (by decide) (by decide) rfl
  | note => exact one 0x1C _ (by decide) (by decide) (by decide) rfl
  | merged => exact one 0xE5 _ (by decide) (by decide) (by decide) rfl
  | window2 => exact one 0x23E _ (by decide) (by decide) (by decide) rfl
  | pane => exact one 0x41 _ (by decide) (by decide) (by decide) rfl
  | link => exact one 0x1B8 _ (by decide) (by decide) (by decide) rfl
  | dvHeader => exact one 0x1B2 _ (by decide) (by decide) (by decide) rfl
  | dv => exact one 0x1BE _ (by decide) (by decide) (by decide) rfl

theorem drawEvs_note {l : List Note.Note} {sp k : Nat} {e : Sheet.Ev α Note.Note} (h : e ∈ Sheet.drawEvs sp k l) :
    ∃ sp' i n, e = .drawing sp' i n ∧ n ∈ l := by
  induction l generalizing sp k with
  | nil => simp [Sheet.drawEvs] at h
  | cons a r ih =>
    simp only [Sheet.drawEvs, List.mem_cons] at h
    rcases h with h | h
    · exact ⟨_, _, a, h, by simp⟩
    · obtain ⟨x, y, n, e, hn⟩ := ih h
      exact ⟨x, y, n, e, by simp [hn]⟩

theorem layout_mid (env : Sheet.Env α Note.Note) (D : Sheet.Data α Note.Note) (sp pos : Nat) (bs : List (Rows.Block α)) :
    ∃ mid, Sheet.layout env D sp pos bs = .bof :: mid ++ [.eof] ∧ (∀ e ∈ mid, e.sec ≠ 0 ∧ e.sec ≠ 15) ∧
      (∀ e ∈ mid, ∀ s i n, e = .drawing s i n → n ∈ D.notes) ∧
      ∀ c, .rb (.cell c) ∈ mid → .cell c ∈ bs.flatMap (Rows.Block.evs fun c => (env.cellData c).length) := by
  refine ⟨[.index (Sheet.indexRows D.cells).1 (Sheet.indexRows D.cells).2 (Rows.indexOffsets env.cellSize (pos + 20) D.cols.length D.cells),
    .defRowHeight] ++ D.cols.map .colinfo ++ [.defColWidth, .dimension] ++
    (bs.flatMap (Rows.Block.evs fun c => (env.cellData c).length)).map .rb ++
    (Sheet.drawEvs sp 0 D.notes ++ Sheet.noteEvs 0 D.notes) ++ (Book.chunks 1027 D.merged).map .merged ++ [.window2] ++
    (if D.rowSplit ≠ 0 ∨ D.colSplit ≠ 0 then [.pane] else []) ++ D.links.map .link ++ Sheet.dvEvs D, ?_, ?_, ?_, ?_⟩
  · simp [Sheet.layout]
  · intro e he
    have hsec : ∀ e ∈ Sheet.noteEvs (α := α) 0 D.notes, e.sec = 8 := by
      intro e he
      have := Sheet.noteEvs_sec (α := α) D.notes 0
      have hm : e.sec ∈ (Sheet.noteEvs (α := α) 0 D.notes).map Sheet.Ev.sec := List.mem_map.mpr ⟨e, he, rfl⟩
      rw [this] at hm
      exact (List.mem_replicate.mp hm).2
    simp only [List.mem_append, List.mem_cons, List.not_mem_nil, or_false, List.mem_map] at he
    rcases he with (((((((((rfl | rfl) | ⟨c, _, rfl⟩) | (rfl | rfl)) | ⟨c, _, rfl⟩) | (h | h)) | ⟨c, _, rfl⟩) | rfl) | h) | ⟨c, _, rfl⟩) | h
    all_goals first
      | (refine ⟨?_, ?_⟩ <;> (simp [Sheet.Ev.sec]; done))
      | skip
    · rw [Sheet.draw_mem h]; exact ⟨by decide, by decide⟩
    · rw [hsec e h]; exact ⟨by decide, by decide⟩
    · split at h
      · simp only [List.mem_singleton] at h; subst h; exact ⟨by simp [Sheet.Ev.sec], by simp [Sheet.Ev.sec]⟩
      · simp at h
    · unfold Sheet.dvEvs at h
      split at h
      · simp at h
      · rcases List.mem_cons.mp h with rfl | h
        · exact ⟨by simp [Sheet.Ev.sec], by simp [Sheet.Ev.sec]⟩
        · obtain ⟨v, _, rfl⟩ := List.mem_map.mp h
          exact ⟨by simp [Sheet.Ev.sec], by simp [Sheet.Ev.sec]⟩
  · intro e he s i n hn
    subst hn
    simp only [List.mem_append, List.mem_cons, List.not_mem_nil, or_false, List.mem_map, reduceCtorEq, false_or, and_false, exists_false] at he
    rcases he with ((h | h) | h) | h
    · obtain ⟨_, _, n', e, hn⟩ := drawEvs_note h
      cases e
      exact hn
    · have := Sheet.noteEvs_sec (α := α) D.notes 0
      have hm : (Sheet.Ev.drawing s i n : Sheet.Ev α Note.Note).sec ∈ (Sheet.noteEvs (α := α) 0 D.notes).map Sheet.Ev.sec := List.mem_map.mpr ⟨_, h, rfl⟩
      rw [this] at hm
      have := (List.mem_replicate.mp hm).2
      simp [Sheet.Ev.sec] at this
    · split at h <;> simp at h
    · unfold Sheet.dvEvs at h
      split at h
      · simp at h
      · simp at h
  · intro c he
    have h6 : ∀ l : List (Sheet.Ev α Note.Note), (∀ e ∈ l, e.sec ≠ 6) → .rb (.cell c) ∉ l := fun l hl hm => hl _ hm rfl
    have hdraw : ∀ e ∈ Sheet.drawEvs (α := α) sp 0 D.notes, e.sec ≠ 6 := fun e h => by rw [Sheet.draw_mem h]; decide
    have hnote : ∀ e ∈ Sheet.noteEvs (α := α) 0 D.notes, e.sec ≠ 6 := by
      intro e he
      have := Sheet.noteEvs_sec (α := α) D.notes 0
      have hm : e.sec ∈ (Sheet.noteEvs (α := α) 0 D.notes).map Sheet.Ev.sec := List.mem_map.mpr ⟨e, he, rfl⟩
      rw [this] at hm
      rw [(List.mem_replicate.mp hm).2]; decide
    simp only [List.mem_append, List.mem_cons, List.not_mem_nil, or_false, List.mem_map, reduceCtorEq, false_or, and_false, exists_false] at he
    rcases he with ((h | h | h) | h) | h
    · obtain ⟨x, hx, e⟩ := h
      cases e
      exact hx
    · exact absurd h (h6 _ hdraw)
    · exact absurd h (h6 _ hnote)
    · split at h <;> simp at h
    · unfold Sheet.dvEvs at h
      split at h
      · simp at h
      · simp at h

theorem mem_cellsIn {evs : List (Rows.Ev α)} {c : Cell α} (h : .cell c ∈ evs) : c ∈ Rows.cellsIn evs := by
  induction evs with
  | nil => simp at h
  | cons e r ih =>
    rcases List.mem_cons.mp h with rfl | h1
    · simp [Rows.cellsIn]
    · cases e <;> simp [Rows.cellsIn, ih h1]

/-- What a sheet hands out becomes one substream. -/
theorem sheet_shows {pos : Nat → Option Nat} {cd : Cell α → Bytes} {cs : Cell α → Nat} {D : Sheet.Data α Note.Note} (hc : ∀ c ∈ D.cells, CellOk (cd c))
    {s : Sheet.St α} {off fuel : Nat} {us : List U} {x : Sheet.Data α Note.Note × Sheet.St α} (hs : Sheet.Ready D s)
    (hlen : D.cells.length < 2 ^ 32) (h16 : D.notes.length ≤ 65535) (hn : ∀ n ∈ D.notes, n.full.length ≤ 3900)
    (hd : Sheet.drain (Sheet.next (Note.env cd cs)) fuel off 0 (D, s) = .done us x) :
    ∃ rs, ShowsL pos us rs ∧ IsSub (Sheet.bofPayload 0x10) rs := by
  obtain ⟨bs, hb, rfl, _⟩ := Sheet.drain_done hs hlen h16 hd
  obtain ⟨mid, hm, hsec, hdr, hcl⟩ := layout_mid (Note.env cd cs) D s.spid off bs
  obtain ⟨rs, hrs, hin⟩ : ∃ rs, ShowsL pos (mid.map (Sheet.Ev.unit (Note.env cd cs) D)) rs ∧ ∀ r ∈ rs, Inner r := by
    refine showsL_of _ ?_
    intro u hu
    obtain ⟨e, he, rfl⟩ := List.mem_map.mp hu
    refine ev_shows D e (fun c h => hc c ?_) (hsec e he).1 (hsec e he).2 fun sp i n h => hn n (hdr e he sp i n h)
    rw [h] at he
    rw [← Rows.blocks_cells _ _ _ hb, ← Rows.cellsIn_blocks]
    exact mem_cellsIn (hcl c he)
  have hb : Shows pos ((Sheet.Ev.bof : Sheet.Ev α Note.Note).unit (Note.env cd cs) D) [(0x809, Sheet.bofPayload 0x10)] := by
    have := Shows.one (pos := pos) (u := (Sheet.Ev.bof : Sheet.Ev α Note.Note).unit (Note.env cd cs) D) rfl (by decide) rfl rfl
    simpa [splitRec, Sheet.bofPayload, maxRec] using this
  have he : Shows pos ((Sheet.Ev.eof : Sheet.Ev α Note.Note).unit (Note.env cd cs) D) [(0x0A, [])] := by
    have := Shows.one (pos := pos) (u := (Sheet.Ev.eof : Sheet.Ev α Note.Note).unit (Note.env cd cs) D) rfl (by decide) rfl rfl
    simpa [splitRec, maxRec] using this
  rw [hm]
  refine ⟨(0x809, Sheet.bofPayload 0x10) :: rs ++ [(0x0A, [])], ?_, ⟨rs, rfl, hin⟩⟩
  have := ShowsL.cons hb (hrs.append (.cons he .nil))
  simpa using this

end Xls.Save
