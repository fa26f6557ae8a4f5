import Verif.Save.Props
/-
When the records of a sheet fit without CONTINUE records, and a sheet for which they do not.
-/
namespace Xls.Rows
open Xls.Cells

variable {α : Type}

theorem heightsOn_nil (cells : List (Cell α)) : HeightsOnCells cells [] := by intro h hh; simp at hh

/-- The INDEX record has one entry for each 16 rows with cells. -/
theorem rbSizes_count (gsize : Cell α → Nat) (cur : List (Cell α)) (hs : RowSorted cur) :
    (nums (items cur [])).length ≤ 16 * (rbSizes gsize cur).length ∧
      16 * (rbSizes gsize cur).length ≤ (nums (items cur [])).length + 15 := by
  match hcur : cur with
  | [] => rw [rbSizes]; simp [items_nil, nums]
  | c :: r =>
    obtain ⟨its, cur', hts', F⟩ := blockFacts c r [] hs .nil
    have hterm : cur'.length < (c :: r).length := by
      have := takeRows_shrinks 15 c r []
      rw [F.eq] at this
      simp only [List.length_nil, Nat.add_zero] at this
      omega
    have hnil : hts' = [] := by
      cases hts' with
      | nil => rfl
      | cons h t => have := F.spec.sub h (by simp); simp at this
    subst hnil
    have hloop := (sizeLoop_takeRows gsize 15 c r [] hs .nil (heightsOn_nil _) 1 0 0 rfl).resolve_right (by omega)
    rw [sizeLoop, if_neg (by simp)] at hloop
    rw [F.eq] at hloop
    simp only [Nat.zero_add] at hloop
    have hl : its.length ≤ 16 := by
      have := takeRows_length 16 (c :: r) []
      rw [F.eq] at this
      exact this
    have hl0 : 0 < its.length := by
      have : (takeRows 16 (c :: r) []).1 ≠ [] := by simp [takeRows]
      rw [F.eq] at this
      exact List.length_pos_iff.mpr this
    obtain ⟨i1, i2⟩ := rbSizes_count gsize cur' F.spec.sorted
    rw [F.next, rbSizes]
    simp only [hloop, List.length_append, List.length_cons]
    have hn : (nums its).length = its.length := by simp [nums]
    rw [hn]
    refine ⟨by omega, ?_⟩
    rcases F.full with h | h
    · subst h
      rw [rbSizes] at i2 ⊢
      simp only [List.length_nil]
      omega
    · omega
termination_by cur.length
decreasing_by subst hcur; exact hterm

/-- Strictly increasing numbers below `n`. -/
theorem incr_length (l : List Nat) (n : Nat) (h : l.Pairwise (· < ·)) (hb : ∀ x ∈ l, x < n) : l.length ≤ n := by
  induction l generalizing n with
  | nil => simp
  | cons a r ih =>
    obtain ⟨h1, h2⟩ := List.pairwise_cons.mp h
    have : ∀ (l : List Nat) (a : Nat), l.Pairwise (· < ·) → (∀ x ∈ l, a < x ∧ x < n) → l.length + a + 1 ≤ n ∨ l = [] := by
      intro l
      induction l with
      | nil => intro a _ _; exact .inr rfl
      | cons b t iht =>
        intro a hp hx
        left
        obtain ⟨p1, p2⟩ := List.pairwise_cons.mp hp
        have hb' := hx b (by simp)
        rcases iht b p2 (fun x hx' => ⟨p1 x hx', (hx x (by simp [hx'])).2⟩) with h | h
        · simp only [List.length_cons]; omega
        · subst h; simp only [List.length_cons, List.length_nil]; omega
    have ha := hb a (by simp)
    rcases this r a h2 (fun x hx => ⟨h1 x hx, hb x (by simp [hx])⟩) with h | h
    · simp only [List.length_cons]; omega
    · subst h; simp only [List.length_cons, List.length_nil]; omega

/-- One row has at most 256 cells. -/
theorem row_cells (l : List (Cell α)) (ho : Ordered Cell.key l) (n : Nat) (hr : ∀ x ∈ l, x.row = n) (hc : ∀ x ∈ l, x.col < 256) :
    l.length ≤ 256 := by
  have := incr_length (l.map (·.col)) 256 (by
    rw [List.pairwise_map]
    refine ho.imp_of_mem ?_
    intro a b ha hb h
    rw [klt_iff] at h
    rcases h with h | h
    · have e1 := hr a ha; have e2 := hr b hb
      simp only [Cell.key] at h; omega
    · exact h.2) (by simpa using hc)
  simpa using this

theorem cellsOf_le (its : List (Item α)) (h : ∀ it ∈ its, it.here.length ≤ 256) : (cellsOf its).length ≤ 256 * its.length := by
  induction its with
  | nil => simp [cellsOf]
  | cons a r ih =>
    have h1 := h a (by simp)
    have h2 := ih fun it hit => h it (by simp [hit])
    simp only [cellsOf, List.flatMap_cons, List.length_append, List.length_cons] at h2 ⊢
    omega

theorem sublist_flatMap {β γ : Type} (f : β → List γ) {l : List β} {x : β} (h : x ∈ l) : (f x).Sublist (l.flatMap f) := by
  induction l with
  | nil => simp at h
  | cons a r ih =>
    rw [List.flatMap_cons]
    rcases List.mem_cons.mp h with rfl | h
    · exact List.sublist_append_left _ _
    · exact (ih h).trans (List.sublist_append_right _ _)

/-- A row block has at most 4097 cells. -/
theorem block_cells (cur : List (Cell α)) (hts : List RowHeight) (hs : Ordered Cell.key cur) (hh : HtSorted hts)
    (hc : ∀ x ∈ cur, x.col < 256) (bs : List (Block α)) (h : blocks cur hts = some bs) : ∀ b ∈ bs, b.cells.length ≤ 4097 := by
  match hcur : cur with
  | [] => rw [blocks] at h; cases h; simp
  | c :: r =>
    obtain ⟨its, cur', hts', F⟩ := blockFacts c r hts (rowSorted_of_ordered hs) hh
    have hterm : cur'.length + hts'.length < (c :: r).length + hts.length := by
      have := takeRows_shrinks 15 c r hts
      rw [F.eq] at this
      exact this
    have hl : its.length ≤ 16 := by
      have := takeRows_length 16 (c :: r) hts
      rw [F.eq] at this
      exact this
    have hits : (cellsOf its).length ≤ 4096 := by
      have := cellsOf_le its (by
        intro it hit
        have hsub : it.here.Sublist (c :: r) := by
          rw [← F.split]
          exact (sublist_flatMap Item.here hit).trans (List.sublist_append_left _ _)
        exact row_cells it.here (List.Pairwise.sublist hsub hs) it.num (F.spec.here it hit) fun x hx => hc x (hsub.subset hx))
      omega
    rw [blocks] at h
    simp only [F.eq] at h
    by_cases h1 : cellsOf its = [] ∧ cur'.length ≠ 1
    · rw [if_pos h1] at h; simp at h
    · rw [if_neg h1] at h
      by_cases h2 : cur'.length = 1
      · rw [if_pos h2] at h
        cases h
        intro b hb
        rw [List.mem_singleton.mp hb]
        show (c :: r).length ≤ 4097
        rw [← F.split, List.length_append]
        omega
      · rw [if_neg h2] at h
        obtain ⟨bs', h', rfl⟩ := Option.map_eq_some_iff.mp h
        have hsub : cur'.Sublist (c :: r) := by rw [← F.split]; exact List.sublist_append_right _ _
        have := block_cells cur' hts' (List.Pairwise.sublist hsub hs) F.spec.sortedHts (fun x hx => hc x (hsub.subset hx)) bs' h'
        intro b hb
        rcases List.mem_cons.mp hb with rfl | hb
        · show (cellsOf its).length ≤ 4097
          omega
        · exact this b hb
termination_by cur.length + hts.length
decreasing_by subst hcur; exact hterm

end Xls.Rows

namespace Xls.Save
open Xls.Biff Xls.Book Xls.Unit Xls.Cells

variable {α : Type}

/-- Limits below which no record of a sheet needs a CONTINUE record: 256 columns, 32832 rows with cells, cells, comments, hyperlinks and
    validations whose own records fit. -/
structure SmallSheet (cd : Cell α → Bytes) (D : Sheet.Data α Note.Note) : Prop where
  ordered : Ordered Cell.key D.cells
  sorted : Rows.HtSorted D.heights
  cols : ∀ c ∈ D.cells, c.col < 256
  rows : ∀ R, Rows.RowList D.cells [] R → R.length ≤ 32832
  cells : ∀ c ∈ D.cells, (cd c).length ≤ 8228
  notes : ∀ n ∈ D.notes, n.full.length ≤ 3900 ∧ n.author.length ≤ 3900
  dimension : D.dimension.length ≤ 8224
  links : ∀ l ∈ D.links, l.url.length + l.mark.length ≤ 4000
  dvals : ∀ v ∈ D.dvals, (Sheet.dvPayload v).length ≤ 8224

theorem rowList_items (cells : List (Cell α)) (hs : Rows.RowSorted cells) :
    Rows.RowList cells [] (Rows.nums (Rows.items cells [])) :=
  ⟨Rows.items_incr _ _ hs .nil, fun n => Rows.mem_items _ _ hs .nil n⟩

theorem flatMap_leN_length {β : Type} (k : Nat) (f : β → Nat) (l : List β) : (l.flatMap fun x => leN k (f x)).length = k * l.length := by
  induction l with
  | nil => simp
  | cons a r ih => simp only [List.flatMap_cons, List.length_append, leN_length, ih, List.length_cons, Nat.mul_succ]; omega

theorem flatMap_leN_length' (k : Nat) (l : List Nat) : (l.flatMap (leN k)).length = k * l.length := flatMap_leN_length k id l

theorem rects_length (l : List Sheet.Rect) :
    (l.flatMap fun r => leN 2 r.firstRow ++ leN 2 r.lastRow ++ leN 2 r.firstCol ++ leN 2 r.lastCol).length = 8 * l.length := by
  induction l with
  | nil => simp
  | cons a r ih => simp only [List.flatMap_cons, List.length_append, leN_length, ih, List.length_cons, Nat.mul_succ]; omega

theorem indexPayload_length (gsize : Cell α → Nat) (pos n : Nat) (cells : List (Cell α)) (a b : Nat) :
    (Rows.indexPayload a b (Rows.indexOffsets gsize pos n cells)).length = 16 + 4 * (Rows.rbSizes gsize cells).length := by
  simp only [Rows.indexPayload, Rows.indexOffsets, List.length_append, leN_length, flatMap_leN_length', List.length_cons, Rows.indexLoop_length]
  omega

theorem drawing_small (i k sp j : Nat) (n : Note.Note) (hl : n.full.length ≤ 3900) : (Note.drawing i k sp j n).length ≤ 8228 := by
  have hs := Note.str_nolen_length n.full
  simp only [Note.drawing_enc _ _ _ _ _ (show (strBytes n.full .nolen).length < 65536 by omega), Note.unitRecords,
        List.flatMap_cons, List.flatMap_nil, List.length_append, enc, leN_length, Note.drawingText_length, Note.objData_length,
        Note.textbox_length, Note.txoData_length, Note.runData_length, List.length_nil]
  split
  · rw [Note.drawingContainer_length]; omega
  · rw [List.length_nil]; omega

/-- No record of such a sheet is above 8224 bytes. -/
theorem sheet_small {cd : Cell α → Bytes} {cs : Cell α → Nat} {D : Sheet.Data α Note.Note} (hsm : SmallSheet cd D)
    {s : Sheet.St α} {off fuel : Nat} {us : List U} {x : Sheet.Data α Note.Note × Sheet.St α} (hs : Sheet.Ready D s)
    (hlen : D.cells.length < 2 ^ 32) (h16 : D.notes.length ≤ 65535)
    (hd : Sheet.drain (Sheet.next (Note.env cd cs)) fuel off 0 (D, s) = .done us x) : ∀ u ∈ us, u.data.length ≤ 8228 := by
  obtain ⟨bs, hb, rfl, _⟩ := Sheet.drain_done hs hlen h16 hd
  intro u hu
  obtain ⟨e, he, rfl⟩ := List.mem_map.mp hu
  show (e.bytes (Note.env cd cs) D).length ≤ 8228
  simp only [Sheet.layout, List.mem_append, List.mem_cons, List.not_mem_nil, or_false, List.mem_map] at he
  rcases he with (((((((((( rfl | rfl | rfl) | ⟨c, hc, rfl⟩) | (rfl | rfl)) | ⟨c, hc, rfl⟩) | (h | h)) | ⟨c, hc, rfl⟩) | rfl) | h) | ⟨c, hc, rfl⟩) | h) | rfl
  · simp [Sheet.Ev.bytes, Sheet.bofPayload, enc_length]
  · simp only [Sheet.Ev.bytes, enc_length, indexPayload_length]
    obtain ⟨_, h2⟩ := Rows.rbSizes_count (Note.env cd cs).cellSize D.cells (Rows.rowSorted_of_ordered hsm.ordered)
    have := hsm.rows _ (rowList_items _ (Rows.rowSorted_of_ordered hsm.ordered))
    omega
  · simp [Sheet.Ev.bytes, Sheet.defRowHeightPayload, enc_length]
  · simp [Sheet.Ev.bytes, Sheet.colinfoPayload, enc_length]
  · simp [Sheet.Ev.bytes, enc_length]
  · simp only [Sheet.Ev.bytes, enc_length]; have := hsm.dimension; omega
  · obtain ⟨b, hbm, hcm⟩ := List.mem_flatMap.mp hc
    have hcells := Rows.block_cells _ _ hsm.ordered hsm.sorted hsm.cols bs hb b hbm
    simp only [Rows.Block.evs, List.mem_append, List.mem_map, List.mem_singleton] at hcm
    rcases hcm with (⟨it, _, rfl⟩ | ⟨y, hy, rfl⟩) | rfl
    · simp [Sheet.Ev.bytes, Rows.Item.ev, Rows.Ev.bytes, Rows.rowPayload, enc_length]
    · have hmem : y ∈ D.cells := by
        rw [← Rows.blocks_cells _ _ bs hb]
        exact List.mem_flatMap.mpr ⟨b, hbm, hy⟩
      exact hsm.cells y hmem
    · simp only [Sheet.Ev.bytes, Rows.Ev.bytes, Rows.dbcellPayload, enc_length, List.length_append, leN_length, flatMap_leN_length',
        Rows.offsOf_length]
      omega
  · obtain ⟨sp, i, n, rfl, hn⟩ := drawEvs_note h
    exact drawing_small _ _ _ _ n (hsm.notes n hn).1
  · have : ∀ (l : List Note.Note) k, e ∈ Sheet.noteEvs (α := α) k l → ∃ i n, e = .note i n ∧ n ∈ l := by
      intro l
      induction l with
      | nil => intro k h; simp [Sheet.noteEvs] at h
      | cons a r ih =>
        intro k h
        simp only [Sheet.noteEvs, List.mem_cons] at h
        rcases h with h | h
        · exact ⟨_, a, h, by simp⟩
        · obtain ⟨i, n, e, hn⟩ := ih _ h
          exact ⟨i, n, e, by simp [hn]⟩
    obtain ⟨i, n, rfl, hn⟩ := this _ _ h
    have ha := (hsm.notes n hn).2
    have hsz : (strBytes n.author .len2).length ≤ 2 * n.author.length + 3 := by
      rw [c04_string_size]; simp only [unicodeStringLength]; split <;> omega
    show (enc (0x1C, Note.notePayload i n)).length ≤ 8228
    simp only [enc_length, Note.notePayload, List.length_append, leN_length, List.length_cons, List.length_nil]
    omega
  · have := (Book.chunks_mem (by omega) D.merged c hc).2
    simp only [Sheet.Ev.bytes, Sheet.mergedPayload, enc_length, List.length_append, leN_length, rects_length]
    omega
  · simp [Sheet.Ev.bytes, Sheet.window2Payload, enc_length]
  · split at h
    · simp only [List.mem_singleton] at h
      subst h
      simp [Sheet.Ev.bytes, Sheet.panePayload, enc_length]
    · simp at h
  · have := hsm.links c hc
    simp only [Sheet.Ev.bytes, Sheet.hlinkPayload, enc_length, List.length_append, leN_length, flatMap_leN_length, Sheet.stdLinkGUID,
      Sheet.urlMonikerGUID, List.length_cons, List.length_nil]
    split
    · simp only [List.length_append, leN_length, flatMap_leN_length]; omega
    · simp only [List.length_nil]; omega
  · unfold Sheet.dvEvs at h
    split at h
    · simp at h
    · rcases List.mem_cons.mp h with rfl | h
      · simp [Sheet.Ev.bytes, Sheet.dvalPayload, enc_length]
      · obtain ⟨v, hv, rfl⟩ := List.mem_map.mp h
        have := hsm.dvals v hv
        simp only [Sheet.Ev.bytes, enc_length]
        omega
  · simp [Sheet.Ev.bytes, enc_length]

/-- The negation of C22 for large sheets: if a sheet has more than 32832 rows with cells (a sheet may have 65536), its INDEX record needs
    a CONTINUE record, and the sheet table is wrong about every later sheet. -/
theorem c22_many_rows (cd : Cell α → Bytes) (cs : Cell α → Nat) (D : Globals.Data) (gs : Globals.St)
    (sheets : List (Sheet.Data α Note.Note × Sheet.St α)) (s s' : Book.St (Globals.Data × Globals.St) (Sheet.Data α Note.Note × Sheet.St α))
    (us : List U) (fuel : Nat) (hok : Saveable cd D gs sheets) (hs : start (D, gs) sheets s)
    (h : Book.run Globals.next (Sheet.next (Note.env cd cs)) fuel s = .done us s') (j : Nat) (sh : Sheet.Data α Note.Note × Sheet.St α)
    (hj : sheets[j]? = some sh) (ho : Ordered Cell.key sh.1.cells) (R : List Nat) (hR : Rows.RowList sh.1.cells [] R) (hmany : 32832 < R.length)
    (hrow : ∀ c ∈ sh.1.cells, c.row < 65536) :
    ∃ bs rs G Rs, stream us s'.bpos = some bs ∧ records bs = some rs ∧ substreams rs = some (G :: Rs) ∧
      ∀ i < sheets.length, j < i → ∃ x, (positions G)[i]? = some (some x) ∧ x ≠ startOf G Rs i := by
  obtain ⟨bs, rs, G, Rs, gus, g', uss, offs, h1, h2, h3, h4, h5, h6, h7⟩ := c22_positions_partial cd cs D gs sheets s s' us fuel hok hs h
  refine ⟨bs, rs, G, Rs, h1, h2, h3, ?_⟩
  intro i hi hji
  obtain ⟨ha, hb, _⟩ := h7 i hi
  refine ⟨_, hb, ?_⟩
  obtain ⟨hu, hv, hof, hst, hoff⟩ := sheetsTrace_parts h5
  have hjl : j < uss.length := by rw [hu]; omega
  obtain ⟨sh2, sh2', o, wl, a, b, c, d⟩ := hst j uss[j] (by simp [hjl])
  have : sh2 = sh := by rw [hj] at a; exact (Option.some.inj a).symm
  subst this
  obtain ⟨r1, r2, r3⟩ := hok.ready sh2 (List.mem_of_getElem? hj)
  obtain ⟨f, hd⟩ := d.drain
  obtain ⟨bl, hbl, hus, _⟩ := Sheet.drain_done r1 r2 r3 hd
  have hsort := Rows.rowSorted_of_ordered ho
  have hRe : R = Rows.nums (Rows.items sh2.1.cells []) :=
    Rows.incr_unique hR.incr (Rows.items_incr _ _ hsort .nil) fun n => (hR.mem n).trans (Rows.mem_items _ _ hsort .nil n).symm
  obtain ⟨c1, c2⟩ := Rows.rbSizes_count (Note.env cd cs).cellSize sh2.1.cells hsort
  rw [← hRe] at c1 c2
  have hRl : R.length ≤ 65536 := Rows.incr_length R 65536 hR.incr (by
    intro n hn
    rcases (hR.mem n).mp hn with ⟨c, hc, rfl⟩ | ⟨⟨h, hh, _⟩, _⟩
    · exact hrow c hc
    · simp at hh)
  generalize hn : (Rows.rbSizes (Note.env cd cs).cellSize sh2.1.cells).length = n at c1 c2
  obtain ⟨u, hum, hul⟩ : ∃ u : U, u ∈ uss[j] ∧ tailHeader u = 4 := by
    refine ⟨Sheet.Ev.unit (Note.env cd cs) sh2.1 (.index (Sheet.indexRows sh2.1.cells).1 (Sheet.indexRows sh2.1.cells).2
      (Rows.indexOffsets (Note.env cd cs).cellSize (o + 20) sh2.1.cols.length sh2.1.cells)), ?_, ?_⟩
    · rw [hus]
      refine List.mem_map_of_mem ?_
      simp [Sheet.layout]
    · generalize hw : Sheet.Ev.unit (Note.env cd cs) sh2.1 (.index (Sheet.indexRows sh2.1.cells).1 (Sheet.indexRows sh2.1.cells).2
        (Rows.indexOffsets (Note.env cd cs).cellSize (o + 20) sh2.1.cols.length sh2.1.cells)) = w
      have hp : w.paySize = 16 + 4 * n := by
        rw [← hw]
        simp only [U.paySize, Sheet.Ev.unit, Sheet.Ev.bytes, enc_length, indexPayload_length, hn]
        omega
      have hov : w.oversize = true := by
        rw [U.oversize, hp, show w.cont = false by rw [← hw]; rfl]
        exact decide_eq_true (show 16 + 4 * n > 8224 by omega)
      rw [tailHeader, if_pos ⟨hov, by rw [hp]; simp only [maxRec]; omega⟩]
  have hl : 4 ≤ leftOut gus uss i := by
    have e1 : tailHeader u ≤ (uss[j].map tailHeader).sum := sum_ge tailHeader uss[j] u hum
    have hmem : uss[j] ∈ uss.take i := by
      rw [List.mem_take_iff_getElem]
      exact ⟨j, by omega, rfl⟩
    have e2 := sum_ge (fun us : List U => (us.map tailHeader).sum) (uss.take i) _ hmem
    unfold leftOut
    omega
  have := Nat.mod_le (startOf G Rs i - leftOut gus uss i) (2 ^ 32)
  omega

end Xls.Save
