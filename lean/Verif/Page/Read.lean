import Verif.Page.Lemmas
import Verif.Note.Boxes
/-
What a reader finds in the records of a saved sheet, in terms of the sheet's data when it was saved.
-/
namespace Xls.Page
open Xls.Biff Xls.Sheet Xls.Cells Xls.Book Xls.Save

variable {α : Type}

/-- The limits of the file format for a sheet's data. -/
structure InRange (D : Data α Note.Note) : Prop where
  cols : ∀ c ∈ D.cols, c.first < 65536 ∧ c.last < 65536 ∧ c.width < 65536 ∧ c.xf.getD 15 < 65536
  merged : ∀ r ∈ D.merged, r.firstRow < 65536 ∧ r.lastRow < 65536 ∧ r.firstCol < 65536 ∧ r.lastCol < 65536
  links : ∀ l ∈ D.links, l.row < 65536 ∧ l.col < 65536 ∧ l.url.length < 2 ^ 30 ∧ l.mark.length < 2 ^ 30
  dvals : ∀ v ∈ D.dvals, v.options < 2 ^ 32 ∧ v.promptTitle.length < 65536 ∧ v.errorTitle.length < 65536 ∧ v.promptText.length < 65536 ∧
    v.errorText.length < 65536 ∧
    (∀ n bs, v.cond1 = some (n, bs) → n = bs.length ∧ n < 65536) ∧ (∀ n bs, v.cond2 = some (n, bs) → n = bs.length ∧ n < 65536) ∧
    v.rect.firstRow < 65536 ∧ v.rect.lastRow < 65536 ∧ v.rect.firstCol < 65536 ∧ v.rect.lastCol < 65536
  few : D.dvals.length < 2 ^ 32
  notes : ∀ n ∈ D.notes, n.row.toNat < 65536 ∧ n.col.toNat < 65536 ∧ n.author.length < 65536
  split : D.rowSplit < 65536 ∧ D.colSplit < 65536

/-- The page that such a sheet is saved as. -/
def pageOf (D : Data α Note.Note) : Page where
  rowHeight := D.defRowHeight * 20 % 65536
  rowsHidden := false
  colWidth := D.defColWidth % 65536
  columns := D.cols.map fun c => (c.first, c.last, c.width, c.xf.getD 15)
  merged := D.merged
  selected := D.active
  displayed := D.active
  pane := if D.rowSplit ≠ 0 ∨ D.colSplit ≠ 0 then
    some ⟨D.rowSplit, D.colSplit, D.rowSplit, D.colSplit, if D.rowSplit ≠ 0 then (if D.colSplit ≠ 0 then 0 else 2) else 1⟩ else none
  links := D.links
  validations := D.dvals.map fun v => ⟨v.options, v.promptTitle, v.errorTitle, v.promptText, v.errorText, condTokens v.cond1, condTokens v.cond2, [v.rect]⟩
  comments := D.notes.map fun n => ⟨n.row.toNat, n.col.toNat, n.author, n.author ++ [58, 10] ++ n.text⟩
  boxes := D.notes.map fun n => ⟨n.row.toNat, n.col.toNat, n.box⟩
  view := ⟨false, true, true, true, false, true, false, 0, 0, 64, 0, 0⟩
  letters := D.notes.map fun n => ⟨n.row.toNat, n.col.toNat, ⟨1, 1, 0, [(0, 1), (n.author.length + 2, 0), (n.full.length, 0)]⟩⟩

theorem mapM_all {β γ : Type} {f : β → Option γ} {g : β → γ} (l : List β) (h : ∀ x ∈ l, f x = some (g x)) : l.mapM f = some (l.map g) := by
  induction l with
  | nil => rfl
  | cons a r ih => rw [List.mapM_cons, h a (by simp), ih (fun x hx => h x (by simp [hx]))]; rfl

theorem flatMap_single {β γ : Type} (f : β → γ) (l : List β) : (l.flatMap fun x => [f x]) = l.map f := by
  induction l with
  | nil => rfl
  | cons a r ih => simp [ih]

theorem defRow_read (h : Nat) : readDefRow (defRowHeightPayload h) = some (h * 20 % 65536, false) := by
  have e : defRowHeightPayload h = leN 2 (if h = 15 then 0 else 1) ++ (leN 2 (h * 20) ++ []) := by simp [defRowHeightPayload]
  unfold readDefRow
  rw [e, takeLE_leN_append, Option.bind_some]
  simp only [takeLE_leN_append, Option.bind_some, if_true]
  by_cases h15 : h = 15
  · subst h15; rfl
  · rw [if_neg h15]; rfl

theorem defCol_read (w : Nat) : readDefCol (leN 2 w) = some (w % 65536) := by
  have e : leN 2 w = leN 2 w ++ [] := by simp
  unfold readDefCol
  rw [e, takeLE_leN_append, Option.bind_some]
  rfl

theorem pane_read (r c : Nat) (hr : r < 65536) (hc : c < 65536) :
    readPane (panePayload r c) = some ⟨r, c, r, c, if r ≠ 0 then (if c ≠ 0 then 0 else 2) else 1⟩ := by
  have e : panePayload r c = leN 2 c ++ (leN 2 r ++ (leN 2 r ++ (leN 2 c ++ (leN 2 (if r ≠ 0 then (if c ≠ 0 then 0 else 2) else 1) ++ [])))) := by
    simp [panePayload]
  unfold readPane
  rw [e]
  simp only [takeLE_leN_append, Option.bind_some, if_true]
  rw [Nat.mod_eq_of_lt (show r < 256 ^ 2 by omega), Nat.mod_eq_of_lt (show c < 256 ^ 2 by omega)]
  by_cases h1 : r = 0
  · simp [h1]
  · by_cases h2 : c = 0
    · simp [h1, h2]
    · simp [h1, h2]

theorem note_read (k : Nat) (n : Note.Note) (h1 : n.row.toNat < 65536) (h2 : n.col.toNat < 65536) (h3 : n.author.length < 65536) (hk : k + 1 < 65536) :
    Spec.readNote (Note.notePayload k n) = some ⟨n.row.toNat, n.col.toNat, k + 1, n.author⟩ := by
  unfold Note.notePayload Spec.readNote
  simp only [List.append_assoc, takeLE_leN_append, Unit.c04_len2_roundtrip n.author [0] (by omega)]
  rw [show n.row.toNat % 65536 % 256 ^ 2 = n.row.toNat by omega, show n.col.toNat % 65536 % 256 ^ 2 = n.col.toNat by omega,
    show (k + 1) % 65536 % 256 ^ 2 = k + 1 by omega]

/-- The boxes of the comments from number `k` on. -/
theorem boxes_read {recs : Cell α → List Rec} {D : Data α Note.Note} (l : List Note.Note) : ∀ (sp k : Nat), (∀ n ∈ l, n.full.length ≤ 3900) → k + l.length ≤ 65535 →
    boxes ((drawEvs sp k l : List (Ev α Note.Note)).flatMap fun e => (evLog recs D e).filter fun r => r.1 == 0x5D || r.1 == 0x1B6) =
      some ((l.zipIdx k).map fun p => (p.2 + 1, p.1.full)) := by
  induction l with
  | nil => intro sp k _ _; rfl
  | cons n r ih =>
    intro sp k h hk
    rw [List.length_cons] at hk
    have he : (evLog recs D (.drawing sp k n)).filter (fun r => r.1 == 0x5D || r.1 == 0x1B6) =
        [(0x5D, [Note.objData k]), (0x1B6, [Note.txoData n, Unit.strBytes n.full .nolen, Note.runData n])] := by
      simp [evLog, Note.unitRecords, pieces]
    have hc : Spec.readComment [(0xEC, []), (0x5D, Note.objData k), (0xEC, []), (0x1B6, Note.txoData n), (0x3C, Unit.strBytes n.full .nolen), (0x3C, Note.runData n)] =
        some ⟨k + 1, n.full, [(0, 1), (n.author.length + 2, 0), (n.full.length, 0)]⟩ := by
      have := Note.unit_comment 0 0 sp k n (by have := h n (by simp); omega)
      rw [Nat.mod_eq_of_lt (by omega)] at this
      rw [← this]
      rfl
    rw [drawEvs, List.flatMap_cons, he]
    simp only [List.cons_append, List.nil_append, boxes, hc, Option.bind_some]
    rw [ih _ _ (fun x hx => h x (by simp [hx])) (by omega)]
    rfl

/-- How their texts are set. -/
theorem letterings_read {recs : Cell α → List Rec} {D : Data α Note.Note} (l : List Note.Note) : ∀ (sp k : Nat), (∀ n ∈ l, n.full.length ≤ 3900) → k + l.length ≤ 65535 →
    letterings ((drawEvs sp k l : List (Ev α Note.Note)).flatMap fun e => (evLog recs D e).filter fun r => r.1 == 0x5D || r.1 == 0x1B6) =
      some ((l.zipIdx k).map fun p => (p.2 + 1, ⟨1, 1, 0, [(0, 1), (p.1.author.length + 2, 0), (p.1.full.length, 0)]⟩)) := by
  induction l with
  | nil => intro sp k _ _; rfl
  | cons n r ih =>
    intro sp k h hk
    rw [List.length_cons] at hk
    have he : (evLog recs D (.drawing sp k n)).filter (fun r => r.1 == 0x5D || r.1 == 0x1B6) =
        [(0x5D, [Note.objData k]), (0x1B6, [Note.txoData n, Unit.strBytes n.full .nolen, Note.runData n])] := by
      simp [evLog, Note.unitRecords, pieces]
    have hc : Spec.readComment [(0xEC, []), (0x5D, Note.objData k), (0xEC, []), (0x1B6, Note.txoData n), (0x3C, Unit.strBytes n.full .nolen), (0x3C, Note.runData n)] =
        some ⟨k + 1, n.full, [(0, 1), (n.author.length + 2, 0), (n.full.length, 0)]⟩ := by
      have := Note.unit_comment 0 0 sp k n (by have := h n (by simp); omega)
      rw [Nat.mod_eq_of_lt (by omega)] at this
      rw [← this]
      rfl
    have h0 : rdLE 2 (Note.txoData n) 0 = some 0x0212 := rfl
    have h2 : rdLE 2 (Note.txoData n) 2 = some 0 := rfl
    rw [drawEvs, List.flatMap_cons, he]
    simp only [List.cons_append, List.nil_append, letterings, hc, h0, h2, Option.bind_some]
    rw [ih _ _ (fun x hx => h x (by simp [hx])) (by omega)]
    rfl

theorem lookup_zip {β : Type} (f : Note.Note → β) (l : List Note.Note) : ∀ (k j : Nat) (n : Note.Note), (n, j) ∈ l.zipIdx k →
    ((l.zipIdx k).map fun p => (p.2 + 1, f p.1)).lookup (j + 1) = some (f n) := by
  induction l with
  | nil => intro k j n h; simp at h
  | cons a r ih =>
    intro k j n h
    rw [List.zipIdx_cons] at h ⊢
    rw [List.map_cons, List.lookup_cons]
    rcases List.mem_cons.mp h with h | h
    · simp only [Prod.mk.injEq] at h
      obtain ⟨rfl, rfl⟩ := h
      simp
    · have : k + 1 ≤ j := (List.mem_zipIdx h).1
      have hb : (j + 1 == k + 1) = false := by simp; omega
      rw [hb]
      exact ih (k + 1) j n h

theorem noteEvs_map {recs : Cell α → List Rec} {D : Data α Note.Note} (l : List Note.Note) : ∀ k,
    ((noteEvs k l : List (Ev α Note.Note)).flatMap fun e => ofType 0x1C (evLog recs D e)) = (l.zipIdx k).map fun p => Note.notePayload p.2 p.1 := by
  induction l with
  | nil => intro k; rfl
  | cons n r ih =>
    intro k
    rw [noteEvs, List.flatMap_cons, ih, List.zipIdx_cons, List.map_cons]
    simp only [evLog, ofType_whole]
    rfl

theorem unit_drawing (sheet count sp k : Nat) (n : Note.Note) :
    (ofType 0xEC (pieces (Note.unitRecords sheet count sp k n)).2).flatten = Spec.drawingBytes (Note.unitRecords sheet count sp k n) ∧
      ofType 0xEC (pieces (Note.unitRecords sheet count sp k n)).2 ≠ [] := by
  simp [Note.unitRecords, pieces, ofType, Spec.drawingBytes]

theorem draw_flat (recs : Cell α → List Rec) (D : Data α Note.Note) (l : List Note.Note) : ∀ sp k,
    (((drawEvs sp k l : List (Ev α Note.Note)).flatMap fun e => ofType 0xEC (evLog recs D e)).flatten =
      Spec.drawingBytes (Note.recsFrom D.index D.notes.length sp k l)) ∧
    (((drawEvs sp k l : List (Ev α Note.Note)).flatMap fun e => ofType 0xEC (evLog recs D e)) = [] ↔ l = []) := by
  induction l with
  | nil => intro sp k; simp [drawEvs, Note.recsFrom, Spec.drawingBytes]
  | cons n r ih =>
    intro sp k
    obtain ⟨h1, h2⟩ := unit_drawing D.index D.notes.length sp k n
    rw [drawEvs, List.flatMap_cons, Note.recsFrom, Note.drawingBytes_append, List.flatten_append, (ih _ _).1]
    refine ⟨by rw [← h1]; rfl, ?_⟩
    rw [List.append_eq_nil_iff]
    simp only [reduceCtorEq, iff_false, not_and]
    intro h
    exact absurd h h2

theorem objs_map {recs : Cell α → List Rec} {D : Data α Note.Note} (l : List Note.Note) : ∀ sp k,
    ((drawEvs sp k l : List (Ev α Note.Note)).flatMap fun e => ofType 0x5D (evLog recs D e)) = (l.zipIdx k).map fun p => Note.objData p.2 := by
  induction l with
  | nil => intro sp k; rfl
  | cons n r ih =>
    intro sp k
    rw [drawEvs, List.flatMap_cons, ih, List.zipIdx_cons, List.map_cons]
    simp [evLog, Note.unitRecords, pieces, ofType]

theorem obj_number (k : Nat) (hk : k + 1 < 65536) : rdLE 2 (Note.objData k) 6 = some (k + 1) := by
  have := rdLE_at' (i := 6) 2 ((k + 1) % 65536) (leN 2 0x15 ++ leN 2 0x12 ++ leN 2 0x19)
    (leN 2 0x6011 ++ leN 4 0 ++ leN 4 0 ++ leN 4 0 ++ leN 4 0) (by simp only [List.length_append, leN_length])
  rw [Nat.mod_eq_of_lt hk, Nat.mod_eq_of_lt (show k + 1 < 256 ^ 2 from hk)] at this
  unfold Note.objData
  rw [Nat.mod_eq_of_lt hk]
  simp only [List.append_assoc] at this ⊢
  exact this

/-- A saved sheet reads back as its page. -/
theorem page_reads {cd : Cell α → Bytes} {cs : Cell α → Nat} {recs : Cell α → List Rec} {D : Data α Note.Note}
    (hc : ∀ c ∈ D.cells, Whole.CellIs cd c (recs c) ∧ ∀ r ∈ recs c, r.1 ∈ cellTypes) {s : Sheet.St α} {off fuel : Nat} {us : List U}
    {x : Data α Note.Note × Sheet.St α} (hs : Ready D s) (hlen : D.cells.length < 2 ^ 32) (h16 : D.notes.length ≤ 65535)
    (hn : ∀ n ∈ D.notes, n.full.length ≤ 3900) (hd : drain (next (Note.env cd cs)) fuel off 0 (D, s) = .done us x)
    {R : List Rec} (hR : ShowsL (fun _ => none) us R) (hr : InRange D) : readPage R = some (pageOf D) := by
  obtain ⟨bs, hL, hcell, -⟩ := sheet_logical hc hs hlen h16 hn hd hR
  have t1 : once 0x225 (logical R) = some (defRowHeightPayload D.defRowHeight) := by
    unfold once
    rw [hL, ofType_home _ hcell (k := 2) rfl, layout_defRow]
    simp only [List.flatMap_cons, List.flatMap_nil, List.append_nil, evLog, ofType_whole]
  have t2 : once 0x55 (logical R) = some (leN 2 D.defColWidth) := by
    unfold once
    rw [hL, ofType_home _ hcell (k := 4) rfl, layout_defCol]
    simp only [List.flatMap_cons, List.flatMap_nil, List.append_nil, evLog, ofType_whole]
  have t3 : (ofType 0x7D (logical R)).mapM readColInfo = some (D.cols.map fun c => (c.first, c.last, c.width, c.xf.getD 15)) := by
    rw [hL, ofType_home _ hcell (k := 3) rfl, layout_cols, List.flatMap_map]
    simp only [evLog, ofType_whole]
    rw [flatMap_single, List.mapM_map]
    refine mapM_all _ fun c h => ?_
    obtain ⟨a, b, d, e⟩ := hr.cols c h
    show readColInfo (colinfoPayload c) = _
    rw [readColInfo_payload, Nat.mod_eq_of_lt a, Nat.mod_eq_of_lt b, Nat.mod_eq_of_lt d, Nat.mod_eq_of_lt e]
  have t4 : ∃ g, (ofType 0xE5 (logical R)).mapM readMerged = some g ∧ g.flatten = D.merged := by
    refine ⟨chunks 1027 D.merged, ?_, chunks_flatten (by omega) _⟩
    rw [hL, ofType_home _ hcell (k := 9) rfl, layout_merged, List.flatMap_map]
    simp only [evLog, ofType_whole]
    rw [flatMap_single, List.mapM_map]
    have := mapM_all (f := readMerged ∘ mergedPayload) (g := id) (chunks 1027 D.merged) (fun g hg => ?_)
    · rw [List.map_id] at this; exact this
    · obtain ⟨g1, g2⟩ := chunks_mem (n := 1027) (by omega) D.merged g hg
      have hin : ∀ r ∈ g, r ∈ D.merged := fun r hr => by
        rw [← chunks_flatten (n := 1027) (by omega) D.merged]
        exact List.mem_flatten.mpr ⟨g, hg, hr⟩
      show readMerged (mergedPayload g) = some g
      unfold readMerged mergedPayload
      rw [takeLE_leN_append]
      simp only
      rw [Nat.mod_eq_of_lt (by omega)]
      exact readRects_payload g fun r h => hr.merged r (hin r h)
  have t5 : once 0x23E (logical R) = some (window2Payload D.active) := by
    unfold once
    rw [hL, ofType_home _ hcell (k := 10) rfl, layout_window]
    simp only [List.flatMap_cons, List.flatMap_nil, List.append_nil, evLog, ofType_whole]
  have t6 : paneOf true (ofType 0x41 (logical R)) = some (pageOf D).pane := by
    rw [hL, ofType_home _ hcell (k := 11) rfl, layout_pane]
    unfold pageOf
    simp only
    by_cases h : D.rowSplit ≠ 0 ∨ D.colSplit ≠ 0
    · rw [if_pos h, if_pos h]
      simp only [List.flatMap_cons, List.flatMap_nil, List.append_nil, evLog, ofType_whole, paneOf, if_true]
      rw [pane_read _ _ hr.split.1 hr.split.2]
      rfl
    · rw [if_neg h, if_neg h]; rfl
  have t7 : (ofType 0x1B8 (logical R)).mapM readLink = some D.links := by
    rw [hL, ofType_home _ hcell (k := 12) rfl, layout_links, List.flatMap_map]
    simp only [evLog, ofType_whole]
    rw [flatMap_single, List.mapM_map]
    have := mapM_all (f := readLink ∘ hlinkPayload) (g := id) D.links (fun l hl => by
      obtain ⟨a, b, c, d⟩ := hr.links l hl
      simp only [Function.comp_apply, id_eq]
      exact readLink_payload l a b c d)
    rw [List.map_id] at this
    exact this
  have t8 : (ofType 0x1BE (logical R)).mapM readDV = some (pageOf D).validations := by
    rw [hL, ofType_home _ hcell (k := 14) rfl, layout_dvs, List.flatMap_map]
    simp only [evLog, ofType_whole]
    rw [flatMap_single, List.mapM_map]
    refine mapM_all _ fun v hv => ?_
    obtain ⟨a, b1, b2, b3, b4, c1, c2, r⟩ := hr.dvals v hv
    simp only [Function.comp_apply]
    exact readDV_payload v a b1 b2 b3 b4 c1 c2 r
  have t9 : (ofType 0x1B2 (logical R)).map (fun p => rdLE 4 p 14) = if D.dvals = [] then [] else [some D.dvals.length] := by
    rw [hL, ofType_home _ hcell (k := 13) rfl, layout_dvHeader]
    split
    · rfl
    · simp only [List.flatMap_cons, List.flatMap_nil, List.append_nil, evLog, ofType_whole, List.map_cons, List.map_nil]
      have := rdLE_at' (i := 14) 4 D.dvals.length (leN 2 0 ++ leN 4 0 ++ leN 4 0 ++ leN 4 0xFFFFFFFF) [] (by simp)
      rw [List.append_nil] at this
      unfold dvalPayload
      rw [this, Nat.mod_eq_of_lt (by have := hr.few; omega)]
  have t10 : comments (logical R) = some (pageOf D).comments := by
    unfold comments
    have hb : boxes ((logical R).filter fun r => r.1 == 0x5D || r.1 == 0x1B6) = some ((D.notes.zipIdx 0).map fun p => (p.2 + 1, p.1.full)) := by
      rw [hL, filter_home _ hcell 7 _ (by
        intro r h
        simp only [Bool.or_eq_true, beq_iff_eq] at h
        rcases h with h | h <;> rw [h] <;> rfl), Note.layout_draw]
      exact boxes_read D.notes s.spid 0 hn (by omega)
    rw [hb, Option.bind_some, hL, ofType_home _ hcell (k := 8) rfl, Note.layout_note, noteEvs_map, List.mapM_map]
    have := mapM_all (f := (fun p => (Spec.readNote p).bind fun n => (((D.notes.zipIdx 0).map fun p => (p.2 + 1, p.1.full)).lookup n.object).map fun t =>
        (⟨n.row, n.col, n.author, t⟩ : Comment)) ∘ fun p : Note.Note × Nat => Note.notePayload p.2 p.1)
      (g := fun p => (⟨p.1.row.toNat, p.1.col.toNat, p.1.author, p.1.author ++ [58, 10] ++ p.1.text⟩ : Comment)) (D.notes.zipIdx 0) (fun p hp => by
        obtain ⟨n, j⟩ := p
        have hj := List.mem_zipIdx hp
        have hm : n ∈ D.notes := by rw [hj.2.2]; exact List.getElem_mem _
        obtain ⟨a, b, c⟩ := hr.notes n hm
        simp only [Function.comp_apply]
        rw [note_read j n a b c (by omega), Option.bind_some]
        simp only
        rw [lookup_zip Note.Note.full _ _ _ _ hp]
        rfl)
    rw [this]
    unfold pageOf
    simp only
    congr 1
    have hz : D.notes.map (fun n : Note.Note => (⟨n.row.toNat, n.col.toNat, n.author, n.author ++ [58, 10] ++ n.text⟩ : Comment)) =
        ((D.notes.zipIdx 0).map Prod.fst).map fun n => ⟨n.row.toNat, n.col.toNat, n.author, n.author ++ [58, 10] ++ n.text⟩ := by
      rw [List.zipIdx_map_fst]
    rw [hz, List.map_map]
    rfl
  have t11 : boxed (logical R) = some (pageOf D).boxes := by
    have h1 : (if ofType 0xEC (logical R) = [] then some [] else Spec.readBoxes (ofType 0xEC (logical R)).flatten) = some (D.notes.map Note.Note.box) := by
      rw [hL, ofType_home _ hcell (k := 7) rfl, Note.layout_draw]
      obtain ⟨h1, h2⟩ := draw_flat recs D D.notes s.spid 0
      by_cases e : D.notes = []
      · rw [if_pos (h2.mpr e), e]; rfl
      · rw [if_neg fun k => e (h2.mp k), h1, Note.recsFrom_whole _ _ _ e (by omega), Note.boxes_read _ _ _ (by omega)]
    have h2 : ((ofType 0x5D (logical R)).mapM fun p => rdLE 2 p 6) = some ((D.notes.zipIdx 0).map fun p => p.2 + 1) := by
      rw [hL, ofType_home _ hcell (k := 7) rfl, Note.layout_draw, objs_map, List.mapM_map]
      refine mapM_all _ fun p hp => ?_
      have hj := List.mem_zipIdx hp
      exact obj_number _ (by omega)
    have hz : D.notes = (D.notes.zipIdx 0).map Prod.fst := by rw [List.zipIdx_map_fst]
    have h3 : D.notes.map Note.Note.box = (D.notes.zipIdx 0).map fun p => p.1.box := by
      conv => lhs; rw [hz]
      rw [List.map_map]; rfl
    unfold boxed
    rw [h1, Option.bind_some, h2, Option.bind_some, if_pos (by simp), h3, List.zip_map', hL, ofType_home _ hcell (k := 8) rfl, Note.layout_note, noteEvs_map,
      List.mapM_map]
    have := mapM_all (f := (fun p => (Spec.readNote p).bind fun n => (((D.notes.zipIdx 0).map fun p => (p.2 + 1, p.1.box)).lookup n.object).map fun t =>
        (⟨n.row, n.col, t⟩ : Boxed)) ∘ fun p : Note.Note × Nat => Note.notePayload p.2 p.1)
      (g := fun p => (⟨p.1.row.toNat, p.1.col.toNat, p.1.box⟩ : Boxed)) (D.notes.zipIdx 0) (fun p hp => by
        obtain ⟨n, j⟩ := p
        have hj := List.mem_zipIdx hp
        have hm : n ∈ D.notes := by rw [hj.2.2]; exact List.getElem_mem _
        obtain ⟨a, b, c⟩ := hr.notes n hm
        simp only [Function.comp_apply]
        rw [note_read j n a b c (by omega), Option.bind_some]
        simp only
        rw [lookup_zip Note.Note.box _ _ _ _ hp]
        rfl)
    rw [this]
    unfold pageOf
    simp only
    congr 1
    conv => rhs; rw [hz]
    rw [List.map_map]
    rfl
  have t12 : lettered (logical R) = some (pageOf D).letters := by
    unfold lettered
    have hb : letterings ((logical R).filter fun r => r.1 == 0x5D || r.1 == 0x1B6) =
        some ((D.notes.zipIdx 0).map fun p => (p.2 + 1, (⟨1, 1, 0, [(0, 1), (p.1.author.length + 2, 0), (p.1.full.length, 0)]⟩ : Lettering))) := by
      rw [hL, filter_home _ hcell 7 _ (by
        intro r h
        simp only [Bool.or_eq_true, beq_iff_eq] at h
        rcases h with h | h <;> rw [h] <;> rfl), Note.layout_draw]
      exact letterings_read D.notes s.spid 0 hn (by omega)
    rw [hb, Option.bind_some, hL, ofType_home _ hcell (k := 8) rfl, Note.layout_note, noteEvs_map, List.mapM_map]
    have := mapM_all (f := (fun p => (Spec.readNote p).bind fun n => (((D.notes.zipIdx 0).map fun p => (p.2 + 1,
        (⟨1, 1, 0, [(0, 1), (p.1.author.length + 2, 0), (p.1.full.length, 0)]⟩ : Lettering))).lookup n.object).map fun t =>
        (⟨n.row, n.col, t⟩ : Lettered)) ∘ fun p : Note.Note × Nat => Note.notePayload p.2 p.1)
      (g := fun p => (⟨p.1.row.toNat, p.1.col.toNat, ⟨1, 1, 0, [(0, 1), (p.1.author.length + 2, 0), (p.1.full.length, 0)]⟩⟩ : Lettered)) (D.notes.zipIdx 0)
      (fun p hp => by
        obtain ⟨n, j⟩ := p
        have hj := List.mem_zipIdx hp
        have hm : n ∈ D.notes := by rw [hj.2.2]; exact List.getElem_mem _
        obtain ⟨a, b, c⟩ := hr.notes n hm
        simp only [Function.comp_apply]
        rw [note_read j n a b c (by omega), Option.bind_some]
        simp only
        rw [lookup_zip (fun n : Note.Note => (⟨1, 1, 0, [(0, 1), (n.author.length + 2, 0), (n.full.length, 0)]⟩ : Lettering)) _ _ _ _ hp]
        rfl)
    rw [this]
    unfold pageOf
    simp only
    congr 1
    have hz : D.notes = (D.notes.zipIdx 0).map Prod.fst := by rw [List.zipIdx_map_fst]
    conv => rhs; rw [hz]
    rw [List.map_map]
    rfl
  obtain ⟨g, hg, hg'⟩ := t4
  unfold readPage
  rw [t1, Option.bind_some, defRow_read, Option.bind_some]
  simp only
  rw [t2, Option.bind_some, defCol_read, Option.bind_some, t3, Option.bind_some, hg, Option.bind_some, t5, Option.bind_some]
  have hw : readWindow (window2Payload D.active) = some (true, D.active, D.active) := by cases D.active <;> decide
  have hv : readView (window2Payload D.active) = some (pageOf D).view := by
    show _ = some (⟨false, true, true, true, false, true, false, 0, 0, 64, 0, 0⟩ : View)
    cases D.active <;> decide
  rw [hw, Option.bind_some]
  simp only
  rw [hv, Option.bind_some, t6, Option.bind_some, t7, Option.bind_some, t8, Option.bind_some, t10, Option.bind_some, t11, Option.bind_some, t12, Option.bind_some, t9,
    if_pos, hg']
  · rfl
  · simp only [pageOf, List.map_eq_nil_iff, List.length_map]

end Xls.Page
