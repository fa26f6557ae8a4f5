import Verif.Whole.Model
import Verif.Sst.Props
/-
The string table of a workbook with cells of every kind is the one of `Verif/Sst`, and the sheets hold the last cell written at
each place.
-/
namespace Xls.Whole
open Xls.Cells

variable {α β : Type}

/-! ### Sets of cells depend on the coordinates only -/

theorem setInsert_map {key : α → Key} {key' : β → Key} (f : α → β) (hk : ∀ x, key' (f x) = key x) (x : α) (l : List α) :
    setInsert key' (f x) (l.map f) = ((setInsert key x l).1.map f, (setInsert key x l).2.map f) := by
  induction l with
  | nil => rfl
  | cons y r ih =>
    simp only [List.map_cons, setInsert, hk, ih]
    split
    · rfl
    · split <;> simp

theorem setErase_map {key : α → Key} {key' : β → Key} (f : α → β) (hk : ∀ x, key' (f x) = key x) (k : Key) (l : List α) :
    setErase key' k (l.map f) = (setErase key k l).map f := by
  induction l with
  | nil => rfl
  | cons y r ih =>
    simp only [List.map_cons, setErase, hk, ih]
    split <;> simp

theorem addLoop_map (f : Cell α → Cell β) (hk : ∀ x, (f x).key = x.key) (c : Cell α) : ∀ (fuel : Nat) (l : List (Cell α)),
    addLoop (f c) fuel (l.map f) = (addLoop c fuel l).map fun p => (p.1.map f, p.2.map f) := by
  intro fuel
  induction fuel with
  | zero => intro l; rfl
  | succ n ih =>
    intro l
    simp only [addLoop, setInsert_map f hk c l]
    obtain ⟨l', o⟩ : ∃ l' o, setInsert Cell.key c l = (l', o) := ⟨_, _, rfl⟩
    cases h : setInsert Cell.key c l with
    | mk l' o =>
      cases o with
      | none => simp
      | some old =>
        simp only [Option.map_some, hk, setErase_map f hk, ih, Option.map_map]
        congr 1

/-- The workbook as the string table sees it. -/
def Sees (b : Book) (l : Sst.Book) : Prop := l.labels = b.labels ∧ ∀ i, (l.sheets i).cells = (b.sheets i).cells.map toL

theorem toL_key (c : WCell) : (toL c).key = c.key := rfl

theorem put_sees {b b' : Book} {l : Sst.Book} (hs : Sees b l) {i : Nat} {c : Cell Val} (h : b.put i c = some b') :
    ∃ l', l.put i (toL (stamp i c)) = some l' ∧ Sees b' l' := by
  unfold Book.put Sheet.addCell at h
  have hm := addLoop_map toL toL_key (stamp i c) ((b.sheets i).cells.length + 2) (b.sheets i).cells
  cases ha : addLoop (stamp i c) ((b.sheets i).cells.length + 2) (b.sheets i).cells with
  | none => rw [ha] at h; simp at h
  | some p =>
    obtain ⟨s, d⟩ := p
    rw [ha] at h hm
    simp only [Option.map_some, Option.some.injEq] at h hm
    subst h
    have : addLoop (toL (stamp i c)) ((l.sheets i).cells.length + 2) (l.sheets i).cells = some (s.map toL, d.map toL) := by
      rw [hs.2, List.length_map, hm]
    unfold Sst.Book.put Sheet.addCell
    rw [this]
    refine ⟨_, rfl, ?_, ?_⟩
    · simp only [List.foldl_map, hs.1]
    · intro j
      simp only
      by_cases hj : j = i
      · simp [hj]
      · simp [hj, hs.2]

theorem reach_sees {h : List (Nat × Cell Val)} {b : Book} (r : Reach h b) :
    ∃ l, Sst.Reach (h.map fun p => (p.1, toL (stamp p.1 p.2))) l ∧ Sees b l := by
  induction r with
  | start => exact ⟨{}, .start, rfl, fun _ => rfl⟩
  | @put h b b' i c _ hf hp ih =>
    obtain ⟨l, hr, hs⟩ := ih
    obtain ⟨l', hl, hs'⟩ := put_sees hs hp
    refine ⟨l', ?_, hs'⟩
    rw [List.map_append]
    refine .put hr ?_ hl
    rintro ⟨j, x, hx, e⟩
    rw [hs.2, List.mem_map] at hx
    obtain ⟨y, hy, rfl⟩ := hx
    exact hf ⟨j, y, hy, e⟩
  | @note h b b' i c _ hn ih =>
    obtain ⟨l, hr, hs⟩ := ih
    refine ⟨l, hr, ?_⟩
    unfold Book.note Sheet.addNote at hn
    cases ha : addLoop (stamp i c) ((b.sheets i).notes.length + 2) (b.sheets i).notes with
    | none => rw [ha] at hn; simp at hn
    | some p =>
      rw [ha] at hn
      simp only [Option.map_some, Option.some.injEq] at hn
      subst hn
      refine ⟨hs.1, fun j => ?_⟩
      rw [hs.2]
      by_cases hj : j = i
      · simp [hj, Sheet.extend]
      · simp [hj]

/-! ### The last cell written at each place -/

/-- Specification: the last cell that the history writes at this place of sheet `i`. -/
def lastWrite (h : List (Nat × Cell Val)) (i row col : Nat) : Option (Cell Val) :=
  ((h.filter fun p => p.1 == i && (p.2.row == row && p.2.col == col)).getLast?).map (·.2)

theorem lastWrite_append (h : List (Nat × Cell Val)) (j i row col : Nat) (c : Cell Val) :
    lastWrite (h ++ [(j, c)]) i row col = if j = i ∧ c.row = row ∧ c.col = col then some c else lastWrite h i row col := by
  unfold lastWrite
  by_cases hc : j = i ∧ c.row = row ∧ c.col = col
  · obtain ⟨rfl, rfl, rfl⟩ := hc
    simp
  · rw [if_neg hc, List.filter_append]
    have : (([(j, c)] : List (Nat × Cell Val)).filter fun p => p.1 == i && (p.2.row == row && p.2.col == col)) = [] := by
      simpa using fun h1 h2 h3 => hc ⟨h1, h2, h3⟩
    rw [this, List.append_nil]

/-- What every sheet of a reachable book looks like. -/
structure Sheetwise (h : List (Nat × Cell Val)) (i : Nat) (s : Sheet (Nat × Val)) : Prop where
  ordered : Ordered Cell.key s.cells
  cells : ∀ c : WCell, c ∈ s.cells ↔ ∃ d, lastWrite h i c.row c.col = some d ∧ c = stamp i d

theorem reach_sheets {h : List (Nat × Cell Val)} {b : Book} (r : Reach h b) : ∀ i, Sheetwise h i (b.sheets i) := by
  induction r with
  | start => exact fun i => ⟨List.Pairwise.nil, fun c => by simp [lastWrite]⟩
  | @put h b b' j c _ _ hp ih =>
    obtain ⟨l, d, e, ho, hm, -, -⟩ := addLoop_spec (stamp j c) (ih j).ordered (b.sheets j).cells.length
    unfold Book.put Sheet.addCell at hp
    rw [e] at hp
    simp only [Option.map_some, Option.some.injEq] at hp
    subst hp
    intro i
    by_cases hj : i = j
    · subst hj
      simp only [if_true]
      refine ⟨ho, fun x => ?_⟩
      rw [hm, lastWrite_append]
      by_cases hk : c.row = x.row ∧ c.col = x.col
      · rw [if_pos ⟨rfl, hk⟩]
        constructor
        · rintro (rfl | ⟨_, hne⟩)
          · exact ⟨c, rfl, rfl⟩
          · exact absurd (by show (x.row, x.col) = (c.row, c.col); rw [hk.1, hk.2]) hne
        · rintro ⟨y, hy, rfl⟩
          rw [Option.some.inj hy]
          exact .inl rfl
      · rw [if_neg (fun hh => hk hh.2), ← (ih i).cells]
        constructor
        · rintro (rfl | ⟨hx, _⟩)
          · exact absurd ⟨rfl, rfl⟩ hk
          · exact hx
        · intro hx
          refine .inr ⟨hx, fun hh => hk ?_⟩
          have : (x.row, x.col) = (c.row, c.col) := hh
          simp only [Prod.mk.injEq] at this
          exact ⟨this.1.symm, this.2.symm⟩
    · simp only [hj, if_false]
      refine ⟨(ih i).ordered, fun x => ?_⟩
      rw [(ih i).cells, lastWrite_append, if_neg (fun hh => hj hh.1.symm)]
  | @note h b b' j c _ hn ih =>
    unfold Book.note Sheet.addNote at hn
    cases ha : addLoop (stamp j c) ((b.sheets j).notes.length + 2) (b.sheets j).notes with
    | none => rw [ha] at hn; simp at hn
    | some p =>
      rw [ha] at hn
      simp only [Option.map_some, Option.some.injEq] at hn
      subst hn
      intro i
      by_cases hj : i = j
      · subst hj
        simp only [if_true]
        exact ⟨(ih i).ordered, (ih i).cells⟩
      · simp only [hj, if_false]
        exact ih i

/-- A surviving label is found through the table. -/
theorem label_read {h : List (Nat × Cell Val)} {b : Book} (r : Reach h b) (hn : b.labels.length ≤ 2 ^ 32) :
    ∃ table, b.labels.mapM Cell.val = some table ∧ ∀ i, ∀ c ∈ (b.sheets i).cells, ∀ t xf, c.val.2 = .text t → c.row < 65536 → c.col < 65536 → xf < 65536 →
      Sst.readLabel table (Sst.labelRec b.labels (toL c) t xf) = some (c.row, c.col, xf, t) := by
  obtain ⟨l, hr, hl, hs⟩ := reach_sees r
  obtain ⟨table, htab, -⟩ := Sst.mapM_val l.labels (fun x hx => by
    obtain ⟨_, t, h1, _⟩ := ((Sst.c06_table _ l hr).2 x).mp hx
    exact ⟨t, h1⟩)
  refine ⟨table, by rw [← hl]; exact htab, fun i c hc t xf ht h1 h2 h3 => ?_⟩
  have hsv : Sst.Survives (h.map fun p => (p.1, toL (stamp p.1 p.2))) i (toL c) := by
    have hi := Sst.reach_inv hr
    unfold Sst.Survives
    rw [← (hi.sheets i).find, findCell_mem (hi.sheets i).ordered]
    exact ⟨by rw [hs]; exact List.mem_map.mpr ⟨c, hc, rfl⟩, rfl, rfl⟩
  obtain ⟨table', e, hread⟩ := Sst.c06_label_reads_back _ l hr i (toL c) t xf hsv (by simp [toL, ht, Val.label]) h1 h2 h3 (by rw [hl]; exact hn)
  rw [htab] at e
  rw [Option.some.inj e, ← hl]
  exact hread

end Xls.Whole
