import Verif.Page.Plain
import Verif.Rows.Props
/-
C60: the rows in the saved file.
-/
namespace Xls.Page
open Xls.Biff Xls.Sheet Xls.Cells Xls.Book Xls.Save Xls.Whole
open Xls.Rows (RowHeight Item Block items nums cellsOf blocks takeRows_spec HtSorted RowSorted)

variable {α : Type}

/-- The rows in the blocks are the first ones. -/
theorem blocks_first (cur : List (Cell α)) (hts : List RowHeight) (hs : RowSorted cur) (hh : HtSorted hts) (bs : List (Block α))
    (h : blocks cur hts = some bs) : ∃ rest, items cur hts = bs.flatMap Block.rows ++ rest := by
  match hcur : cur with
  | [] => rw [blocks] at h; cases h; exact ⟨[], by simp [Rows.items_nil]⟩
  | c :: r =>
    obtain ⟨its, cur', hts', F⟩ := Rows.blockFacts c r hts hs hh
    have hterm : cur'.length + hts'.length < (c :: r).length + hts.length := by
      have := Rows.takeRows_shrinks 15 c r hts
      rw [F.eq] at this
      exact this
    have hsplit : items (c :: r) hts = its ++ items cur' hts' := by
      have := Rows.items_split 16 (c :: r) hts
      rwa [F.eq] at this
    rw [blocks, F.eq] at h
    simp only at h
    by_cases h1 : cellsOf its = [] ∧ cur'.length ≠ 1
    · rw [if_pos h1] at h; simp at h
    · rw [if_neg h1] at h
      by_cases h2 : cur'.length = 1
      · rw [if_pos h2] at h
        cases h
        exact ⟨items cur' hts', by rw [hsplit]; simp⟩
      · rw [if_neg h2] at h
        obtain ⟨bs', h', rfl⟩ := Option.map_eq_some_iff.mp h
        obtain ⟨rest, i1⟩ := blocks_first cur' hts' F.spec.sorted F.spec.sortedHts bs' h'
        exact ⟨rest, by rw [List.flatMap_cons, hsplit, i1, List.append_assoc]⟩
termination_by cur.length + hts.length
decreasing_by subst hcur; exact hterm

/-- A cell whose row is not there is the last cell. -/
theorem blocks_last (cur : List (Cell α)) (hts : List RowHeight) (hs : RowSorted cur) (hh : HtSorted hts) (bs : List (Block α))
    (h : blocks cur hts = some bs) (x : Cell α) (hx : x ∈ cur) (hn : x.row ∉ nums (bs.flatMap Block.rows)) : ∃ pre, cur = pre ++ [x] := by
  match hcur : cur with
  | [] => cases hx
  | c :: r =>
    obtain ⟨its, cur', hts', F⟩ := Rows.blockFacts c r hts hs hh
    have hterm : cur'.length + hts'.length < (c :: r).length + hts.length := by
      have := Rows.takeRows_shrinks 15 c r hts
      rw [F.eq] at this
      exact this
    rw [blocks, F.eq] at h
    simp only at h
    have hx' : x.row ∉ nums its → x ∈ cur' := by
      intro h
      rw [← F.split, List.mem_append] at hx
      exact hx.resolve_left fun h' => h (F.cells x h')
    by_cases h1 : cellsOf its = [] ∧ cur'.length ≠ 1
    · rw [if_pos h1] at h; simp at h
    · rw [if_neg h1] at h
      by_cases h2 : cur'.length = 1
      · rw [if_pos h2] at h
        cases h
        simp only [List.flatMap_cons, List.flatMap_nil, List.append_nil] at hn
        obtain ⟨y, rfl⟩ := List.length_eq_one_iff.mp h2
        have := hx' hn
        rw [List.mem_singleton] at this
        subst this
        exact ⟨cellsOf its, F.split.symm⟩
      · rw [if_neg h2] at h
        obtain ⟨bs', h', rfl⟩ := Option.map_eq_some_iff.mp h
        simp only [List.flatMap_cons, nums, List.map_append, List.mem_append, not_or] at hn
        obtain ⟨pre, rfl⟩ := blocks_last cur' hts' F.spec.sorted F.spec.sortedHts bs' h' x (hx' hn.1) hn.2
        exact ⟨cellsOf its ++ pre, by rw [← F.split, List.append_assoc]⟩
termination_by cur.length + hts.length
decreasing_by subst hcur; exact hterm

/-- What a reader makes of a row. -/
def rowOf (it : Item α) : RowRead :=
  ⟨it.num, (Rows.colBounds it.here).1, (Rows.colBounds it.here).2 + 1, (it.ht.map (·.height)).getD 264, false,
    decide ((it.ht.map (·.height)).getD 264 ≠ 264), some (((it.ht.bind (·.xf)).getD 15) % 4096)⟩

theorem readRow_payload (n f l : Nat) (ht : Option RowHeight) (hn : n < 65536) (hf : f < 65536) (hl : l + 1 < 65536)
    (hh : ∀ h, ht = some h → h.height < 65536 ∧ h.xf.getD 15 < 65536) :
    readRow (Rows.rowPayload n f l ht) = some ⟨n, f, l + 1, (ht.map (·.height)).getD 264, false,
      decide ((ht.map (·.height)).getD 264 ≠ 264), some (((ht.bind (·.xf)).getD 15) % 4096)⟩ := by
  have e : Rows.rowPayload n f l ht = leN 2 n ++ (leN 2 f ++ (leN 2 ((l + 1) % 2 ^ 32) ++ (leN 2 ((ht.map (·.height)).getD 264) ++ (leN 4 0 ++
      (leN 2 (if (ht.map (·.height)).getD 264 = 264 then 0x80 else 0xC0) ++ (leN 2 ((ht.bind (·.xf)).getD 15) ++ [])))))) := by
    unfold Rows.rowPayload
    cases ht with
    | none => simp [show leN 4 0 = leN 2 0 ++ leN 2 0 from rfl]
    | some h =>
      cases hx : h.xf with
      | none => simp [hx, show leN 4 0 = leN 2 0 ++ leN 2 0 from rfl]
      | some x => simp [hx, show leN 4 0 = leN 2 0 ++ leN 2 0 from rfl]
  have b1 : (ht.map (·.height)).getD 264 < 65536 := by
    cases ht with
    | none => decide
    | some h => exact (hh h rfl).1
  have b2 : (ht.bind (·.xf)).getD 15 < 65536 := by
    cases ht with
    | none => decide
    | some h => exact (hh h rfl).2
  rw [e]
  unfold readRow
  simp only [takeLE_leN_append, Option.bind_some, if_true]
  generalize (ht.map (·.height)).getD 264 = w at *
  generalize (ht.bind (·.xf)).getD 15 = x at *
  rw [Nat.mod_eq_of_lt (show n < 256 ^ 2 by omega), Nat.mod_eq_of_lt (show f < 256 ^ 2 by omega),
    Nat.mod_eq_of_lt (show (l + 1) % 2 ^ 32 < 256 ^ 2 by omega), Nat.mod_eq_of_lt (show w < 256 ^ 2 by omega),
    Nat.mod_eq_of_lt (show x < 256 ^ 2 by omega), show (l + 1) % 2 ^ 32 = l + 1 by omega]
  by_cases hw : w = 264
  · simp [hw]
  · simp [hw]

/-- What is known of a sheet's rows: its cells and heights are sorted and within the limits, and make these blocks. -/
structure RowFacts (acts : List Act) (D : Data α Note.Note) (bs : List (Block α)) : Prop where
  ordered : Ordered Cell.key D.cells
  range : ∀ c ∈ D.cells, c.row < 65536 ∧ c.col < 256
  sorted : HtSorted D.heights
  heights : ∀ y, y ∈ D.heights ↔ latest (Act.height y.row) acts = some (y.height, y.xf)
  formats : ∀ row w x, latest (Act.height row) acts = some (w, x) → w < 65536 ∧ x.getD 15 < 4096
  blocks : blocks D.cells D.heights = some bs

section
variable {acts : List Act} {D : Data α Note.Note} {bs : List (Block α)} (F : RowFacts acts D bs)
include F

theorem RowFacts.item {it : Item α} (h : it ∈ bs.flatMap Block.rows) : it ∈ items D.cells D.heights := by
  obtain ⟨rest, e⟩ := blocks_first D.cells D.heights (Rows.rowSorted_of_ordered F.ordered) F.sorted bs F.blocks
  rw [e]
  exact List.mem_append_left _ h

theorem RowFacts.spec : Rows.RowsSpec D.cells D.heights (items D.cells D.heights) (Rows.takeRows (D.cells.length + D.heights.length) D.cells D.heights).2.1
    (Rows.takeRows (D.cells.length + D.heights.length) D.cells D.heights).2.2 := takeRows_spec (D.cells.length + D.heights.length) D.cells D.heights (Rows.rowSorted_of_ordered F.ordered) F.sorted

theorem RowFacts.num_lt {it : Item α} (h : it ∈ items D.cells D.heights) : it.num < 65536 := by
  rcases F.spec.src it.num (List.mem_map_of_mem h) with ⟨x, hx, e⟩ | ⟨-, x, hx, e⟩
  · rw [← e]; exact (F.range x hx).1
  · have := (F.range x hx).1; omega

omit F in
theorem here_mem {it : Item α} (h : it ∈ items D.cells D.heights) {c : Cell α} (hc : c ∈ it.here) : c ∈ D.cells := by
  rw [← Rows.cellsOf_items D.cells D.heights]; exact Rows.mem_cellsOf h hc

theorem RowFacts.bounds {it : Item α} (h : it ∈ items D.cells D.heights) :
    (it.here = [] ∧ Rows.colBounds it.here = (1, 0)) ∨
      (∃ x ∈ it.here, x.col = (Rows.colBounds it.here).1) ∧ (∃ x ∈ it.here, x.col = (Rows.colBounds it.here).2) := by
  cases hh : it.here with
  | nil => exact .inl ⟨rfl, rfl⟩
  | cons a r =>
    right
    rw [← hh]
    exact Rows.colBounds_tight it.here (by rw [hh]; simp) fun x hx => by have := (F.range x (here_mem h hx)).2; omega

/-- The height of an item is the one last given. -/
theorem RowFacts.ht {it : Item α} (h : it ∈ items D.cells D.heights) :
    (it.ht.map fun y => (y.height, y.xf)) = latest (Act.height it.num) acts := by
  have S := F.spec.ht it h
  cases hx : it.ht with
  | some g =>
    obtain ⟨g1, g2⟩ := (S g).mp hx
    rw [← g2]
    exact ((F.heights g).mp g1).symm
  | none =>
    cases hl : latest (Act.height it.num) acts with
    | none => rfl
    | some p =>
      have hm := (F.heights ⟨it.num, p.1, p.2⟩).mpr hl
      have := (S ⟨it.num, p.1, p.2⟩).mpr ⟨hm, rfl⟩
      rw [hx] at this
      cases this

theorem RowFacts.read {it : Item α} (h : it ∈ items D.cells D.heights) :
    readRow (Rows.rowPayload it.num (Rows.colBounds it.here).1 (Rows.colBounds it.here).2 it.ht) = some (rowOf it) := by
  have hb : (Rows.colBounds it.here).1 < 65535 ∧ (Rows.colBounds it.here).2 < 65535 := by
    rcases F.bounds h with ⟨-, e⟩ | ⟨⟨x, hx, ex⟩, ⟨y, hy, ey⟩⟩
    · rw [e]; decide
    · rw [← ex, ← ey]
      have := (F.range x (here_mem h hx)).2
      have := (F.range y (here_mem h hy)).2
      omega
  refine readRow_payload _ _ _ _ (F.num_lt h) (by omega) (by omega) fun y hy => ?_
  have e := F.ht h
  rw [hy, Option.map_some] at e
  have := F.formats _ _ _ e.symm
  omega

/-- The rows in terms of the calls. -/
theorem RowFacts.rowOf_set {it : Item α} (h : it ∈ items D.cells D.heights) {w : Nat} {x : Option Nat} (hl : latest (Act.height it.num) acts = some (w, x)) :
    (rowOf it).height = w ∧ (rowOf it).xf = some (x.getD 15) ∧ (rowOf it).custom = decide (w ≠ 264) := by
  have e := F.ht h
  rw [hl] at e
  obtain ⟨y, hy, ey⟩ := Option.map_eq_some_iff.mp e
  simp only [Prod.mk.injEq] at ey
  obtain ⟨rfl, rfl⟩ := ey
  have := (F.formats _ _ _ hl).2
  simp only [rowOf, hy, Option.map_some, Option.getD_some, Option.bind_some, true_and]
  exact ⟨by rw [Nat.mod_eq_of_lt this], trivial⟩

theorem RowFacts.rowOf_unset {it : Item α} (h : it ∈ items D.cells D.heights) (hl : latest (Act.height it.num) acts = none) :
    (rowOf it).height = 264 ∧ (rowOf it).xf = some 15 ∧ (rowOf it).custom = false := by
  have e := F.ht h
  rw [hl] at e
  rw [Option.map_eq_none_iff] at e
  simp [rowOf, e]

/-- What holds of the rows in any case. -/
theorem RowFacts.any : (((bs.flatMap Block.rows).map rowOf).Pairwise fun a b => a.row < b.row) ∧
    (∀ r ∈ (bs.flatMap Block.rows).map rowOf, r.hidden = false ∧
      (∀ w x, latest (Act.height r.row) acts = some (w, x) → r.height = w ∧ r.xf = some (x.getD 15) ∧ r.custom = decide (w ≠ 264)) ∧
      (latest (Act.height r.row) acts = none → r.height = 264 ∧ r.xf = some 15 ∧ r.custom = false) ∧
      (r.first < r.last → HasCell D r.row r.first ∧ HasCell D r.row (r.last - 1)) ∧
      Needed (HasCell D) acts r.row) := by
  obtain ⟨rest, e⟩ := blocks_first D.cells D.heights (Rows.rowSorted_of_ordered F.ordered) F.sorted bs F.blocks
  have S := F.spec
  constructor
  · have := S.incr
    rw [e] at this
    rw [nums, List.map_append, List.pairwise_append, List.pairwise_map] at this
    rw [List.pairwise_map]
    exact this.1
  · intro r hr
    obtain ⟨it, hit, rfl⟩ := List.mem_map.mp hr
    have hi := F.item hit
    refine ⟨rfl, fun w x hl => F.rowOf_set hi hl, fun hl => F.rowOf_unset hi hl, ?_, ?_⟩
    · intro hlt
      rcases F.bounds hi with ⟨-, e⟩ | ⟨⟨x, hx, ex⟩, ⟨y, hy, ey⟩⟩
      · simp only [rowOf, e] at hlt
        omega
      · exact ⟨⟨x, here_mem hi hx, S.here it hi x hx, ex⟩, ⟨y, here_mem hi hy, S.here it hi y hy, by simp [rowOf, ey]⟩⟩
    · rcases S.src it.num (List.mem_map_of_mem hi) with ⟨x, hx, e⟩ | ⟨⟨y, hy, ey⟩, x, hx, e⟩
      · exact .inl ⟨x.col, x, hx, e, rfl⟩
      · refine .inr ⟨?_, x.row, x.col, e, .mk hx⟩
        have := (F.heights y).mp hy
        rw [show (rowOf it).row = it.num from rfl, ← ey, this]
        simp

/-- The cells whose rows are there. -/
theorem RowFacts.covered {it : Item α} (hit : it ∈ bs.flatMap Block.rows) {c : Cell α} (hc : c ∈ D.cells) (e : c.row = it.num) :
    ∃ r ∈ (bs.flatMap Block.rows).map rowOf, r.row = c.row ∧ r.first ≤ c.col ∧ c.col < r.last := by
  have hi := F.item hit
  have hx : c ∈ it.here := by
    have hc' := hc
    rw [← Rows.cellsOf_items D.cells D.heights] at hc'
    obtain ⟨jt, hjt, hx⟩ := List.mem_flatMap.mp hc'
    have ej : jt.num = it.num := by rw [← F.spec.here jt hjt c hx]; exact e
    have : jt = it := by
      obtain ⟨i, hi', ei⟩ := List.getElem_of_mem hi
      obtain ⟨j, hj, ej'⟩ := List.getElem_of_mem hjt
      have hinc := List.pairwise_iff_getElem.mp (Rows.items_incr D.cells D.heights (Rows.rowSorted_of_ordered F.ordered) F.sorted)
      by_cases hij : i = j
      · subst hij; rw [← ei, ← ej']
      · rcases Nat.lt_or_gt_of_ne hij with hlt | hlt
        · have := hinc i j (by simpa [nums] using hi') (by simpa [nums] using hj) hlt
          simp only [nums, List.getElem_map, ei, ej'] at this
          omega
        · have := hinc j i (by simpa [nums] using hj) (by simpa [nums] using hi') hlt
          simp only [nums, List.getElem_map, ei, ej'] at this
          omega
    rw [← this]
    exact hx
  have hb := Rows.colBounds_cover it.here c hx
  exact ⟨rowOf it, List.mem_map_of_mem hit, e.symm, hb.1, Nat.lt_succ_of_le hb.2⟩

theorem RowFacts.needed (n : Nat) : n ∈ nums (items D.cells D.heights) ↔ Needed (HasCell D) acts n := by
  rw [Rows.mem_items D.cells D.heights (Rows.rowSorted_of_ordered F.ordered) F.sorted]
  have hht : (∃ h ∈ D.heights, h.row = n) ↔ latest (Act.height n) acts ≠ none := by
    constructor
    · rintro ⟨y, hy, rfl⟩
      rw [(F.heights y).mp hy]
      simp
    · intro hl
      cases hx : latest (Act.height n) acts with
      | none => exact absurd hx hl
      | some p => exact ⟨⟨n, p.1, p.2⟩, (F.heights _).mpr hx, rfl⟩
  rw [hht]
  unfold Needed
  constructor
  · rintro (⟨c, hc, rfl⟩ | ⟨hl, c, hc, hlt⟩)
    · exact .inl ⟨_, .mk hc⟩
    · exact .inr ⟨hl, _, _, hlt, .mk hc⟩
  · rintro (⟨col, c, hc, e, -⟩ | ⟨hl, row, col, hlt, c, hc, e, -⟩)
    · exact .inl ⟨c, hc, e⟩
    · exact .inr ⟨hl, c, hc, by omega⟩

/-- The number of cells after a row. -/
theorem RowFacts.lone_at (n : Nat) : Rows.after D.cells n = 1 ↔
    ∃ row col, (n < row ∧ HasCell D row col) ∧ ∀ row' col', n < row' → HasCell D row' col' → row' = row ∧ col' = col := by
  unfold Rows.after
  have hm : ∀ c, c ∈ D.cells.filter (fun c => decide (n < c.row)) ↔ c ∈ D.cells ∧ n < c.row := by
    intro c; simp
  have ho : Ordered Cell.key (D.cells.filter (fun c => decide (n < c.row))) := F.ordered.filter _
  generalize D.cells.filter (fun c => decide (n < c.row)) = l at hm ho
  constructor
  · intro h
    obtain ⟨c, rfl⟩ := List.length_eq_one_iff.mp h
    obtain ⟨h1, h2⟩ := (hm c).mp (by simp)
    refine ⟨c.row, c.col, ⟨h2, .mk h1⟩, ?_⟩
    rintro _ _ hlt ⟨d, hd, rfl, rfl⟩
    have := (hm d).mpr ⟨hd, hlt⟩
    rw [List.mem_singleton] at this
    rw [this]
    exact ⟨rfl, rfl⟩
  · rintro ⟨row, col, ⟨hlt, c, hc, rfl, rfl⟩, hall⟩
    match l, hm, ho with
    | [], hm, _ => exact absurd ((hm c).mpr ⟨hc, hlt⟩) (by simp)
    | [_], _, _ => rfl
    | a :: b :: r, hm, ho =>
      have k1 := (hm a).mp (by simp)
      have k2 := (hm b).mp (by simp)
      have e1 := hall _ _ k1.2 (.mk k1.1)
      have e2 := hall _ _ k2.2 (.mk k2.1)
      have := (List.pairwise_cons.mp ho).1 b (by simp)
      rw [klt_iff] at this
      simp only [Cell.key] at this
      omega

theorem RowFacts.lone : Lone (HasCell D) acts ↔ ¬ Rows.NoLone D.cells (nums (items D.cells D.heights)) := by
  have hinc := Rows.items_incr D.cells D.heights (Rows.rowSorted_of_ordered F.ordered) F.sorted
  unfold Rows.NoLone
  constructor
  · rintro ⟨R, r1, r2, k, n, hk, hn⟩ hno
    have : R = nums (items D.cells D.heights) := Rows.incr_unique r1 hinc fun n => by rw [r2, F.needed]
    subst this
    exact hno k n hk ((F.lone_at n).mpr hn)
  · intro h
    refine Classical.byContradiction fun hl => h fun k n hk h1 => hl ⟨_, hinc, F.needed, k, n, hk, (F.lone_at n).mp h1⟩

/-- The rows are as asked in exactly these cases. -/
theorem RowFacts.asked_iff : RowsAsked (HasCell D) acts ((bs.flatMap Block.rows).map rowOf) ↔ RowsKept (HasCell D) acts := by
  obtain ⟨a1, a2⟩ := F.any
  constructor
  · intro A
    refine ⟨?_, ?_, ?_⟩
    · intro row x hl
      obtain ⟨r, hr, rfl⟩ := A.heights row (by rw [hl]; simp)
      have h1 := (A.set r hr _ _ hl).2.2
      have h2 := ((a2 r hr).2.1 _ _ hl).2.2
      rw [h1] at h2
      simp at h2
    · intro row hl
      obtain ⟨r, hr, rfl⟩ := A.heights row hl
      rcases (a2 r hr).2.2.2.2 with ⟨col, h⟩ | ⟨-, row', col, h1, h2⟩
      · exact ⟨_, col, Nat.le_refl _, h⟩
      · exact ⟨row', col, by omega, h2⟩
    · rw [F.lone]
      intro hl
      obtain ⟨x, hx, hn⟩ := Rows.blocks_lone D.cells D.heights (Rows.rowSorted_of_ordered F.ordered) F.sorted bs F.blocks hl
      obtain ⟨r, hr, e, -⟩ := A.cells x.row x.col (.mk hx)
      obtain ⟨it, hit, rfl⟩ := List.mem_map.mp hr
      exact hn (by rw [← e]; exact List.mem_map_of_mem hit)
  · rintro ⟨h1, h2, h3⟩
    rw [F.lone, Classical.not_not] at h3
    have hb := (Rows.blocks_rows D.cells D.heights (Rows.rowSorted_of_ordered F.ordered) F.sorted bs F.blocks h3).1
    refine ⟨a1, fun r hr => (a2 r hr).1, ?_, ?_, ?_, ?_, fun r hr => (a2 r hr).2.2.2.1⟩
    · intro r hr w x hl
      obtain ⟨k1, k2, k3⟩ := (a2 r hr).2.1 w x hl
      refine ⟨k1, k2, ?_⟩
      rw [k3, decide_eq_true_eq]
      rintro rfl
      exact h1 _ _ hl
    · intro r hr hl
      have := (a2 r hr).2.2.1 hl
      exact ⟨this.2.2, this.2.1⟩
    · rintro row col ⟨c, hc, rfl, rfl⟩
      have : c.row ∈ nums (items D.cells D.heights) := (F.needed _).mpr (.inl ⟨_, .mk hc⟩)
      rw [← hb] at this
      obtain ⟨it, hit, e⟩ := List.mem_map.mp this
      exact F.covered hit hc e.symm
    · intro row hl
      obtain ⟨row', col, hle, hc⟩ := h2 row hl
      have : row ∈ nums (items D.cells D.heights) := by
        rw [F.needed]
        by_cases e : row = row'
        · subst e; exact .inl ⟨col, hc⟩
        · exact .inr ⟨hl, row', col, by omega, hc⟩
      rw [← hb] at this
      obtain ⟨it, hit, e⟩ := List.mem_map.mp this
      exact ⟨rowOf it, List.mem_map_of_mem hit, e⟩

theorem RowFacts.anyway : RowsAnyway (HasCell D) acts ((bs.flatMap Block.rows).map rowOf) := by
  obtain ⟨a1, a2⟩ := F.any
  refine ⟨a1, fun r hr => (a2 r hr).1, fun r hr => (a2 r hr).2.1, fun r hr => (a2 r hr).2.2.1, fun r hr => (a2 r hr).2.2.2.2, ?_,
    fun r hr => (a2 r hr).2.2.2.1⟩
  rintro row col ⟨c, hc, rfl, rfl⟩ ⟨row', col', ⟨d, hd, rfl, rfl⟩, hlt⟩
  have : c.row ∈ nums (bs.flatMap Block.rows) := by
    refine Classical.byContradiction fun hn => ?_
    obtain ⟨pre, e⟩ := blocks_last D.cells D.heights (Rows.rowSorted_of_ordered F.ordered) F.sorted bs F.blocks c hc hn
    have ho := F.ordered
    rw [e] at ho hd
    rcases List.mem_append.mp hd with hd | hd
    · have := (List.pairwise_append.mp ho).2.2 d hd c (by simp)
      rw [klt_iff] at this
      simp only [Cell.key] at this
      omega
    · rw [List.mem_singleton] at hd
      subst hd
      omega
  obtain ⟨it, hit, e⟩ := List.mem_map.mp this
  exact F.covered hit hc e.symm

end

theorem rows_of_evs {recs : Cell α → List Rec} {D : Data α Note.Note} (size : Cell α → Nat) (bs : List (Block α))
    (hc : ∀ b ∈ bs, ∀ c ∈ b.cells, ∀ r ∈ recs c, r.1 ∈ cellTypes) :
    ((bs.flatMap (Block.evs size)).flatMap fun e => ofType 0x208 (evLog recs D (.rb e))) =
      (bs.flatMap Block.rows).map fun it => Rows.rowPayload it.num (Rows.colBounds it.here).1 (Rows.colBounds it.here).2 it.ht := by
  induction bs with
  | nil => rfl
  | cons b r ih =>
    rw [List.flatMap_cons, List.flatMap_append, ih fun x hx => hc x (by simp [hx]), List.flatMap_cons, List.map_append]
    congr 1
    unfold Block.evs
    rw [List.flatMap_append, List.flatMap_append, List.flatMap_map, List.flatMap_map]
    have h1 : (b.rows.flatMap fun it => ofType 0x208 (evLog recs D (.rb it.ev))) =
        b.rows.map fun it => Rows.rowPayload it.num (Rows.colBounds it.here).1 (Rows.colBounds it.here).2 it.ht := by
      rw [← flatMap_single]
      congr 1
    have h2 : (b.cells.flatMap fun c => ofType 0x208 (evLog recs D (.rb (.cell c)))) = [] := by
      rw [List.flatMap_eq_nil_iff]
      intro c hm
      unfold ofType
      rw [List.map_eq_nil_iff, List.filter_eq_nil_iff]
      intro q hq h
      simp only [evLog, List.mem_map] at hq
      obtain ⟨q', hq', rfl⟩ := hq
      have := hc b (by simp) c hm q' hq'
      simp only [beq_iff_eq] at h
      rw [h] at this
      revert this
      decide
    rw [h1, h2, List.append_nil]
    have h3 : ([.dbcell (20 * b.rows.length + (b.cells.map size).sum) (Rows.offsOf size b.rows.length b.cells)] : List (Rows.Ev α)).flatMap
        (fun e => ofType 0x208 (evLog recs D (.rb e))) = [] := by
      simp [evLog, ofType, whole]
    rw [h3, List.append_nil]

/-- The rows of a saved sheet. -/
theorem rows_read {cd : Cell α → Bytes} {cs : Cell α → Nat} {recs : Cell α → List Rec} {D : Data α Note.Note}
    (hc : ∀ c ∈ D.cells, Whole.CellIs cd c (recs c) ∧ ∀ r ∈ recs c, r.1 ∈ cellTypes) {s : Sheet.St α} {off fuel : Nat} {us : List U}
    {x : Data α Note.Note × Sheet.St α} (hs : Ready D s) (hlen : D.cells.length < 2 ^ 32) (h16 : D.notes.length ≤ 65535)
    (hn : ∀ n ∈ D.notes, n.full.length ≤ 3900) (hd : drain (next (Note.env cd cs)) fuel off 0 (D, s) = .done us x)
    {R : List Rec} (hR : ShowsL (fun _ => none) us R) {acts : List Act} (hF : ∀ bs, blocks D.cells D.heights = some bs → RowFacts acts D bs) :
    ∃ rows, readRows R = some rows ∧ (RowsAsked (HasCell D) acts rows ↔ RowsKept (HasCell D) acts) ∧ RowsAnyway (HasCell D) acts rows := by
  obtain ⟨bs, hL, hcell, hb⟩ := sheet_logical hc hs hlen h16 hn hd hR
  have F := hF bs hb
  refine ⟨_, ?_, F.asked_iff, F.anyway⟩
  unfold readRows
  rw [hL, ofType_home _ hcell (k := 6) rfl, layout_rb, List.flatMap_map, rows_of_evs, List.mapM_map]
  · exact mapM_all _ fun it hit => F.read (F.item hit)
  · intro b hbm c hcm
    refine (hc c ?_).2
    rw [← Rows.blocks_cells _ _ _ hb]
    exact List.mem_flatMap.mpr ⟨b, hbm, hcm⟩

end Xls.Page
