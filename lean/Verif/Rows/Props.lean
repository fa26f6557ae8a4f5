import Verif.Rows.Blocks
/-
C17, C18: the rows and cells of a sheet in its row blocks.
-/
namespace Xls.Rows
open Xls.Cells

variable {α : Type}

/-! ### More helper lemmas -/

theorem run_to_ub (size : Cell α → Nat) (cells : List (Cell α)) (heights : List RowHeight) (old : St α) (off : Nat)
    (hlt : cells.length < 2 ^ 32) (hb : blocks cells heights = none) :
    ∃ n, ∀ fuel, run size heights (fuel + n) off (enter cells old) = .ub := by
  have hp : pass size heights off (enter cells old) =
      .again { enter cells old with phase := .firstRow, rowCounter := 0, hts := heights } := rfl
  obtain ⟨n, hn⟩ := blocks_ub size heights cells heights
    { enter cells old with phase := .firstRow, rowCounter := 0, hts := heights } off rfl rfl hlt rfl rfl hb
  exact ⟨n + 1, fun fuel => by rw [← Nat.add_assoc, run, hp]; exact hn fuel⟩

theorem noLone_of_end {c : Cell α} {r : List (Cell α)} {hts : List RowHeight} {its : List (Item α)} {hts' : List RowHeight}
    (F : BlockFacts c r hts its [] hts') : NoLone (c :: r) (nums (items (c :: r) hts)) := by
  intro k n hn
  have hle := takeRows_length 16 (c :: r) hts
  rw [F.eq] at hle
  have hR : nums (items (c :: r) hts) = nums its := by rw [F.next, items_nil]; simp [nums]
  have hlt : 16 * k + 15 < (nums its).length := by rw [← hR]; exact (List.getElem?_eq_some_iff.mp hn).1
  have hk : k = 0 := by simp only [nums, List.length_map] at hlt; simp only at hle; omega
  subst hk
  obtain ⟨m, hm, _, ha⟩ := F.last (by simp only [nums, List.length_map] at hlt; simp only at hle; omega)
  rw [Nat.mul_zero, Nat.zero_add, hm, Option.some.injEq] at hn
  subst hn
  rw [ha]
  simp

theorem blocks_lone (cur : List (Cell α)) (hts : List RowHeight) (hs : RowSorted cur) (hh : HtSorted hts)
    (bs : List (Block α)) (h : blocks cur hts = some bs) (hl : ¬ NoLone cur (nums (items cur hts))) :
    ∃ x ∈ cur, x.row ∉ nums (bs.flatMap Block.rows) := by
  match hcur : cur with
  | [] => exact absurd (fun k n hn => by simp [items_nil, nums] at hn) hl
  | c :: r =>
    obtain ⟨its, cur', hts', F⟩ := blockFacts c r hts hs hh
    have hterm : cur'.length + hts'.length < (c :: r).length + hts.length := by
      have := takeRows_shrinks 15 c r hts
      rw [F.eq] at this
      exact this
    rw [blocks, F.eq] at h
    simp only at h
    by_cases h1 : cellsOf its = [] ∧ cur'.length ≠ 1
    · rw [if_pos h1] at h; simp at h
    · rw [if_neg h1] at h
      by_cases hne : cur' = []
      · subst hne
        exact absurd (noLone_of_end F) hl
      · have h16 := F.full.resolve_left hne
        by_cases h2 : cur'.length = 1
        · rw [if_pos h2] at h
          cases h
          obtain ⟨x, hx⟩ := List.length_eq_one_iff.mp h2
          refine ⟨x, by rw [← F.split, hx]; simp, fun hm => ?_⟩
          simp only [List.flatMap_cons, List.flatMap_nil, List.append_nil] at hm
          have := F.spec.rest x.row hm x (by simp [hx])
          omega
        · rw [if_neg h2] at h
          obtain ⟨bs', h', rfl⟩ := Option.map_eq_some_iff.mp h
          have h3 : ¬ NoLone cur' (nums (items cur' hts')) := fun h3 => hl ((F.noLone h16 hne).mpr ⟨h2, h3⟩)
          obtain ⟨x, hx, hn⟩ := blocks_lone cur' hts' F.spec.sorted F.spec.sortedHts bs' h' h3
          refine ⟨x, by rw [← F.split]; simp [hx], fun hm => ?_⟩
          simp only [List.flatMap_cons, nums, List.map_append, List.mem_append] at hm
          rcases hm with hm | hm
          · have := F.spec.rest x.row hm x hx
            omega
          · exact hn hm
termination_by cur.length + hts.length
decreasing_by subst hcur; exact hterm

theorem size_rows (size : Cell α → Nat) (its : List (Item α)) :
    ((its.map Item.ev).map (Ev.size size)).sum = 20 * its.length := by
  induction its with
  | nil => rfl
  | cons i r ih =>
    simp only [List.map_cons, List.sum_cons, List.length_cons, ih, Item.ev, Ev.size]
    omega

theorem size_cells (size : Cell α → Nat) (cs : List (Cell α)) :
    ((cs.map Ev.cell).map (Ev.size size)).sum = (cs.map size).sum := by
  induction cs with
  | nil => rfl
  | cons i r ih => simp only [List.map_cons, List.sum_cons, ih, Ev.size]

theorem cellsOf_items (cells : List (Cell α)) (hts : List RowHeight) : cellsOf (items cells hts) = cells := by
  have := takeRows_cells (cells.length + hts.length) cells hts
  rwa [takeRows_exhausts _ _ _ (Nat.le_refl _), List.append_nil] at this

theorem mem_cellsOf {its : List (Item α)} {it : Item α} (h : it ∈ its) {c : Cell α} (hc : c ∈ it.here) :
    c ∈ cellsOf its := List.mem_flatMap.mpr ⟨it, h, hc⟩

/-! ### C17 -/

/-- C17, under the condition that no 16-row group stalls: whatever state an earlier save left and wherever in
    the stream the row blocks begin, the emission ends, hands out every cell exactly once and in order, and is
    back in its initial state.  Missing for the full claim: the condition `NoStall`, without which it is false
    (`c17_stalled_runs_past_end`). -/
theorem c17_cells_once_partial (size : Cell α → Nat) (cells : List (Cell α)) (heights : List RowHeight) (R : List Nat)
    (old : St α) (off : Nat) (ho : Ordered Cell.key cells) (hh : HtSorted heights) (hlen : cells.length < 2 ^ 32)
    (hR : RowList cells heights R) (hst : NoStall cells R) :
    ∃ n evs s', (∀ fuel, run size heights (fuel + n) off (enter cells old) = .done evs s') ∧
      cellsIn evs = cells ∧ s'.phase = .init := by
  have hs := rowSorted_of_ordered ho
  rw [rowList_unique hR hs hh] at hst
  obtain ⟨bs, hb⟩ := (blocks_some_iff cells heights hs hh).mpr hst
  obtain ⟨n, s', h⟩ := run_blocks size heights cells old off bs hlen hb
  exact ⟨n, _, s', fun fuel => (h fuel).1, by rw [cellsIn_blocks, blocks_cells cells heights bs hb], (h 0).2⟩

/-- C17 holds in full for sheets without row-height settings. -/
theorem c17_without_heights (size : Cell α → Nat) (cells : List (Cell α)) (old : St α) (off : Nat)
    (ho : Ordered Cell.key cells) (hlen : cells.length < 2 ^ 32) :
    ∃ n evs s', (∀ fuel, run size [] (fuel + n) off (enter cells old) = .done evs s') ∧
      cellsIn evs = cells ∧ s'.phase = .init := by
  have hs := rowSorted_of_ordered ho
  have hh : HtSorted [] := List.Pairwise.nil
  have hR : RowList cells [] (nums (items cells [])) := ⟨items_incr cells [] hs hh, mem_items cells [] hs hh⟩
  refine c17_cells_once_partial size cells [] _ old off ho hh hlen hR ?_
  intro k n hn
  left
  have hlt := (List.getElem?_eq_some_iff.mp hn).1
  have hm : n ∈ nums (items cells []) := List.mem_of_getElem? hn
  rcases (hR.mem n).mp hm with ⟨c, hc, e⟩ | ⟨⟨h, hh, _⟩, _⟩
  · refine ⟨c, hc, ?_⟩
    rw [e]
    refine List.mem_of_getElem? (i := 15) ?_
    rw [List.getElem?_take, if_pos (by omega), List.getElem?_drop]
    exact hn
  · simp at hh

/-- The negation of C17 in all other cases: if 16 rows without cells make up a group and two or more cells are
    still to come, the emission reads past the end of the cell list. -/
theorem c17_stalled_runs_past_end (size : Cell α → Nat) (cells : List (Cell α)) (heights : List RowHeight) (R : List Nat)
    (old : St α) (off : Nat) (ho : Ordered Cell.key cells) (hh : HtSorted heights) (hlen : cells.length < 2 ^ 32)
    (hR : RowList cells heights R) (hst : ¬ NoStall cells R) :
    ∃ n, ∀ fuel, run size heights (fuel + n) off (enter cells old) = .ub := by
  have hs := rowSorted_of_ordered ho
  rw [rowList_unique hR hs hh] at hst
  refine run_to_ub size cells heights old off hlen ?_
  rw [← blocks_some_iff cells heights hs hh] at hst
  cases h : blocks cells heights with
  | none => rfl
  | some bs => exact absurd ⟨bs, h⟩ hst

/-! ### C18 -/

/-- C18, under the conditions that no group stalls and no group leaves a lone cell: the records split into
    blocks; the ROW records are those of the rows that need one, in order, each once; no block has more than 16;
    every cell has the ROW record of its row in its block, with column bounds that cover it; the bounds are columns
    of cells of that row; the record carries the row's height setting exactly if there is one; and the DBCELL
    record of each block gives the distance back to the block's first ROW record.  Missing for the full claim:
    the condition `NoLone`, without which it is false (`c18_lone_cell_unannounced`), and `NoStall` (C17). -/
theorem c18_rows_announced_partial (size : Cell α → Nat) (cells : List (Cell α)) (heights : List RowHeight) (R : List Nat)
    (old : St α) (off : Nat) (ho : Ordered Cell.key cells) (hh : HtSorted heights) (hlen : cells.length < 2 ^ 32)
    (hcol : ∀ c ∈ cells, c.col < 2 ^ 32) (hR : RowList cells heights R) (hst : NoStall cells R) (hln : NoLone cells R) :
    ∃ n evs s' bl, (∀ fuel, run size heights (fuel + n) off (enter cells old) = .done evs s') ∧
      blocksIn [] evs = some bl ∧
      (rowsIn evs).map (·.1) = R ∧
      (∀ b ∈ bl, (rowsIn b.1).length ≤ 16 ∧ b.2 = (b.1.map (Ev.size size)).sum ∧
        ∀ c ∈ cellsIn b.1, ∃ r ∈ rowsIn b.1, r.1 = c.row ∧ r.2.1 ≤ c.col ∧ c.col ≤ r.2.2.1) ∧
      (∀ r ∈ rowsIn evs, (∃ c ∈ cells, c.row = r.1) →
        (∃ c ∈ cells, c.row = r.1 ∧ c.col = r.2.1) ∧ (∃ c ∈ cells, c.row = r.1 ∧ c.col = r.2.2.1)) ∧
      (∀ r ∈ rowsIn evs, ∀ h, r.2.2.2 = some h ↔ h ∈ heights ∧ h.row = r.1) := by
  have hs := rowSorted_of_ordered ho
  have hR' := rowList_unique hR hs hh
  subst hR'
  obtain ⟨bs, hb⟩ := (blocks_some_iff cells heights hs hh).mpr hst
  obtain ⟨n, s', h⟩ := run_blocks size heights cells old off bs hlen hb
  obtain ⟨b1, b2⟩ := blocks_rows cells heights hs hh bs hb hln
  have S := takeRows_spec (cells.length + heights.length) cells heights hs hh
  refine ⟨n, _, s', _, fun fuel => (h fuel).1, blocksIn_blocks size bs, ?_, ?_, ?_, ?_⟩
  · rw [rowsIn_blocks, b1, List.map_map]
    rfl
  · intro b hb'
    obtain ⟨k, hk, rfl⟩ := List.mem_map.mp hb'
    refine ⟨?_, ?_, ?_⟩
    · simp only [rowsIn_append, rowsIn_rows, rowsIn_cells, List.append_nil, List.length_map]
      exact (blocks_length cells heights bs hb k hk).1
    · simp only [List.map_append, List.sum_append, size_rows, size_cells]
    · intro c hc
      simp only [cellsIn_append, cellsIn_rows, cellsIn_cells, List.nil_append] at hc
      rw [b2 k hk] at hc
      obtain ⟨it, hit, hx⟩ := List.mem_flatMap.mp hc
      refine ⟨it.says, ?_, ?_⟩
      · simp only [rowsIn_append, rowsIn_rows, rowsIn_cells, List.append_nil]
        exact List.mem_map_of_mem hit
      · have hit' : it ∈ items cells heights := by
          rw [← b1]; exact List.mem_flatMap.mpr ⟨k, hk, hit⟩
        have := colBounds_cover it.here c hx
        exact ⟨(S.here it hit' c hx).symm, this.1, this.2⟩
  · intro r hr hcell
    rw [rowsIn_blocks, b1] at hr
    obtain ⟨it, hit, rfl⟩ := List.mem_map.mp hr
    obtain ⟨c, hc, e⟩ := hcell
    have hne : it.here ≠ [] := by
      rw [← cellsOf_items cells heights] at hc
      obtain ⟨jt, hjt, hx⟩ := List.mem_flatMap.mp hc
      have ej : jt.num = it.num := by rw [← S.here jt hjt c hx]; exact e
      have : jt = it := by
        obtain ⟨i, hi, ei⟩ := List.getElem_of_mem hit
        obtain ⟨j, hj, ej'⟩ := List.getElem_of_mem hjt
        have hinc := List.pairwise_iff_getElem.mp (items_incr cells heights hs hh)
        by_cases hij : i = j
        · subst hij; rw [← ei, ← ej']
        · rcases Nat.lt_or_gt_of_ne hij with hlt | hlt
          · have := hinc i j (by simpa [nums] using hi) (by simpa [nums] using hj) hlt
            simp only [nums, List.getElem_map, ei, ej'] at this
            omega
          · have := hinc j i (by simpa [nums] using hj) (by simpa [nums] using hi) hlt
            simp only [nums, List.getElem_map, ei, ej'] at this
            omega
      subst this
      exact List.ne_nil_of_mem hx
    have hin : ∀ x ∈ it.here, x ∈ cells := fun x hx => by
      rw [← cellsOf_items cells heights]; exact mem_cellsOf hit hx
    obtain ⟨⟨x, hx, ex⟩, ⟨y, hy, ey⟩⟩ := colBounds_tight it.here hne (fun x hx => hcol x (hin x hx))
    exact ⟨⟨x, hin x hx, S.here it hit x hx, ex⟩, ⟨y, hin y hy, S.here it hit y hy, ey⟩⟩
  · intro r hr h
    rw [rowsIn_blocks, b1] at hr
    obtain ⟨it, hit, rfl⟩ := List.mem_map.mp hr
    exact S.ht it hit h

/-- The negation of C18 in the remaining case: if a group of 16 rows leaves exactly one cell, there is a cell
    whose row has no ROW record at all, although the cell itself is written. -/
theorem c18_lone_cell_unannounced (size : Cell α → Nat) (cells : List (Cell α)) (heights : List RowHeight) (R : List Nat)
    (old : St α) (off : Nat) (ho : Ordered Cell.key cells) (hh : HtSorted heights) (hlen : cells.length < 2 ^ 32)
    (hR : RowList cells heights R) (hst : NoStall cells R) (hln : ¬ NoLone cells R) :
    ∃ n evs s', (∀ fuel, run size heights (fuel + n) off (enter cells old) = .done evs s') ∧
      cellsIn evs = cells ∧ ∃ c ∈ cells, ∀ r ∈ rowsIn evs, r.1 ≠ c.row := by
  have hs := rowSorted_of_ordered ho
  rw [rowList_unique hR hs hh] at hst hln
  obtain ⟨bs, hb⟩ := (blocks_some_iff cells heights hs hh).mpr hst
  obtain ⟨n, s', h⟩ := run_blocks size heights cells old off bs hlen hb
  obtain ⟨c, hc, hn⟩ := blocks_lone cells heights hs hh bs hb hln
  refine ⟨n, _, s', fun fuel => (h fuel).1, by rw [cellsIn_blocks, blocks_cells cells heights bs hb], c, hc, ?_⟩
  intro r hr e
  rw [rowsIn_blocks] at hr
  obtain ⟨it, hit, rfl⟩ := List.mem_map.mp hr
  exact hn (by rw [← e]; exact List.mem_map_of_mem hit)

/-! ### Concrete cases -/

/-- Any state. -/
def idle : St Unit := ⟨.init, [], [], [], 0, 0, 0, 0, []⟩

/-- A sheet with two cells in row 2 and one in row 5, and a height for row 3. -/
example : RowList [(⟨0, 2, 1, ()⟩ : Cell Unit), ⟨1, 2, 4, ()⟩, ⟨2, 5, 0, ()⟩] [⟨3, 400, none⟩] [2, 3, 5] ∧
    NoStall [(⟨0, 2, 1, ()⟩ : Cell Unit), ⟨1, 2, 4, ()⟩, ⟨2, 5, 0, ()⟩] [2, 3, 5] ∧
    NoLone [(⟨0, 2, 1, ()⟩ : Cell Unit), ⟨1, 2, 4, ()⟩, ⟨2, 5, 0, ()⟩] [2, 3, 5] := by
  refine ⟨⟨by decide, fun n => ?_⟩, fun k n h => ?_, fun k n h => ?_⟩
  · simp; omega
  · have := (List.getElem?_eq_some_iff.mp h).1; simp at this; omega
  · have := (List.getElem?_eq_some_iff.mp h).1; simp at this; omega

/-- What that sheet gives. -/
example : run (fun _ => 14) [⟨3, 400, none⟩] 20 0
    (enter [(⟨0, 2, 1, ()⟩ : Cell Unit), ⟨1, 2, 4, ()⟩, ⟨2, 5, 0, ()⟩] idle) =
    .done [.row 2 1 4 none, .row 3 1 0 (some ⟨3, 400, none⟩), .row 5 0 0 none,
      .cell ⟨0, 2, 1, ()⟩, .cell ⟨1, 2, 4, ()⟩, .cell ⟨2, 5, 0, ()⟩, .dbcell 102 [60, 14, 14]]
      ⟨.init, [], [], [], 0, 0, 102, 0, [60, 14, 14]⟩ := rfl

/-- Seventeen rows with a cell each. -/
def seventeen : List (Cell Unit) := (List.range 17).map (fun i => ⟨i, i, 0, ()⟩)

/-- The case of `c18_lone_cell_unannounced`: seventeen rows with one cell each. -/
example : Ordered Cell.key seventeen ∧ RowList seventeen [] (List.range 17) ∧ NoStall seventeen (List.range 17) ∧
    ¬ NoLone seventeen (List.range 17) := by
  refine ⟨by simp only [Ordered]; decide, ⟨by decide, fun n => ?_⟩, fun k n h => ?_, fun h => ?_⟩
  · simp only [seventeen, List.mem_range, List.mem_map, List.not_mem_nil, false_and, exists_false, or_false]
    constructor
    · intro h; exact ⟨_, ⟨n, h, rfl⟩, rfl⟩
    · rintro ⟨_, ⟨a, ha, rfl⟩, rfl⟩; exact ha
  · left
    have h1 := (List.getElem?_eq_some_iff.mp h).1
    simp at h1
    have : k = 0 := by omega
    subst this
    exact ⟨⟨0, 0, 0, ()⟩, by decide, by decide⟩
  · exact h 0 15 (by decide) (by decide)

/-- Its records: sixteen ROW records, none for row 16. -/
example : (match run (fun _ => 14) [] 40 0 (enter seventeen idle) with
    | .done evs _ => (rowsIn evs).map (·.1)
    | _ => []) = List.range 16 := by decide

/-- Heights for rows 0 to 15. -/
def sixteen : List RowHeight := (List.range 16).map (fun i => ⟨i, 300, none⟩)

/-- The case of `c17_stalled_runs_past_end`: heights for rows 0 to 15, two cells in row 20. -/
example : RowList [(⟨0, 20, 0, ()⟩ : Cell Unit), ⟨1, 20, 1, ()⟩] sixteen (List.range 16 ++ [20]) ∧
    ¬ NoStall [(⟨0, 20, 0, ()⟩ : Cell Unit), ⟨1, 20, 1, ()⟩] (List.range 16 ++ [20]) ∧
    HtSorted sixteen := by
  refine ⟨⟨by decide, fun n => ?_⟩, fun h => ?_, by simp only [HtSorted]; decide⟩
  · simp only [sixteen, List.mem_append, List.mem_range, List.mem_map, List.mem_cons, List.not_mem_nil, or_false]
    constructor
    · rintro (h | h)
      · exact Or.inr ⟨⟨_, ⟨n, h, rfl⟩, rfl⟩, _, Or.inl rfl, by show n < 20; omega⟩
      · exact Or.inl ⟨_, Or.inl rfl, h.symm⟩
    · rintro (⟨c, rfl | rfl, h⟩ | ⟨⟨_, ⟨a, ha, rfl⟩, rfl⟩, _⟩)
      · exact Or.inr h.symm
      · exact Or.inr h.symm
      · exact Or.inl ha
  · have := h 0 15 (by decide)
    revert this
    decide

end Xls.Rows
