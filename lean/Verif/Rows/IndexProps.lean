import Verif.Rows.Props
import Verif.Rows.Index
/-
C19: the offsets in the INDEX record.
-/
namespace Xls.Rows
open Xls.Cells

variable {α : Type}

/-! ### Specification -/

/-- Where the DBCELL records are in the stream if the records begin at `off`. -/
def dbcellAt (size : Cell α → Nat) (off : Nat) : List (Ev α) → List Nat
  | [] => []
  | .dbcell s o :: r => off :: dbcellAt size (off + (Ev.dbcell s o : Ev α).size size) r
  | e :: r => dbcellAt size (off + e.size size) r

/-- Every height setting is on a row with cells, or below all cells. -/
def HeightsOnCells (cells : List (Cell α)) (heights : List RowHeight) : Prop :=
  ∀ h ∈ heights, (∃ c ∈ cells, c.row = h.row) ∨ ∀ c ∈ cells, c.row < h.row

/-! ### Helper lemmas -/

theorem HeightsOnCells.rowNum {c : Cell α} {r : List (Cell α)} {hts : List RowHeight} (hs : RowSorted (c :: r))
    (h : HeightsOnCells (c :: r) hts) : rowNum c hts = c.row := by
  cases hts with
  | nil => rfl
  | cons g t =>
    have : ¬ c.row > g.row := by
      intro hg
      rcases h g (by simp) with ⟨x, hx, e⟩ | h
      · rcases List.mem_cons.mp hx with rfl | hx
        · omega
        · have := (List.pairwise_cons.mp hs).1 x hx; omega
      · have := h c (by simp); omega
    simp only [Rows.rowNum]
    rw [if_neg this]

theorem HeightsOnCells.next {c : Cell α} {r : List (Cell α)} {hts : List RowHeight} (hs : RowSorted (c :: r))
    (hh : HtSorted hts) (h : HeightsOnCells (c :: r) hts) :
    HeightsOnCells (nextRow c r hts).2.1 (nextRow c r hts).2.2 := by
  have N := nextRow_spec c r hts hs hh
  intro g hg
  have hsub : ∀ x ∈ (nextRow c r hts).2.1, x ∈ c :: r := fun x hx => by rw [← N.split]; exact List.mem_append_right _ hx
  rcases h g (N.sub g hg) with ⟨x, hx, e⟩ | h1
  · rw [← N.split] at hx
    rcases List.mem_append.mp hx with hx | hx
    · have := N.here x hx
      have := N.restHts g hg
      omega
    · exact Or.inl ⟨x, hx, e⟩
  · exact Or.inr fun x hx => h1 x (hsub x hx)

/-- The cells of a row are counted together. -/
theorem sizeLoop_row (gsize : Cell α → Nat) (num rows n bytes : Nat) (l : List (Cell α)) :
    sizeLoop gsize num rows n bytes l =
      match l.dropWhile (fun x => x.row == num) with
      | [] => ⟨rows, n + (l.takeWhile (fun x => x.row == num)).length,
               bytes + ((l.takeWhile (fun x => x.row == num)).map gsize).sum, []⟩
      | d :: t => sizeLoop gsize num rows (n + (l.takeWhile (fun x => x.row == num)).length)
               (bytes + ((l.takeWhile (fun x => x.row == num)).map gsize).sum) (d :: t) := by
  induction l generalizing n bytes with
  | nil => simp [sizeLoop]
  | cons c r ih =>
    by_cases h : c.row = num
    · simp only [List.dropWhile, List.takeWhile, h, beq_self_eq_true]
      rw [sizeLoop, if_neg (by simp [h]), ih]
      simp only [List.length_cons, List.map_cons, List.sum_cons]
      rw [show n + 1 + (r.takeWhile (fun x => x.row == num)).length = n + ((r.takeWhile (fun x => x.row == num)).length + 1) by omega,
          show bytes + gsize c + ((r.takeWhile (fun x => x.row == num)).map gsize).sum =
            bytes + (gsize c + ((r.takeWhile (fun x => x.row == num)).map gsize).sum) by omega]
    · simp only [List.dropWhile, List.takeWhile, beq_eq_false_iff_ne.mpr h]
      simp

theorem dropWhile_head {l : List (Cell α)} {num : Nat} {d : Cell α} {t : List (Cell α)}
    (h : l.dropWhile (fun x => x.row == num) = d :: t) : d.row ≠ num := by
  induction l with
  | nil => simp at h
  | cons c r ih =>
    by_cases hc : c.row = num
    · simp only [List.dropWhile, hc, beq_self_eq_true] at h
      exact ih h
    · simp only [List.dropWhile, beq_eq_false_iff_ne.mpr hc] at h
      cases h
      exact hc

/-- The counted block is the block the machine takes. -/
theorem sizeLoop_takeRows (gsize : Cell α → Nat) (j : Nat) (c : Cell α) (r : List (Cell α)) (hts : List RowHeight)
    (hs : RowSorted (c :: r)) (hh : HtSorted hts) (ho : HeightsOnCells (c :: r) hts) (rows n bytes : Nat)
    (hj : rows + j = 16) :
    sizeLoop gsize c.row rows n bytes (c :: r) =
      ⟨rows - 1 + (takeRows (j + 1) (c :: r) hts).1.length, n + (cellsOf (takeRows (j + 1) (c :: r) hts).1).length,
       bytes + ((cellsOf (takeRows (j + 1) (c :: r) hts).1).map gsize).sum, (takeRows (j + 1) (c :: r) hts).2.1⟩ ∨
    rows = 0 := by
  induction j generalizing c r hts rows n bytes with
  | zero =>
    left
    have hn := ho.rowNum hs
    rw [sizeLoop_row]
    simp only [takeRows, nextRow, hn, cellsOf, List.flatMap_cons, List.flatMap_nil, List.append_nil, List.length_cons,
      List.length_nil]
    cases hd : (c :: r).dropWhile (fun x => x.row == c.row) with
    | nil => simp only; congr 1; omega
    | cons d t =>
      simp only
      rw [sizeLoop, if_pos (dropWhile_head hd), if_pos (show rows ≥ maxRows by unfold maxRows; omega)]
      congr 1; omega
  | succ j ih =>
    by_cases h0 : rows = 0
    · exact Or.inr h0
    left
    have hn := ho.rowNum hs
    have hnext := ho.next hs hh
    have N := nextRow_spec c r hts hs hh
    rw [sizeLoop_row]
    rw [takeRows]
    have e1 : (nextRow c r hts).1.here = (c :: r).takeWhile (fun x => x.row == c.row) := by simp only [nextRow, hn]
    have e2 : (nextRow c r hts).2.1 = (c :: r).dropWhile (fun x => x.row == c.row) := by simp only [nextRow, hn]
    cases hd : (c :: r).dropWhile (fun x => x.row == c.row) with
    | nil =>
      rw [hd] at e2
      rw [e2, takeRows_nil]
      simp only [cellsOf, List.flatMap_cons, List.flatMap_nil, List.append_nil, List.length_cons, List.length_nil, e1]
      congr 1; omega
    | cons d t =>
      rw [hd] at e2
      have hsort := N.sorted
      rw [e2] at hnext hsort
      simp only
      rw [sizeLoop, if_pos (dropWhile_head hd), if_neg (show ¬ rows ≥ maxRows by unfold maxRows; omega)]
      have := (ih d t (nextRow c r hts).2.2 hsort N.sortedHts hnext (rows + 1)
        (n + ((c :: r).takeWhile (fun x => x.row == c.row)).length)
        (bytes + (((c :: r).takeWhile (fun x => x.row == c.row)).map gsize).sum) (by omega)).resolve_right (by omega)
      rw [sizeLoop, if_neg (by simp)] at this
      rw [this, e2]
      simp only [cellsOf, List.flatMap_cons, List.length_cons, List.length_append, List.map_append, List.sum_append, e1]
      congr 1 <;> omega

theorem HeightsOnCells.take {cur : List (Cell α)} {hts : List RowHeight} (k : Nat) (hs : RowSorted cur)
    (hh : HtSorted hts) (h : HeightsOnCells cur hts) :
    HeightsOnCells (takeRows k cur hts).2.1 (takeRows k cur hts).2.2 := by
  induction k generalizing cur hts with
  | zero => exact h
  | succ k ih =>
    cases cur with
    | nil => exact h
    | cons c r =>
      have N := nextRow_spec c r hts hs hh
      exact ih N.sorted N.sortedHts (h.next hs hh)

/-- What is counted for a block. -/
def Block.size (gsize : Cell α → Nat) (b : Block α) : RBSize :=
  (⟨b.rows.length, b.cells.length, (b.cells.map gsize).sum, []⟩ : Count α).size

theorem cells_ne_nil {c : Cell α} {r : List (Cell α)} {hts : List RowHeight} (hs : RowSorted (c :: r))
    (ho : HeightsOnCells (c :: r) hts) (k : Nat) : cellsOf (takeRows (k + 1) (c :: r) hts).1 ≠ [] := by
  simp only [takeRows, cellsOf, List.flatMap_cons]
  have : c ∈ (nextRow c r hts).1.here := by
    simp only [nextRow, ho.rowNum hs, List.takeWhile, beq_self_eq_true, List.mem_cons, true_or]
  intro h
  rw [List.append_eq_nil_iff] at h
  rw [h.1] at this
  simp at this

/-- Without lone cells and height-only rows the counted blocks are the written ones. -/
theorem rbSizes_blocks (gsize : Cell α → Nat) (cur : List (Cell α)) (hts : List RowHeight) (hs : RowSorted cur)
    (hh : HtSorted hts) (ho : HeightsOnCells cur hts) (hl : NoLone cur (nums (items cur hts))) :
    ∃ bs, blocks cur hts = some bs ∧ rbSizes gsize cur = bs.map (Block.size gsize) := by
  match hcur : cur with
  | [] => exact ⟨[], by rw [blocks], by rw [rbSizes]; rfl⟩
  | c :: r =>
    obtain ⟨its, cur', hts', F⟩ := blockFacts c r hts hs hh
    have hterm : cur'.length + hts'.length < (c :: r).length + hts.length := by
      have := takeRows_shrinks 15 c r hts
      rw [F.eq] at this
      exact this
    have hloop := (sizeLoop_takeRows gsize 15 c r hts hs hh ho 1 0 0 rfl).resolve_right (by omega)
    rw [sizeLoop, if_neg (by simp)] at hloop
    have ho' := ho.take 16 hs hh
    have hne0 := cells_ne_nil hs ho 15
    rw [F.eq] at hloop ho' hne0
    simp only [Nat.zero_add] at hloop ho' hne0
    rw [blocks, rbSizes]
    simp only [hloop, F.eq]
    rw [if_neg (by simp [hne0])]
    by_cases hne : cur' = []
    · subst hne
      rw [if_neg (by simp), blocks, rbSizes]
      refine ⟨_, rfl, ?_⟩
      simp [Block.size, Count.size]
    · have h16 := F.full.resolve_left hne
      obtain ⟨h2, h3⟩ := (F.noLone h16 hne).mp hl
      obtain ⟨bs, hb, e⟩ := rbSizes_blocks gsize cur' hts' F.spec.sorted F.spec.sortedHts ho' h3
      rw [if_neg h2, hb, e]
      refine ⟨_, rfl, ?_⟩
      simp [Block.size, Count.size]
termination_by cur.length + hts.length
decreasing_by subst hcur; exact hterm

/-- Bytes of a block before its DBCELL record. -/
def Block.before (size : Cell α → Nat) (b : Block α) : Nat := 20 * b.rows.length + (b.cells.map size).sum

theorem offsOf_length (size : Cell α → Nat) (k : Nat) (cs : List (Cell α)) : (offsOf size k cs).length = cs.length := by
  cases cs <;> simp [offsOf]

theorem dbcellAt_rows (size : Cell α → Nat) (its : List (Item α)) (off : Nat) (rest : List (Ev α)) :
    dbcellAt size off (its.map Item.ev ++ rest) = dbcellAt size (off + 20 * its.length) rest := by
  induction its generalizing off with
  | nil => rfl
  | cons i r ih =>
    simp only [List.map_cons, List.cons_append, Item.ev, dbcellAt, Ev.size, List.length_cons]
    rw [show off + 20 * (r.length + 1) = off + 20 + 20 * r.length by omega, ← ih (off + 20)]

theorem dbcellAt_cells (size : Cell α → Nat) (cs : List (Cell α)) (off : Nat) (rest : List (Ev α)) :
    dbcellAt size off (cs.map Ev.cell ++ rest) = dbcellAt size (off + (cs.map size).sum) rest := by
  induction cs generalizing off with
  | nil => rfl
  | cons i r ih =>
    simp only [List.map_cons, List.cons_append, dbcellAt, Ev.size, List.sum_cons]
    rw [ih, Nat.add_assoc]

/-- The positions of the DBCELL records of blocks. -/
def blockAts (size : Cell α → Nat) (off : Nat) : List (Block α) → List Nat
  | [] => []
  | b :: r => (off + b.before size) :: blockAts size (off + b.before size + (8 + 2 * b.cells.length)) r

theorem dbcellAt_blocks (size : Cell α → Nat) (bs : List (Block α)) (off : Nat) :
    dbcellAt size off (bs.flatMap (Block.evs size)) = blockAts size off bs := by
  induction bs generalizing off with
  | nil => rfl
  | cons b r ih =>
    rw [List.flatMap_cons, Block.evs, List.append_assoc, List.append_assoc, dbcellAt_rows, dbcellAt_cells]
    simp only [List.cons_append, List.nil_append, dbcellAt, Ev.size, offsOf_length, blockAts, Block.before, ← Nat.add_assoc,
      ih]

theorem blockAts_length (size : Cell α → Nat) (bs : List (Block α)) (off : Nat) : (blockAts size off bs).length = bs.length := by
  induction bs generalizing off with
  | nil => rfl
  | cons b r ih => simp [blockAts, ih]

theorem indexLoop_length (l : List RBSize) (a b : Nat) : (indexLoop a b l).length = l.length := by
  induction l generalizing a b with
  | nil => rfl
  | cons x r ih => simp [indexLoop, ih]

theorem block_size_before (gsize : Cell α → Nat) (b : Block α) : (b.size gsize).rowandcell = b.before gsize := by
  simp only [Block.size, Count.size, Block.before]; omega

theorem block_size_db (gsize : Cell α → Nat) (b : Block α) : 8 + 2 * b.cells.length ≤ (b.size gsize).dbcell := by
  simp only [Block.size, Count.size]; omega

/-- Every offset after the first is too large. -/
theorem indexLoop_over (size : Cell α → Nat) (bs : List (Block α)) (acc at_ off : Nat) (hacc : 0 < acc)
    (hle : off ≤ at_ + acc) (hlt : off < at_ + acc) (k x y : Nat)
    (hx : (indexLoop acc at_ (bs.map (Block.size size)))[k]? = some x) (hy : (blockAts size off bs)[k]? = some y) :
    y < x := by
  induction bs generalizing acc at_ off k with
  | nil => simp [blockAts] at hy
  | cons b r ih =>
    simp only [List.map_cons, indexLoop, blockAts, block_size_before] at hx hy
    have h8 := block_size_db size b
    cases k with
    | zero =>
      simp only [List.getElem?_cons_zero, Option.some.injEq] at hx hy
      omega
    | succ k =>
      simp only [List.getElem?_cons_succ] at hx hy
      exact ih _ _ _ (by omega) (by omega) (by omega) k hx hy

/-! ### C19 -/

/-- Cells in at most 16 rows make one block. -/
theorem single_block (gsize : Cell α → Nat) (cells : List (Cell α)) (heights : List RowHeight)
    (hs : RowSorted cells) (hh : HtSorted heights) (hon : HeightsOnCells cells heights)
    (hne : cells ≠ []) (h16 : (nums (items cells heights)).length ≤ 16) :
    ∃ b, blocks cells heights = some [b] ∧ rbSizes gsize cells = [b.size gsize] ∧ b.cells = cells := by
  have hR : RowList cells heights (nums (items cells heights)) := ⟨items_incr cells heights hs hh, mem_items cells heights hs hh⟩
  have hl : NoLone cells (nums (items cells heights)) := by
    intro k n hn h1
    have hlt := (List.getElem?_eq_some_iff.mp hn).1
    have hk : k = 0 := by omega
    subst hk
    obtain ⟨c, hc⟩ := List.length_eq_one_iff.mp h1
    have hm : c ∈ cells.filter (fun c => decide (n < c.row)) := by rw [hc]; simp
    obtain ⟨hmem, hrow⟩ := List.mem_filter.mp hm
    have hrow : n < c.row := by simpa using hrow
    have : c.row ∈ nums (items cells heights) := (hR.mem c.row).mpr (Or.inl ⟨c, hmem, rfl⟩)
    obtain ⟨i, hi, e⟩ := List.getElem_of_mem this
    obtain ⟨h15, e15⟩ := List.getElem?_eq_some_iff.mp hn
    by_cases hi15 : i = 15
    · subst hi15
      simp only [Nat.mul_zero, Nat.zero_add] at e15
      omega
    · have := List.pairwise_iff_getElem.mp hR.incr i (16 * 0 + 15) hi h15 (by omega)
      omega
  obtain ⟨bs, hb, e⟩ := rbSizes_blocks gsize cells heights hs hh hon hl
  have hbs : ∃ b, bs = [b] := by
    match hm : cells, hne with
    | c :: r, _ =>
      rw [blocks] at hb
      have hc := cells_ne_nil hs hon 15
      rw [if_neg (by simp [hc])] at hb
      obtain ⟨its, cur', hts', F⟩ := blockFacts c r heights hs hh
      have hcur : cur' = [] := by
        refine Classical.byContradiction fun hne => ?_
        have hl16 := F.full.resolve_left hne
        obtain ⟨d, t, ed⟩ := List.exists_cons_of_ne_nil hne
        have hlen2 : (nums (items (c :: r) heights)).length ≤ 16 := h16
        rw [F.next, List.length_append] at hlen2
        have : 0 < (nums (items cur' hts')).length := by
          refine List.length_pos_of_mem (a := d.row) ?_
          rw [mem_items cur' hts' F.spec.sorted F.spec.sortedHts]
          exact Or.inl ⟨d, by simp [ed], rfl⟩
        have : (nums its).length = 16 := by simp [nums, hl16]
        omega
      rw [F.eq] at hb
      simp only [hcur] at hb
      rw [if_neg (by simp), blocks] at hb
      cases hb
      exact ⟨_, rfl⟩
  obtain ⟨b, rfl⟩ := hbs
  have hcells := blocks_cells cells heights [b] hb
  simp only [List.flatMap_cons, List.flatMap_nil, List.append_nil] at hcells
  exact ⟨b, hb, e, hcells⟩

/-- C19 for a sheet whose cells lie in at most 16 rows: the INDEX record written at `pos` holds the position of
    the DEFCOLWIDTH record and then exactly the position of the sheet's DBCELL record.  The record sizes that the
    cells announce must be right (C25), no height may be set on a row without cells above the last cell, and the
    row blocks follow the DIMENSION record (C21).  Missing for the full claim: sheets with more rows, for which it
    is false (`c19_later_offsets_wrong`). -/
theorem c19_single_block_partial (size gsize : Cell α → Nat) (cells : List (Cell α)) (heights : List RowHeight) (R : List Nat)
    (old : St α) (pos ncol : Nat) (ho : Ordered Cell.key cells) (hh : HtSorted heights) (hlen : cells.length < 2 ^ 32)
    (hR : RowList cells heights R) (hon : HeightsOnCells cells heights) (hg : ∀ c ∈ cells, gsize c = size c)
    (hne : cells ≠ []) (h16 : R.length ≤ 16) :
    ∃ n evs s' p, (∀ fuel, run size heights (fuel + n) (defColWidthAt pos 1 ncol + 6 + 18) (enter cells old) = .done evs s') ∧
      dbcellAt size (defColWidthAt pos 1 ncol + 6 + 18) evs = [p] ∧
      indexOffsets gsize pos ncol cells = [defColWidthAt pos 1 ncol, p] := by
  have hs := rowSorted_of_ordered ho
  have hR' := rowList_unique hR hs hh
  subst hR'
  obtain ⟨b, hb, e, hcells⟩ := single_block gsize cells heights hs hh hon hne h16
  obtain ⟨n, s', h⟩ := run_blocks size heights cells old (defColWidthAt pos 1 ncol + 6 + 18) [b] hlen hb
  have hsum : (b.cells.map gsize).sum = (b.cells.map size).sum := by
    rw [hcells]
    congr 1
    exact List.map_congr_left hg
  refine ⟨n, _, s', _, fun fuel => (h fuel).1, by rw [dbcellAt_blocks]; rfl, ?_⟩
  unfold indexOffsets
  simp only [e, List.length_cons, List.length_nil, indexLoop, block_size_before, Nat.zero_add, Block.before, hsum]

/-- C19 when the announced sizes are not the sizes of the records: the offset is wrong by exactly the sum of the differences. -/
theorem c19_wrong_sizes (size gsize : Cell α → Nat) (cells : List (Cell α)) (heights : List RowHeight) (R : List Nat)
    (old : St α) (pos ncol : Nat) (ho : Ordered Cell.key cells) (hh : HtSorted heights) (hlen : cells.length < 2 ^ 32)
    (hR : RowList cells heights R) (hon : HeightsOnCells cells heights) (hne : cells ≠ []) (h16 : R.length ≤ 16) :
    ∃ n evs s' p q, (∀ fuel, run size heights (fuel + n) (defColWidthAt pos 1 ncol + 6 + 18) (enter cells old) = .done evs s') ∧
      dbcellAt size (defColWidthAt pos 1 ncol + 6 + 18) evs = [p] ∧
      indexOffsets gsize pos ncol cells = [defColWidthAt pos 1 ncol, q] ∧
      q + (cells.map size).sum = p + (cells.map gsize).sum := by
  have hs := rowSorted_of_ordered ho
  have hR' := rowList_unique hR hs hh
  subst hR'
  obtain ⟨b, hb, e, hcells⟩ := single_block gsize cells heights hs hh hon hne h16
  obtain ⟨n, s', h⟩ := run_blocks size heights cells old (defColWidthAt pos 1 ncol + 6 + 18) [b] hlen hb
  refine ⟨n, _, s', _, defColWidthAt pos 1 ncol + 6 + 18 + b.before gsize, fun fuel => (h fuel).1, by rw [dbcellAt_blocks]; rfl, ?_, ?_⟩
  · unfold indexOffsets
    simp only [e, List.length_cons, List.length_nil, indexLoop, block_size_before, Nat.zero_add]
  · simp only [Block.before, hcells]
    omega

/-- The negation of C19 for every larger sheet: with heights on rows with cells only, no lone cell and correct
    sizes, the INDEX record has one offset per DBCELL record; the first is right and every later one is larger than
    the position of its DBCELL record. -/
theorem c19_later_offsets_wrong (size : Cell α → Nat) (cells : List (Cell α)) (heights : List RowHeight) (R : List Nat)
    (old : St α) (pos ncol : Nat) (ho : Ordered Cell.key cells) (hh : HtSorted heights) (hlen : cells.length < 2 ^ 32)
    (hR : RowList cells heights R) (hon : HeightsOnCells cells heights) (hln : NoLone cells R) :
    ∃ n evs s' offs, (∀ fuel, run size heights (fuel + n) (defColWidthAt pos (rbSizes size cells).length ncol + 6 + 18)
        (enter cells old) = .done evs s') ∧
      indexOffsets size pos ncol cells = defColWidthAt pos (rbSizes size cells).length ncol :: offs ∧
      offs.length = (dbcellAt size (defColWidthAt pos (rbSizes size cells).length ncol + 6 + 18) evs).length ∧
      ∀ k x y, offs[k]? = some x →
        (dbcellAt size (defColWidthAt pos (rbSizes size cells).length ncol + 6 + 18) evs)[k]? = some y →
        if k = 0 then x = y else y < x := by
  have hs := rowSorted_of_ordered ho
  have hR' := rowList_unique hR hs hh
  subst hR'
  obtain ⟨bs, hb, e⟩ := rbSizes_blocks size cells heights hs hh hon hln
  obtain ⟨n, s', h⟩ := run_blocks size heights cells old (defColWidthAt pos (rbSizes size cells).length ncol + 6 + 18) bs hlen hb
  refine ⟨n, _, s', _, fun fuel => (h fuel).1, rfl, ?_, ?_⟩
  · rw [dbcellAt_blocks, indexLoop_length, blockAts_length, e, List.length_map]
  · intro k x y hx hy
    rw [dbcellAt_blocks] at hy
    rw [e] at hx hy
    generalize defColWidthAt pos (bs.map (Block.size size)).length ncol + 6 + 18 = at_ at hx hy
    cases bs with
    | nil => simp [blockAts] at hy
    | cons b r =>
      simp only [List.map_cons, indexLoop, blockAts, block_size_before, Nat.zero_add] at hx hy
      have hb1 := (blocks_length cells heights (b :: r) hb b (by simp)).2
      have h8 := block_size_db size b
      have hpos : 0 < b.before size := by
        have := List.length_pos_iff.mpr hb1
        unfold Block.before
        omega
      cases k with
      | zero =>
        simp only [List.getElem?_cons_zero, Option.some.injEq] at hx hy
        rw [if_pos rfl]
        omega
      | succ k =>
        simp only [List.getElem?_cons_succ] at hx hy
        rw [if_neg (by omega)]
        exact indexLoop_over size r _ _ _ (by omega) (by omega) (by omega) k x y hx hy

/-! ### Concrete cases -/

/-- A case of `c19_single_block_partial`: three cells in rows 2 and 5. -/
example : HeightsOnCells [(⟨0, 2, 1, ()⟩ : Cell Unit), ⟨1, 2, 4, ()⟩, ⟨2, 5, 0, ()⟩] [⟨2, 400, none⟩, ⟨9, 400, none⟩] ∧
    RowList [(⟨0, 2, 1, ()⟩ : Cell Unit), ⟨1, 2, 4, ()⟩, ⟨2, 5, 0, ()⟩] [⟨2, 400, none⟩, ⟨9, 400, none⟩] [2, 5] ∧
    indexOffsets (fun _ => 14) 1000 0 [(⟨0, 2, 1, ()⟩ : Cell Unit), ⟨1, 2, 4, ()⟩, ⟨2, 5, 0, ()⟩] = [1032, 1138] := by
  refine ⟨?_, ⟨by decide, fun n => ?_⟩, ?_⟩
  · unfold HeightsOnCells; decide
  · simp; omega
  · simp [indexOffsets, rbSizes, sizeLoop, Count.size, indexLoop, defColWidthAt, maxRows]

/-- Eighteen rows with a cell each: a case of `c19_later_offsets_wrong` with two blocks. -/
example : let cells : List (Cell Unit) := (List.range 18).map (fun i => ⟨i, i, 0, ()⟩)
    (indexOffsets (fun _ => 14) 0 0 cells)[2]? = some 1256 ∧
    (match run (fun _ => 14) [] 50 60 (enter cells idle) with
      | .done evs _ => (dbcellAt (fun _ => 14) 60 evs)[1]?
      | _ => none) = some 712 ∧ NoLone cells (List.range 18) := by
  refine ⟨?_, ?_, ?_⟩
  · simp [indexOffsets, rbSizes, sizeLoop, Count.size, indexLoop, defColWidthAt, maxRows, List.range, List.range.loop]
  · rfl
  · intro k n h
    have h1 := (List.getElem?_eq_some_iff.mp h).1
    simp at h1
    have : k = 0 := by omega
    subst this
    simp at h
    subst h
    decide

end Xls.Rows
