import Verif.Rows.Sorted
import Verif.Rows.Spec
/-
Helper lemmas for C17 and C18: which blocks there are.
-/
namespace Xls.Rows
open Xls.Cells

variable {α : Type}

/-! ### Helper lemmas -/

theorem rowList_unique {cells : List (Cell α)} {heights : List RowHeight} {R : List Nat} (h : RowList cells heights R)
    (hs : RowSorted cells) (hh : HtSorted heights) : R = nums (items cells heights) :=
  incr_unique h.incr (items_incr cells heights hs hh) (fun n => by rw [h.mem, mem_items cells heights hs hh])

theorem items_nil (hts : List RowHeight) : items ([] : List (Cell α)) hts = [] := by simp [items, takeRows_nil]

theorem after_split {xs ys : List (Cell α)} {n : Nat} (hx : ∀ c ∈ xs, c.row ≤ n) :
    after (xs ++ ys) n = after ys n := by
  unfold after
  rw [List.filter_append, List.filter_eq_nil_iff.mpr (by intro c hc; have := hx c hc; simp; omega)]
  rfl

theorem after_all {ys : List (Cell α)} {n : Nat} (hy : ∀ c ∈ ys, n < c.row) : after ys n = ys.length := by
  unfold after
  rw [List.filter_eq_self.mpr (by intro c hc; simpa using hy c hc)]

/-- What is known of a block taken from sorted input. -/
structure BlockFacts (c : Cell α) (r : List (Cell α)) (hts : List RowHeight) (its : List (Item α))
    (cur' : List (Cell α)) (hts' : List RowHeight) : Prop where
  eq : takeRows 16 (c :: r) hts = (its, cur', hts')
  split : cellsOf its ++ cur' = c :: r
  spec : RowsSpec (c :: r) hts its cur' hts'
  cells : ∀ x ∈ cellsOf its, x.row ∈ nums its
  next : nums (items (c :: r) hts) = nums its ++ nums (items cur' hts')
  full : cur' = [] ∨ its.length = 16
  ends : cur' = [] → items cur' hts' = []
  later : ∀ n ∈ nums (items cur' hts'), ∀ x ∈ cellsOf its, x.row < n

theorem blockFacts (c : Cell α) (r : List (Cell α)) (hts : List RowHeight) (hs : RowSorted (c :: r)) (hh : HtSorted hts) :
    ∃ its cur' hts', BlockFacts c r hts its cur' hts' := by
  refine ⟨_, _, _, ⟨rfl, takeRows_cells 16 (c :: r) hts, takeRows_spec 16 (c :: r) hts hs hh, ?_, ?_,
    takeRows_full 16 (c :: r) hts, ?_, ?_⟩⟩
  · intro x hx
    obtain ⟨it, hit, hx⟩ := List.mem_flatMap.mp hx
    rw [(takeRows_spec 16 (c :: r) hts hs hh).here it hit x hx]
    exact List.mem_map_of_mem hit
  · rw [items_split 16 (c :: r) hts, nums, List.map_append]; rfl
  · intro h; rw [h]; exact items_nil _
  · intro n hn x hx
    have hi := items_incr (c :: r) hts hs hh
    rw [items_split 16 (c :: r) hts] at hi
    simp only [nums, List.map_append] at hi
    refine (List.pairwise_append.mp hi).2.2 x.row ?_ n hn
    obtain ⟨it, hit, hx⟩ := List.mem_flatMap.mp hx
    rw [(takeRows_spec 16 (c :: r) hts hs hh).here it hit x hx]
    exact List.mem_map_of_mem hit

variable {c : Cell α} {r : List (Cell α)} {hts : List RowHeight} {its : List (Item α)} {cur' : List (Cell α)}
  {hts' : List RowHeight}

theorem BlockFacts.last (F : BlockFacts c r hts its cur' hts') (h16 : its.length = 16) :
    ∃ n, (nums (items (c :: r) hts))[15]? = some n ∧ n ∈ nums its ∧ after (c :: r) n = cur'.length := by
  have hl : (nums its).length = 16 := by simp [nums, h16]
  have h15 : 15 < (nums its).length := by omega
  refine ⟨(nums its)[15], ?_, List.getElem_mem _, ?_⟩
  · rw [F.next, List.getElem?_append_left h15, List.getElem?_eq_getElem h15]
  · rw [← F.split, after_split, after_all (F.spec.rest _ (List.getElem_mem _))]
    intro x hx
    have hm := F.cells x hx
    obtain ⟨i, hi, e⟩ := List.getElem_of_mem hm
    by_cases h : i = 15
    · subst h; rw [e]; exact Nat.le_refl _
    · have := List.pairwise_iff_getElem.mp F.spec.incr i 15 hi h15 (by omega)
      omega

theorem BlockFacts.after_later (F : BlockFacts c r hts its cur' hts') {n : Nat} (hn : n ∈ nums (items cur' hts')) :
    after (c :: r) n = after cur' n := by
  rw [← F.split, after_split]
  intro x hx
  exact Nat.le_of_lt (F.later n hn x hx)

theorem BlockFacts.hit_later (F : BlockFacts c r hts its cur' hts') (k : Nat) :
    (∃ x ∈ c :: r, x.row ∈ ((nums (items cur' hts')).drop (16 * k)).take 16) ↔
      (∃ x ∈ cur', x.row ∈ ((nums (items cur' hts')).drop (16 * k)).take 16) := by
  constructor
  · rintro ⟨x, hx, hr⟩
    rw [← F.split] at hx
    rcases List.mem_append.mp hx with hx | hx
    · have := F.later x.row (List.mem_of_mem_drop (List.mem_of_mem_take hr)) x hx
      omega
    · exact ⟨x, hx, hr⟩
  · rintro ⟨x, hx, hr⟩
    exact ⟨x, by rw [← F.split]; exact List.mem_append_right _ hx, hr⟩

theorem BlockFacts.hit_first (F : BlockFacts c r hts its cur' hts') (h16 : its.length = 16) :
    (∃ x ∈ c :: r, x.row ∈ ((nums (items (c :: r) hts)).drop (16 * 0)).take 16) ↔ cellsOf its ≠ [] := by
  have htake : ((nums (items (c :: r) hts)).drop (16 * 0)).take 16 = nums its := by
    rw [F.next, Nat.mul_zero, List.drop_zero, List.take_left' (by simp [nums, h16])]
  rw [htake]
  constructor
  · rintro ⟨x, hx, hr⟩ h
    rw [← F.split, h, List.nil_append] at hx
    have := F.spec.rest x.row hr x hx
    omega
  · intro h
    obtain ⟨x, xs, e⟩ := List.exists_cons_of_ne_nil h
    exact ⟨x, by rw [← F.split, e]; simp, F.cells x (by simp [e])⟩

theorem BlockFacts.noStall (F : BlockFacts c r hts its cur' hts') (h16 : its.length = 16) (hne : cur' ≠ []) :
    NoStall (c :: r) (nums (items (c :: r) hts)) ↔
      ¬ (cellsOf its = [] ∧ cur'.length ≠ 1) ∧ NoStall cur' (nums (items cur' hts')) := by
  have hl : (nums its).length = 16 := by simp [nums, h16]
  have hpos : 0 < cur'.length := List.length_pos_iff.mpr hne
  obtain ⟨n0, hn0, _, ha0⟩ := F.last h16
  have hget : ∀ k, (nums (items (c :: r) hts))[16 * (k + 1) + 15]? = (nums (items cur' hts'))[16 * k + 15]? := by
    intro k
    rw [F.next, List.getElem?_append_right (by omega), hl]
    congr 1
  have hdrop : ∀ k, (nums (items (c :: r) hts)).drop (16 * (k + 1)) = (nums (items cur' hts')).drop (16 * k) := by
    intro k
    rw [F.next, List.drop_append, hl, List.drop_eq_nil_of_le (by omega), List.nil_append]
    congr 1
  constructor
  · intro h
    refine ⟨?_, fun k n hn => ?_⟩
    · rintro ⟨h1, h2⟩
      rcases h 0 n0 hn0 with h3 | h3
      · exact (F.hit_first h16).mp h3 h1
      · omega
    · rcases h (k + 1) n (by rw [hget]; exact hn) with h3 | h3
      · rw [hdrop] at h3
        exact Or.inl ((F.hit_later k).mp h3)
      · rw [F.after_later (List.mem_of_getElem? hn)] at h3
        exact Or.inr h3
  · rintro ⟨h1, h2⟩ k n hn
    cases k with
    | zero =>
      rw [Nat.mul_zero, Nat.zero_add, hn0, Option.some.injEq] at hn
      subst hn
      by_cases hc : cellsOf its = []
      · right
        have : cur'.length = 1 := Classical.byContradiction fun h => h1 ⟨hc, h⟩
        omega
      · exact Or.inl ((F.hit_first h16).mpr hc)
    | succ k =>
      rw [hget] at hn
      rcases h2 k n hn with h3 | h3
      · rw [hdrop]
        exact Or.inl ((F.hit_later k).mpr h3)
      · rw [F.after_later (List.mem_of_getElem? hn)]
        exact Or.inr h3

theorem BlockFacts.noLone (F : BlockFacts c r hts its cur' hts') (h16 : its.length = 16) (hne : cur' ≠ []) :
    NoLone (c :: r) (nums (items (c :: r) hts)) ↔ cur'.length ≠ 1 ∧ NoLone cur' (nums (items cur' hts')) := by
  have hl : (nums its).length = 16 := by simp [nums, h16]
  obtain ⟨n0, hn0, _, ha0⟩ := F.last h16
  have hget : ∀ k, (nums (items (c :: r) hts))[16 * (k + 1) + 15]? = (nums (items cur' hts'))[16 * k + 15]? := by
    intro k
    rw [F.next, List.getElem?_append_right (by omega), hl]
    congr 1
  constructor
  · intro h
    refine ⟨?_, fun k n hn => ?_⟩
    · have := h 0 n0 hn0; omega
    · have := h (k + 1) n (by rw [hget]; exact hn)
      rwa [F.after_later (List.mem_of_getElem? hn)] at this
  · rintro ⟨h1, h2⟩ k n hn
    cases k with
    | zero =>
      rw [Nat.mul_zero, Nat.zero_add, hn0, Option.some.injEq] at hn
      subst hn
      omega
    | succ k =>
      rw [hget] at hn
      rw [F.after_later (List.mem_of_getElem? hn)]
      exact h2 k n hn

theorem after_le (cells : List (Cell α)) (n : Nat) : after cells n ≤ cells.length := List.length_filter_le _ _

/-- The machine comes to its end exactly if no group of rows stalls it. -/
theorem blocks_some_iff (cur : List (Cell α)) (hts : List RowHeight) (hs : RowSorted cur) (hh : HtSorted hts) :
    (∃ bs, blocks cur hts = some bs) ↔ NoStall cur (nums (items cur hts)) := by
  match hcur : cur with
  | [] =>
    rw [blocks, items_nil]
    exact ⟨fun _ k n h => by simp [nums] at h, fun _ => ⟨[], rfl⟩⟩
  | c :: r =>
    obtain ⟨its, cur', hts', F⟩ := blockFacts c r hts hs hh
    have hterm : cur'.length + hts'.length < (c :: r).length + hts.length := by
      have := takeRows_shrinks 15 c r hts
      rw [F.eq] at this
      exact this
    have ih := blocks_some_iff cur' hts' F.spec.sorted F.spec.sortedHts
    rw [blocks, F.eq]
    simp only
    by_cases hne : cur' = []
    · subst hne
      have hcells : cellsOf its = c :: r := by simpa using F.split
      rw [if_neg (by simp [hcells]), if_neg (by simp)]
      rw [items_nil] at ih
      constructor
      · intro _ k n hn
        left
        have hle := takeRows_length 16 (c :: r) hts
        rw [F.eq] at hle
        have hR : nums (items (c :: r) hts) = nums its := by rw [F.next, items_nil]; simp [nums]
        rw [hR] at hn ⊢
        have hlt : 16 * k + 15 < (nums its).length := (List.getElem?_eq_some_iff.mp hn).1
        have hk : k = 0 := by simp only [nums, List.length_map] at hlt; simp only at hle; omega
        subst hk
        refine ⟨c, by simp, ?_⟩
        rw [Nat.mul_zero, List.drop_zero, List.take_of_length_le (by simpa [nums] using hle)]
        exact F.cells c (by simp [hcells])
      · intro _
        rw [blocks]
        exact ⟨_, rfl⟩
    · have h16 := F.full.resolve_left hne
      rw [F.noStall h16 hne, ← ih]
      by_cases h1 : cellsOf its = [] ∧ cur'.length ≠ 1
      · rw [if_pos h1]
        constructor
        · rintro ⟨bs, h⟩; simp at h
        · rintro ⟨h, _⟩; exact absurd h1 h
      · rw [if_neg h1]
        by_cases h2 : cur'.length = 1
        · rw [if_pos h2]
          refine ⟨fun _ => ⟨h1, ih.mpr ?_⟩, fun _ => ⟨_, rfl⟩⟩
          intro k n _
          right
          have := after_le cur' n
          omega
        · rw [if_neg h2]
          constructor
          · rintro ⟨bs, h⟩
            obtain ⟨bs', h, _⟩ := Option.map_eq_some_iff.mp h
            exact ⟨h1, bs', h⟩
          · rintro ⟨_, bs', h⟩
            exact ⟨_, by rw [h]; rfl⟩
termination_by cur.length + hts.length
decreasing_by subst hcur; exact hterm

/-- The cells of the blocks are the cells. -/
theorem blocks_cells (cur : List (Cell α)) (hts : List RowHeight) (bs : List (Block α)) (h : blocks cur hts = some bs) :
    bs.flatMap Block.cells = cur := by
  match hcur : cur with
  | [] => rw [blocks] at h; cases h; rfl
  | c :: r =>
    rw [blocks] at h
    have hsplit := takeRows_cells 16 (c :: r) hts
    have hterm := takeRows_shrinks 15 c r hts
    by_cases h1 : cellsOf (takeRows 16 (c :: r) hts).1 = [] ∧ (takeRows 16 (c :: r) hts).2.1.length ≠ 1
    · rw [if_pos h1] at h; simp at h
    · rw [if_neg h1] at h
      by_cases h2 : (takeRows 16 (c :: r) hts).2.1.length = 1
      · rw [if_pos h2] at h
        cases h
        simp
      · rw [if_neg h2] at h
        obtain ⟨bs', h', rfl⟩ := Option.map_eq_some_iff.mp h
        have := blocks_cells _ _ bs' h'
        rw [List.flatMap_cons, this, hsplit]
termination_by cur.length + hts.length
decreasing_by subst hcur; exact hterm

theorem blocks_length (cur : List (Cell α)) (hts : List RowHeight) (bs : List (Block α)) (h : blocks cur hts = some bs) :
    ∀ b ∈ bs, b.rows.length ≤ 16 ∧ b.rows ≠ [] := by
  match hcur : cur with
  | [] => rw [blocks] at h; cases h; simp
  | c :: r =>
    rw [blocks] at h
    have hlen := takeRows_length 16 (c :: r) hts
    have hne : (takeRows 16 (c :: r) hts).1 ≠ [] := by simp [takeRows]
    have hterm := takeRows_shrinks 15 c r hts
    by_cases h1 : cellsOf (takeRows 16 (c :: r) hts).1 = [] ∧ (takeRows 16 (c :: r) hts).2.1.length ≠ 1
    · rw [if_pos h1] at h; simp at h
    · rw [if_neg h1] at h
      by_cases h2 : (takeRows 16 (c :: r) hts).2.1.length = 1
      · rw [if_pos h2] at h
        cases h
        intro b hb
        rw [List.mem_singleton.mp hb]
        exact ⟨hlen, hne⟩
      · rw [if_neg h2] at h
        obtain ⟨bs', h', rfl⟩ := Option.map_eq_some_iff.mp h
        have := blocks_length _ _ bs' h'
        intro b hb
        rcases List.mem_cons.mp hb with rfl | hb
        · exact ⟨hlen, hne⟩
        · exact this b hb
termination_by cur.length + hts.length
decreasing_by subst hcur; exact hterm

/-- Without a lone last cell the blocks hold all rows, each with its own cells. -/
theorem blocks_rows (cur : List (Cell α)) (hts : List RowHeight) (hs : RowSorted cur) (hh : HtSorted hts)
    (bs : List (Block α)) (h : blocks cur hts = some bs) (hl : NoLone cur (nums (items cur hts))) :
    bs.flatMap Block.rows = items cur hts ∧ ∀ b ∈ bs, b.cells = cellsOf b.rows := by
  match hcur : cur with
  | [] => rw [blocks] at h; cases h; simp [items_nil]
  | c :: r =>
    obtain ⟨its, cur', hts', F⟩ := blockFacts c r hts hs hh
    have hterm : cur'.length + hts'.length < (c :: r).length + hts.length := by
      have := takeRows_shrinks 15 c r hts
      rw [F.eq] at this
      exact this
    have hsplit : items (c :: r) hts = its ++ items cur' hts' := by
      have := items_split 16 (c :: r) hts
      rwa [F.eq] at this
    rw [blocks, F.eq] at h
    simp only at h
    by_cases h1 : cellsOf its = [] ∧ cur'.length ≠ 1
    · rw [if_pos h1] at h; simp at h
    · rw [if_neg h1] at h
      by_cases hne : cur' = []
      · subst hne
        rw [if_neg (by simp), blocks] at h
        cases h
        rw [hsplit, items_nil]
        simp
      · have h16 := F.full.resolve_left hne
        obtain ⟨h2, h3⟩ := (F.noLone h16 hne).mp hl
        rw [if_neg h2] at h
        obtain ⟨bs', h', rfl⟩ := Option.map_eq_some_iff.mp h
        obtain ⟨i1, i2⟩ := blocks_rows cur' hts' F.spec.sorted F.spec.sortedHts bs' h' h3
        refine ⟨by rw [List.flatMap_cons, i1, hsplit], fun b hb => ?_⟩
        rcases List.mem_cons.mp hb with rfl | hb
        · rfl
        · exact i2 b hb
termination_by cur.length + hts.length
decreasing_by subst hcur; exact hterm

/-! ### Reading the records of blocks -/

theorem cellsIn_append (a b : List (Ev α)) : cellsIn (a ++ b) = cellsIn a ++ cellsIn b := by
  induction a with
  | nil => rfl
  | cons e r ih => cases e <;> simp [cellsIn, ih]

theorem rowsIn_append (a b : List (Ev α)) : rowsIn (a ++ b) = rowsIn a ++ rowsIn b := by
  induction a with
  | nil => rfl
  | cons e r ih => cases e <;> simp [rowsIn, ih]

/-- What the ROW record of a row says. -/
def Item.says (it : Item α) : Nat × Nat × Nat × Option RowHeight :=
  (it.num, (colBounds it.here).1, (colBounds it.here).2, it.ht)

theorem cellsIn_rows (its : List (Item α)) : cellsIn (its.map Item.ev) = [] := by
  induction its with
  | nil => rfl
  | cons e r ih => simpa [cellsIn, Item.ev] using ih

theorem cellsIn_cells (cs : List (Cell α)) : cellsIn (cs.map Ev.cell) = cs := by
  induction cs with
  | nil => rfl
  | cons e r ih => simp [cellsIn, ih]

theorem rowsIn_rows (its : List (Item α)) : rowsIn (its.map Item.ev) = its.map Item.says := by
  induction its with
  | nil => rfl
  | cons e r ih => simpa [rowsIn, Item.ev, Item.says] using ih

theorem rowsIn_cells (cs : List (Cell α)) : rowsIn (cs.map Ev.cell) = [] := by
  induction cs with
  | nil => rfl
  | cons e r ih => simp [rowsIn, ih]

theorem cellsIn_blocks (size : Cell α → Nat) (bs : List (Block α)) :
    cellsIn (bs.flatMap (Block.evs size)) = bs.flatMap Block.cells := by
  induction bs with
  | nil => rfl
  | cons b r ih =>
    simp only [List.flatMap_cons, cellsIn_append, Block.evs, cellsIn_rows, cellsIn_cells, ih]
    simp [cellsIn]

theorem rowsIn_blocks (size : Cell α → Nat) (bs : List (Block α)) :
    rowsIn (bs.flatMap (Block.evs size)) = (bs.flatMap Block.rows).map Item.says := by
  induction bs with
  | nil => rfl
  | cons b r ih =>
    simp only [List.flatMap_cons, rowsIn_append, Block.evs, rowsIn_rows, rowsIn_cells, ih, List.map_append]
    simp [rowsIn]

theorem blocksIn_rows (its : List (Item α)) (acc rest : List (Ev α)) :
    blocksIn acc (its.map Item.ev ++ rest) = blocksIn ((its.map Item.ev).reverse ++ acc) rest := by
  induction its generalizing acc with
  | nil => rfl
  | cons e r ih =>
    simp only [List.map_cons, List.cons_append, Item.ev, blocksIn, List.reverse_cons, List.append_assoc, List.nil_append]
    exact ih _

theorem blocksIn_cells (cs : List (Cell α)) (acc rest : List (Ev α)) :
    blocksIn acc (cs.map Ev.cell ++ rest) = blocksIn ((cs.map Ev.cell).reverse ++ acc) rest := by
  induction cs generalizing acc with
  | nil => rfl
  | cons e r ih =>
    simp only [List.map_cons, List.cons_append, blocksIn, List.reverse_cons, List.append_assoc, List.nil_append]
    exact ih _

theorem blocksIn_blocks (size : Cell α → Nat) (bs : List (Block α)) :
    blocksIn [] (bs.flatMap (Block.evs size)) = some (bs.map (fun b => (b.rows.map Item.ev ++ b.cells.map Ev.cell, 20 * b.rows.length + (b.cells.map size).sum))) := by
  induction bs with
  | nil => rfl
  | cons b r ih =>
    rw [List.flatMap_cons, Block.evs, List.append_assoc, List.append_assoc, blocksIn_rows, blocksIn_cells]
    simp only [List.cons_append, List.nil_append, blocksIn, ih, Option.map_some, List.map_cons]
    simp

theorem colBounds_fold (cs : List (Cell α)) (f l : Nat) :
    let b := cs.foldl (fun (p : Nat × Nat) c => (if c.col < p.1 then c.col else p.1, if c.col > p.2 then c.col else p.2)) (f, l)
    b.1 ≤ f ∧ l ≤ b.2 ∧ ∀ c ∈ cs, b.1 ≤ c.col ∧ c.col ≤ b.2 := by
  induction cs generalizing f l with
  | nil => simp
  | cons c r ih =>
    simp only [List.foldl_cons]
    obtain ⟨h1, h2, h3⟩ := ih (if c.col < f then c.col else f) (if c.col > l then c.col else l)
    have e1 : (if c.col < f then c.col else f) ≤ f ∧ (if c.col < f then c.col else f) ≤ c.col := by split <;> omega
    have e2 : l ≤ (if c.col > l then c.col else l) ∧ c.col ≤ (if c.col > l then c.col else l) := by split <;> omega
    refine ⟨Nat.le_trans h1 e1.1, Nat.le_trans e2.1 h2, fun x hx => ?_⟩
    rcases List.mem_cons.mp hx with rfl | hx
    · exact ⟨Nat.le_trans h1 e1.2, Nat.le_trans e2.2 h2⟩
    · exact h3 x hx

/-- The column bounds of a row cover its cells. -/
theorem colBounds_cover (cs : List (Cell α)) (c : Cell α) (hc : c ∈ cs) :
    (colBounds cs).1 ≤ c.col ∧ c.col ≤ (colBounds cs).2 := by
  have h := colBounds_fold cs (2 ^ 32 - 1) 0
  have hb := h.2.2 c hc
  unfold colBounds
  simp only at h hb ⊢
  rw [if_neg (by omega)]
  exact hb

/-! ### When the machine stalls -/

theorem cells_ub (size : Cell α → Nat) (heights : List RowHeight) (xs : List (Cell α)) (s : St α) (off : Nat)
    (hph : s.phase = .cells) (hst : s.start = xs) (hcc : xs.length < s.cellCounter) :
    ∃ n, ∀ fuel, run size heights (fuel + n) off s = .ub := by
  induction xs generalizing s off with
  | nil =>
    refine ⟨1, fun fuel => ?_⟩
    have hp : pass size heights off s = .ub := by
      unfold pass
      rw [hph]
      simp only [List.length_nil] at hcc
      simp only [hst]
      rw [if_neg (by omega)]
    rw [run, hp]
  | cons x xs ih =>
    have hp : pass size heights off s = .ret (some (.cell x))
        { s with dbOff := s.dbOff + size x, offs := s.offs ++ [size x], cellCounter := s.cellCounter - 1, start := xs } := by
      unfold pass
      rw [hph]
      simp only [List.length_cons] at hcc
      simp only [hst]
      rw [if_neg (by omega)]
    obtain ⟨n, hn⟩ := ih { s with dbOff := s.dbOff + size x, offs := s.offs ++ [size x], cellCounter := s.cellCounter - 1,
                                  start := xs } (off + size x) hph rfl (by simp only [List.length_cons] at hcc; simp only; omega)
    refine ⟨n + 1, fun fuel => ?_⟩
    rw [← Nat.add_assoc, run, hp]
    simp only [Ev.size, hn fuel]
    rfl

theorem stall_ub (size : Cell α → Nat) (heights : List RowHeight) (s : St α) (off : Nat) (hph : s.phase = .firstRow)
    (hrc : s.rowCounter = 0) (c : Cell α) (r : List (Cell α)) (hcur : s.cur = c :: r) (hlt : s.cur.length < 2 ^ 32)
    (hbad : cellsOf (takeRows 16 (c :: r) s.hts).1 = [] ∧ (takeRows 16 (c :: r) s.hts).2.1.length ≠ 1) :
    ∃ n, ∀ fuel, run size heights (fuel + n) off s = .ub := by
  have hp : pass size heights off s =
      .again { s with phase := .rows, start := s.cur, cellCounter := 0, dbOff := 0, firstRowOff := off, offs := [] } := by
    unfold pass
    rw [hph]
    simp only [hcur]
    rw [if_pos (by simp)]
  obtain ⟨s1, e1, a1, a2, a3, a4, a5, a6, a7, a8, a9⟩ := rows_phase size heights 15
    { s with phase := .rows, start := s.cur, cellCounter := 0, dbOff := 0, firstRowOff := off, offs := [] } off rfl
    (by simp [hcur]) (by simp only; omega) (by simp only; omega)
  rw [hcur] at hp
  simp only [hcur, Nat.zero_add] at e1 a2 a3 a5 a6 a7 a8 a9
  rw [if_neg hbad.2, hbad.1] at a6
  simp only [List.length_nil, Nat.add_zero] at a6
  have hp2 : pass size heights (off + 20 * (takeRows 16 (c :: r) s.hts).1.length) s1 = .ret (some (.cell c))
      { s1 with dbOff := s1.dbOff + size c, offs := s1.offs ++ [off + 20 * (takeRows 16 (c :: r) s.hts).1.length - s1.firstRowOff],
                cellCounter := 2 ^ 32 - 1, start := r, phase := .cells } := by
    unfold pass
    rw [a1]
    simp only [a5, a6, Nat.zero_add]
    rfl
  obtain ⟨n2, hn2⟩ := cells_ub size heights r
    { s1 with dbOff := s1.dbOff + size c, offs := s1.offs ++ [off + 20 * (takeRows 16 (c :: r) s.hts).1.length - s1.firstRowOff],
              cellCounter := 2 ^ 32 - 1, start := r, phase := .cells }
    (off + 20 * (takeRows 16 (c :: r) s.hts).1.length + size c) rfl rfl (by
      rw [hcur] at hlt
      simp only [List.length_cons] at hlt
      simp only; omega)
  obtain ⟨n1, hn1⟩ := (Exec.again hp e1).run
  refine ⟨n2 + 1 + n1, fun fuel => ?_⟩
  rw [← Nat.add_assoc, hn1, ← Nat.add_assoc, run, hp2]
  simp only [Ev.size, hn2 fuel]
  exact pushAll_ub _

theorem blocks_ub (size : Cell α → Nat) (heights : List RowHeight) (cur : List (Cell α)) (hts : List RowHeight) (s : St α)
    (off : Nat) (hph : s.phase = .firstRow) (hrc : s.rowCounter = 0) (hlt : cur.length < 2 ^ 32)
    (hc : s.cur = cur) (hht : s.hts = hts) (hb : blocks cur hts = none) :
    ∃ n, ∀ fuel, run size heights (fuel + n) off s = .ub := by
  match hcur : cur with
  | [] => rw [blocks] at hb; simp at hb
  | c :: r =>
    have hterm : (takeRows 16 (c :: r) s.hts).2.1.length + (takeRows 16 (c :: r) s.hts).2.2.length <
        (c :: r).length + hts.length := by rw [hht]; exact takeRows_shrinks 15 c r hts
    rw [blocks, ← hht] at hb
    by_cases h1 : cellsOf (takeRows 16 (c :: r) s.hts).1 = [] ∧ (takeRows 16 (c :: r) s.hts).2.1.length ≠ 1
    · exact stall_ub size heights s off hph hrc c r hc (by rw [hc]; exact hlt) h1
    · rw [if_neg h1] at hb
      obtain ⟨s1, b1, off1, e1, r1, r2, r3, r4, r5, r6⟩ :=
        block_phase size heights s off hph hrc c r hc (by rw [hc]; exact hlt) h1
      by_cases h2 : (takeRows 16 (c :: r) s.hts).2.1.length = 1
      · rw [if_pos h2] at hb; simp at hb
      · rw [if_neg h2, Option.map_eq_none_iff] at hb
        rw [if_neg h2] at r3
        obtain ⟨n2, hn2⟩ := blocks_ub size heights _ _ s1 off1 r3 r6 (by
          have := congrArg List.length (takeRows_cells 16 (c :: r) s.hts)
          rw [List.length_append] at this
          omega) r4 r5 hb
        obtain ⟨n1, hn1⟩ := e1.run
        refine ⟨n2 + n1, fun fuel => ?_⟩
        rw [← Nat.add_assoc, hn1, hn2 fuel]
        exact pushAll_ub _
termination_by cur.length + hts.length
decreasing_by subst hcur; exact hterm

/-- The bounds of a row with cells are columns of its cells. -/
theorem colBounds_fold_mem (cs : List (Cell α)) (f l : Nat) :
    let b := cs.foldl (fun (p : Nat × Nat) c => (if c.col < p.1 then c.col else p.1, if c.col > p.2 then c.col else p.2)) (f, l)
    (b.1 = f ∨ ∃ c ∈ cs, c.col = b.1) ∧ (b.2 = l ∨ ∃ c ∈ cs, c.col = b.2) := by
  induction cs generalizing f l with
  | nil => simp
  | cons c r ih =>
    simp only [List.foldl_cons]
    obtain ⟨h1, h2⟩ := ih (if c.col < f then c.col else f) (if c.col > l then c.col else l)
    constructor
    · rcases h1 with h1 | ⟨x, hx, e⟩
      · rw [h1]
        by_cases h : c.col < f
        · rw [if_pos h]; exact Or.inr ⟨c, by simp, rfl⟩
        · rw [if_neg h]; exact Or.inl rfl
      · exact Or.inr ⟨x, by simp [hx], e⟩
    · rcases h2 with h2 | ⟨x, hx, e⟩
      · rw [h2]
        by_cases h : c.col > l
        · rw [if_pos h]; exact Or.inr ⟨c, by simp, rfl⟩
        · rw [if_neg h]; exact Or.inl rfl
      · exact Or.inr ⟨x, by simp [hx], e⟩

theorem colBounds_tight (cs : List (Cell α)) (hne : cs ≠ []) (hc : ∀ c ∈ cs, c.col < 2 ^ 32) :
    (∃ c ∈ cs, c.col = (colBounds cs).1) ∧ (∃ c ∈ cs, c.col = (colBounds cs).2) := by
  obtain ⟨x, xs, e⟩ := List.exists_cons_of_ne_nil hne
  have hx : x ∈ cs := by simp [e]
  have h := colBounds_fold cs (2 ^ 32 - 1) 0
  have hb := h.2.2 x hx
  have hm := colBounds_fold_mem cs (2 ^ 32 - 1) 0
  have hlt := hc x hx
  unfold colBounds
  simp only at h hb hm ⊢
  rw [if_neg (by omega)]
  constructor
  · rcases hm.1 with h1 | h1
    · exact ⟨x, hx, by omega⟩
    · exact h1
  · rcases hm.2 with h1 | h1
    · exact ⟨x, hx, by omega⟩
    · exact h1

end Xls.Rows
