import Verif.Rows.Lemmas
/-
Helper lemmas: what the rows taken by the machine are when cells and heights come in order.
-/
namespace Xls.Rows
open Xls.Cells

variable {α : Type}

/-- Rows do not decrease. -/
def RowSorted (l : List (Cell α)) : Prop := l.Pairwise (fun a b => a.row ≤ b.row)

/-- Heights: strictly increasing rows. -/
def HtSorted (l : List RowHeight) : Prop := l.Pairwise (fun a b => a.row < b.row)

theorem rowSorted_of_ordered {l : List (Cell α)} (h : Ordered Cell.key l) : RowSorted l :=
  h.imp (fun h => by rw [klt_iff] at h; rcases h with h | h
                     · exact Nat.le_of_lt h
                     · exact Nat.le_of_eq h.1)

theorem takeWhile_row (n : Nat) (l : List (Cell α)) : ∀ x ∈ l.takeWhile (fun x => x.row == n), x.row = n := by
  induction l with
  | nil => simp
  | cons y r ih =>
    intro x hx
    by_cases h : y.row = n
    · simp only [List.takeWhile, h, beq_self_eq_true, List.mem_cons] at hx
      rcases hx with rfl | hx
      · exact h
      · exact ih x hx
    · simp only [List.takeWhile, beq_eq_false_iff_ne.mpr h, List.not_mem_nil] at hx

theorem dropWhile_row (n : Nat) (l : List (Cell α)) (hs : RowSorted l) (hn : ∀ x ∈ l, n ≤ x.row) :
    ∀ x ∈ l.dropWhile (fun x => x.row == n), n < x.row := by
  induction l with
  | nil => simp
  | cons y r ih =>
    obtain ⟨h1, h2⟩ := List.pairwise_cons.mp hs
    intro x hx
    by_cases h : y.row = n
    · simp only [List.dropWhile, h, beq_self_eq_true] at hx
      exact ih h2 (fun z hz => hn z (by simp [hz])) x hx
    · simp only [List.dropWhile, beq_eq_false_iff_ne.mpr h] at hx
      have := hn y (by simp)
      rcases List.mem_cons.mp hx with rfl | hx
      · omega
      · have := h1 x hx; omega

/-- What one row takes. -/
structure NextSpec (cur : List (Cell α)) (hts : List RowHeight) (it : Item α) (cur' : List (Cell α))
    (hts' : List RowHeight) : Prop where
  split : it.here ++ cur' = cur
  here : ∀ x ∈ it.here, x.row = it.num
  rest : ∀ x ∈ cur', it.num < x.row
  heights : ∀ h ∈ hts, h.row = it.num ∨ h ∈ hts'
  restHts : ∀ h ∈ hts', it.num < h.row
  sub : ∀ h ∈ hts', h ∈ hts
  ht : ∀ h, it.ht = some h ↔ h ∈ hts ∧ h.row = it.num
  src : (∃ x ∈ cur, x.row = it.num) ∨ ((∃ h ∈ hts, h.row = it.num) ∧ ∃ x ∈ cur, it.num < x.row)
  low : ∀ x ∈ cur, it.num ≤ x.row
  lowHts : ∀ h ∈ hts, it.num ≤ h.row
  sorted : RowSorted cur'
  sortedHts : HtSorted hts'

theorem nextRow_spec (c : Cell α) (r : List (Cell α)) (hts : List RowHeight) (hs : RowSorted (c :: r))
    (hh : HtSorted hts) :
    NextSpec (c :: r) hts (nextRow c r hts).1 (nextRow c r hts).2.1 (nextRow c r hts).2.2 := by
  have hle : rowNum c hts ≤ c.row := by
    cases hts with
    | nil => exact Nat.le_refl _
    | cons h t => simp only [rowNum]; split <;> omega
  have hlow : ∀ x ∈ c :: r, rowNum c hts ≤ x.row := by
    intro x hx
    rcases List.mem_cons.mp hx with rfl | hx
    · exact hle
    · have := (List.pairwise_cons.mp hs).1 x hx; omega
  have hlowH : ∀ h ∈ hts, rowNum c hts ≤ h.row := by
    intro h hm
    cases hts with
    | nil => simp at hm
    | cons g t =>
      have : g.row ≤ h.row := by
        rcases List.mem_cons.mp hm with rfl | hm
        · exact Nat.le_refl _
        · exact Nat.le_of_lt ((List.pairwise_cons.mp hh).1 h hm)
      simp only [rowNum]; split <;> omega
  have hrest := dropWhile_row (rowNum c hts) (c :: r) hs hlow
  have hsort : RowSorted ((c :: r).dropWhile (fun x => x.row == rowNum c hts)) :=
    hs.sublist (List.dropWhile_sublist _)
  have hsrc : (∃ x ∈ c :: r, x.row = rowNum c hts) ∨ ((∃ h ∈ hts, h.row = rowNum c hts) ∧ ∃ x ∈ c :: r, rowNum c hts < x.row) := by
    cases hts with
    | nil => exact Or.inl ⟨c, by simp, rfl⟩
    | cons g t =>
      by_cases hg : c.row > g.row
      · exact Or.inr ⟨⟨g, by simp, by simp [rowNum, hg]⟩, c, by simp, by simp [rowNum, hg]⟩
      · exact Or.inl ⟨c, by simp, by simp [rowNum, hg]⟩
  refine ⟨List.takeWhile_append_dropWhile, takeWhile_row _ _, hrest, ?_, ?_, ?_, ?_, hsrc, hlow, hlowH, hsort, ?_⟩
  all_goals simp only [nextRow]
  all_goals generalize rowNum c hts = n at *
  · intro h hm
    cases hts with
    | nil => simp at hm
    | cons g t =>
      simp only [takeHeight]
      by_cases hg : g.row = n
      · rw [if_pos hg]
        rcases List.mem_cons.mp hm with rfl | hm
        · exact Or.inl hg
        · exact Or.inr hm
      · rw [if_neg hg]; exact Or.inr hm
  · intro h hm
    cases hts with
    | nil => simp [takeHeight] at hm
    | cons g t =>
      simp only [takeHeight] at hm
      by_cases hg : g.row = n
      · rw [if_pos hg] at hm
        have := (List.pairwise_cons.mp hh).1 h hm
        omega
      · rw [if_neg hg] at hm
        have h1 := hlowH g (by simp)
        rcases List.mem_cons.mp hm with rfl | hm
        · omega
        · have := (List.pairwise_cons.mp hh).1 h hm
          omega
  · intro h hm
    cases hts with
    | nil => simp [takeHeight] at hm
    | cons g t =>
      simp only [takeHeight] at hm
      by_cases hg : g.row = n
      · rw [if_pos hg] at hm; exact List.mem_cons_of_mem _ hm
      · rw [if_neg hg] at hm; exact hm
  · intro h
    cases hts with
    | nil => simp [takeHeight]
    | cons g t =>
      simp only [takeHeight]
      by_cases hg : g.row = n
      · rw [if_pos hg]
        constructor
        · intro e; cases e; exact ⟨by simp, hg⟩
        · rintro ⟨hm, hr⟩
          rcases List.mem_cons.mp hm with rfl | hm
          · rfl
          · have := (List.pairwise_cons.mp hh).1 h hm; omega
      · rw [if_neg hg]
        constructor
        · intro e; simp at e
        · rintro ⟨hm, hr⟩
          have h1 := hlowH g (by simp)
          rcases List.mem_cons.mp hm with rfl | hm
          · exact absurd hr hg
          · have := (List.pairwise_cons.mp hh).1 h hm; omega
  · cases hts with
    | nil => exact List.Pairwise.nil
    | cons g t =>
      simp only [takeHeight]
      by_cases hg : g.row = n
      · rw [if_pos hg]; exact (List.pairwise_cons.mp hh).2
      · rw [if_neg hg]; exact hh

/-- The numbers of rows. -/
def nums (its : List (Item α)) : List Nat := its.map Item.num

/-- What several rows take. -/
structure RowsSpec (cur : List (Cell α)) (hts : List RowHeight) (its : List (Item α)) (cur' : List (Cell α))
    (hts' : List RowHeight) : Prop where
  incr : (nums its).Pairwise (· < ·)
  here : ∀ it ∈ its, ∀ x ∈ it.here, x.row = it.num
  rest : ∀ n ∈ nums its, ∀ x ∈ cur', n < x.row
  restHts : ∀ n ∈ nums its, ∀ h ∈ hts', n < h.row
  heights : ∀ h ∈ hts, h.row ∈ nums its ∨ h ∈ hts'
  sub : ∀ h ∈ hts', h ∈ hts
  ht : ∀ it ∈ its, ∀ h, it.ht = some h ↔ h ∈ hts ∧ h.row = it.num
  src : ∀ n ∈ nums its, (∃ x ∈ cur, x.row = n) ∨ ((∃ h ∈ hts, h.row = n) ∧ ∃ x ∈ cur, n < x.row)
  low : ∀ n ∈ nums its, ∀ m, (∀ x ∈ cur, m < x.row) → (∀ h ∈ hts, m < h.row) → m < n
  sorted : RowSorted cur'
  sortedHts : HtSorted hts'

theorem takeRows_spec (k : Nat) (cur : List (Cell α)) (hts : List RowHeight) (hs : RowSorted cur) (hh : HtSorted hts) :
    RowsSpec cur hts (takeRows k cur hts).1 (takeRows k cur hts).2.1 (takeRows k cur hts).2.2 := by
  induction k generalizing cur hts with
  | zero =>
    simp only [takeRows]
    exact ⟨List.Pairwise.nil, by simp, by simp [nums], by simp [nums], fun h hm => Or.inr hm, fun h hm => hm, by simp,
      by simp [nums], by simp [nums], hs, hh⟩
  | succ k ih =>
    cases cur with
    | nil =>
      simp only [takeRows]
      exact ⟨List.Pairwise.nil, by simp, by simp [nums], by simp [nums], fun h hm => Or.inr hm, fun h hm => hm, by simp,
        by simp [nums], by simp [nums], hs, hh⟩
    | cons c r =>
      simp only [takeRows]
      have N := nextRow_spec c r hts hs hh
      generalize nextRow c r hts = T at *
      obtain ⟨it, cur1, hts1⟩ := T
      simp only at *
      have R := ih cur1 hts1 N.sorted N.sortedHts
      have hsplit := takeRows_cells k cur1 hts1
      generalize takeRows k cur1 hts1 = U at *
      obtain ⟨its, cur2, hts2⟩ := U
      simp only at *
      have hcur2 : ∀ x ∈ cur2, x ∈ cur1 := fun x hx => by rw [← hsplit]; exact List.mem_append_right _ hx
      have hcur1 : ∀ x ∈ cur1, x ∈ c :: r := fun x hx => by rw [← N.split]; exact List.mem_append_right _ hx
      have hlow : ∀ n ∈ nums its, it.num < n := fun n hn => R.low n hn it.num N.rest N.restHts
      refine ⟨?_, ?_, ?_, ?_, ?_, ?_, ?_, ?_, ?_, R.sorted, R.sortedHts⟩
      · exact List.pairwise_cons.mpr ⟨hlow, R.incr⟩
      · intro i hi x hx
        rcases List.mem_cons.mp hi with rfl | hi
        · exact N.here x hx
        · exact R.here i hi x hx
      · intro n hn x hx
        rcases List.mem_cons.mp hn with rfl | hn
        · exact N.rest x (hcur2 x hx)
        · exact R.rest n hn x hx
      · intro n hn h hx
        rcases List.mem_cons.mp hn with rfl | hn
        · exact N.restHts h (R.sub h hx)
        · exact R.restHts n hn h hx
      · intro h hm
        rcases N.heights h hm with e | hm
        · exact Or.inl (by rw [e]; exact List.mem_cons_self)
        · rcases R.heights h hm with e | hm
          · exact Or.inl (List.mem_cons_of_mem _ e)
          · exact Or.inr hm
      · exact fun h hm => N.sub h (R.sub h hm)
      · intro i hi h
        rcases List.mem_cons.mp hi with rfl | hi
        · exact N.ht h
        · rw [R.ht i hi h]
          constructor
          · rintro ⟨h1, h2⟩; exact ⟨N.sub h h1, h2⟩
          · rintro ⟨h1, h2⟩
            refine ⟨?_, h2⟩
            rcases N.heights h h1 with e | hm
            · have := hlow i.num (List.mem_map_of_mem hi); omega
            · exact hm
      · intro n hn
        rcases List.mem_cons.mp hn with rfl | hn
        · exact N.src
        · rcases R.src n hn with ⟨x, hx, e⟩ | ⟨⟨h, hm, e⟩, x, hx, hl⟩
          · exact Or.inl ⟨x, hcur1 x hx, e⟩
          · exact Or.inr ⟨⟨h, N.sub h hm, e⟩, x, hcur1 x hx, hl⟩
      · intro n hn m h1 h2
        rcases List.mem_cons.mp hn with rfl | hn
        · rcases N.src with ⟨x, hx, e⟩ | ⟨⟨h, hm, e⟩, _⟩
          · have := h1 x hx; omega
          · have := h2 h hm; omega
        · have hm : m < it.num := by
            rcases N.src with ⟨x, hx, e⟩ | ⟨⟨h, hm, e⟩, _⟩
            · have := h1 x hx; omega
            · have := h2 h hm; omega
          have := hlow n hn
          omega

/-- Rows taken in two steps. -/
theorem takeRows_add (a b : Nat) (cur : List (Cell α)) (hts : List RowHeight) :
    takeRows (a + b) cur hts =
      ((takeRows a cur hts).1 ++ (takeRows b (takeRows a cur hts).2.1 (takeRows a cur hts).2.2).1,
       (takeRows b (takeRows a cur hts).2.1 (takeRows a cur hts).2.2).2) := by
  induction a generalizing cur hts with
  | zero => simp [takeRows]
  | succ a ih =>
    cases cur with
    | nil =>
      rw [show a + 1 + b = (a + b) + 1 by omega]
      cases b <;> simp [takeRows]
    | cons c r =>
      rw [show a + 1 + b = (a + b) + 1 by omega]
      simp only [takeRows, ih, List.cons_append]

/-- All rows. -/
def items (cur : List (Cell α)) (hts : List RowHeight) : List (Item α) :=
  (takeRows (cur.length + hts.length) cur hts).1

theorem takeRows_exhausts (k : Nat) (cur : List (Cell α)) (hts : List RowHeight) (hk : cur.length + hts.length ≤ k) :
    (takeRows k cur hts).2.1 = [] := by
  induction k generalizing cur hts with
  | zero =>
    simp only [takeRows]
    exact List.length_eq_zero_iff.mp (by omega)
  | succ k ih =>
    cases cur with
    | nil => rfl
    | cons c r =>
      simp only [takeRows]
      exact ih _ _ (by have := nextRow_shrinks c r hts; omega)

theorem takeRows_nil (k : Nat) (hts : List RowHeight) : takeRows k ([] : List (Cell α)) hts = ([], [], hts) := by
  cases k <;> rfl

theorem items_of_le (k : Nat) (cur : List (Cell α)) (hts : List RowHeight) (hk : cur.length + hts.length ≤ k) :
    (takeRows k cur hts).1 = items cur hts := by
  obtain ⟨j, rfl⟩ : ∃ j, k = (cur.length + hts.length) + j := ⟨k - (cur.length + hts.length), by omega⟩
  rw [takeRows_add, takeRows_exhausts _ _ _ (Nat.le_refl _), takeRows_nil]
  simp [items]

theorem items_split (k : Nat) (cur : List (Cell α)) (hts : List RowHeight) :
    items cur hts = (takeRows k cur hts).1 ++ items (takeRows k cur hts).2.1 (takeRows k cur hts).2.2 := by
  rw [← items_of_le (k + (cur.length + hts.length)) cur hts (by omega), takeRows_add]
  simp only
  rw [items_of_le _ _ _ (takeRows_le k cur hts)]

/-- The rows are: those with cells, and those with a height setting up to the last row with cells. -/
theorem mem_items (cur : List (Cell α)) (hts : List RowHeight) (hs : RowSorted cur) (hh : HtSorted hts) (n : Nat) :
    n ∈ nums (items cur hts) ↔
      (∃ c ∈ cur, c.row = n) ∨ ((∃ h ∈ hts, h.row = n) ∧ ∃ c ∈ cur, n < c.row) := by
  have S := takeRows_spec (cur.length + hts.length) cur hts hs hh
  have hsplit := takeRows_cells (cur.length + hts.length) cur hts
  have hex := takeRows_exhausts (cur.length + hts.length) cur hts (Nat.le_refl _)
  rw [hex, List.append_nil] at hsplit
  have hcell : ∀ c ∈ cur, c.row ∈ nums (items cur hts) := by
    intro c hc
    rw [← hsplit] at hc
    obtain ⟨it, hit, hx⟩ := List.mem_flatMap.mp hc
    rw [S.here it hit c hx]
    exact List.mem_map_of_mem hit
  constructor
  · exact S.src n
  · rintro (⟨c, hc, rfl⟩ | ⟨⟨h, hm, rfl⟩, c, hc, hl⟩)
    · exact hcell c hc
    · rcases S.heights h hm with e | hr
      · exact e
      · have := S.restHts c.row (hcell c hc) h hr
        omega

theorem items_incr (cur : List (Cell α)) (hts : List RowHeight) (hs : RowSorted cur) (hh : HtSorted hts) :
    (nums (items cur hts)).Pairwise (· < ·) := (takeRows_spec _ cur hts hs hh).incr

/-- A strictly increasing list is determined by its members. -/
theorem incr_unique {l m : List Nat} (hl : l.Pairwise (· < ·)) (hm : m.Pairwise (· < ·)) (h : ∀ n, n ∈ l ↔ n ∈ m) :
    l = m := by
  induction l generalizing m with
  | nil =>
    cases m with
    | nil => rfl
    | cons b r => exact absurd ((h b).mpr (by simp)) (by simp)
  | cons a l ih =>
    obtain ⟨ha, hl'⟩ := List.pairwise_cons.mp hl
    cases m with
    | nil => exact absurd ((h a).mp (by simp)) (by simp)
    | cons b m =>
      obtain ⟨hb, hm'⟩ := List.pairwise_cons.mp hm
      have hab : a = b := by
        have h1 := (h a).mp (by simp)
        have h2 := (h b).mpr (by simp)
        rcases List.mem_cons.mp h1 with e | h1
        · exact e
        · rcases List.mem_cons.mp h2 with e | h2
          · exact e.symm
          · have := ha b h2; have := hb a h1; omega
      subst hab
      rw [ih hl' hm' (fun n => ?_)]
      constructor
      · intro hn
        have := ha n hn
        exact (List.mem_cons.mp ((h n).mp (List.mem_cons_of_mem _ hn))).resolve_left (by omega)
      · intro hn
        have := hb n hn
        exact (List.mem_cons.mp ((h n).mpr (List.mem_cons_of_mem _ hn))).resolve_left (by omega)

end Xls.Rows
