import Verif.Cells.Model
/-
C14, C15, C16: the grid of cells.
-/
namespace Xls.Cells

variable {α : Type}

/-! ### Adding a cell -/

theorem addLoop_spec (c : Cell α) {l : List (Cell α)} (hl : Ordered Cell.key l) (fuel : Nat) :
    ∃ l' d, addLoop c (fuel + 2) l = some (l', d) ∧ Ordered Cell.key l' ∧
      (∀ x, x ∈ l' ↔ x = c ∨ (x ∈ l ∧ x.key ≠ c.key)) ∧ (∀ x, x ∈ d ↔ x ∈ l ∧ x.key = c.key) ∧ d.length ≤ 1 := by
  by_cases h : ∃ y ∈ l, y.key = c.key
  · obtain ⟨y, hy, hk⟩ := h
    have ho := setErase_ordered hl y.key
    have hm := mem_setErase hl y.key
    obtain ⟨e1, e2, e3⟩ := setInsert_new ho c (fun z hz => by
      have := (hm z).mp hz
      rw [← hk]; exact this.2)
    refine ⟨(setInsert Cell.key c (setErase Cell.key y.key l)).1, [y], ?_, e2, ?_, ?_, by simp⟩
    · rw [addLoop, setInsert_old hl c y hy hk]
      simp only
      rw [addLoop]
      cases hi : setInsert Cell.key c (setErase Cell.key y.key l) with
      | mk a b =>
        rw [hi] at e1
        simp only at e1
        subst e1
        rfl
    · intro x
      rw [e3, hm, ← hk]
    · intro x
      rw [List.mem_singleton]
      constructor
      · rintro rfl; exact ⟨hy, hk⟩
      · rintro ⟨hx, hkx⟩
        exact ordered_unique hl hx hy (hkx.trans hk.symm)
  · have h' : ∀ y ∈ l, y.key ≠ c.key := fun y hy hk => h ⟨y, hy, hk⟩
    obtain ⟨e1, e2, e3⟩ := setInsert_new hl c h'
    refine ⟨(setInsert Cell.key c l).1, [], ?_, e2, ?_, ?_, by simp⟩
    · rw [addLoop]
      cases hi : setInsert Cell.key c l with
      | mk a b =>
        rw [hi] at e1
        simp only at e1
        subst e1
        rfl
    · intro x
      rw [e3]
      constructor
      · rintro (h1 | h1)
        · exact Or.inl h1
        · exact Or.inr ⟨h1, h' x h1⟩
      · rintro (h1 | ⟨h1, _⟩)
        · exact Or.inl h1
        · exact Or.inr h1
    · intro x
      simp only [List.not_mem_nil, false_iff]
      rintro ⟨h1, h2⟩
      exact h' x h1 h2

/-! ### Specification -/

/-- The cell a call writes at a coordinate, if it does. -/
def writes (row col : Nat) : GridOp α → Option (Cell α)
  | .cell c => if c.row = row ∧ c.col = col then some c else none
  | .note _ => none

/-- The cell most recently written at a coordinate. -/
def lastCell (row col : Nat) : List (GridOp α) → Option (Cell α)
  | [] => none
  | op :: ops => (lastCell row col ops).or (writes row col op)

/-- The coordinates that were written, by cells or by comments. -/
def touched (ops : List (GridOp α)) : List (Nat × Nat) :=
  ops.map fun | .cell c => (c.row, c.col) | .note c => (c.row, c.col)

theorem lastCell_append (row col : Nat) (ops : List (GridOp α)) (op : GridOp α) :
    lastCell row col (ops ++ [op]) = (writes row col op).or (lastCell row col ops) := by
  induction ops with
  | nil => simp [lastCell]
  | cons o r ih => simp [lastCell, ih, Option.or_assoc]

/-- Everything that holds of the sheet after any sequence of calls. -/
structure Good (ops : List (GridOp α)) (s : Sheet α) : Prop where
  ordered : Ordered Cell.key s.cells
  noted : Ordered Cell.key s.notes
  find : ∀ row col, s.findCell row col = lastCell row col ops
  bounds : (∀ p ∈ touched ops, s.minRow ≤ p.1 ∧ p.1 ≤ s.maxRow ∧ s.minCol ≤ p.2 ∧ p.2 ≤ s.maxCol)
  minRow : (s.minRow = 2 ^ 32 - 1) ∨ ∃ p ∈ touched ops, p.1 = s.minRow
  minCol : (s.minCol = 2 ^ 32 - 1) ∨ ∃ p ∈ touched ops, p.2 = s.minCol
  maxRow : s.maxRow = 0 ∨ ∃ p ∈ touched ops, p.1 = s.maxRow
  maxCol : s.maxCol = 0 ∨ ∃ p ∈ touched ops, p.2 = s.maxCol
  fresh : ops = [] → s.minRow = 2 ^ 32 - 1 ∧ s.minCol = 2 ^ 32 - 1

theorem findCell_mem {s : Sheet α} (h : Ordered Cell.key s.cells) (row col : Nat) (c : Cell α) :
    s.findCell row col = some c ↔ c ∈ s.cells ∧ c.row = row ∧ c.col = col := by
  unfold Sheet.findCell
  constructor
  · intro hf
    obtain ⟨h1, h2⟩ := setFind_mem hf
    exact ⟨h1, congrArg Prod.fst h2, congrArg Prod.snd h2⟩
  · rintro ⟨h1, rfl, rfl⟩
    exact setFind_of_mem h h1

theorem extend_bounds {ops : List (GridOp α)} {s : Sheet α} (g : Good ops s) (op : GridOp α) (row col : Nat)
    (hop : touched [op] = [(row, col)]) :
    let s' := s.extend row col
    (∀ p ∈ touched (ops ++ [op]), s'.minRow ≤ p.1 ∧ p.1 ≤ s'.maxRow ∧ s'.minCol ≤ p.2 ∧ p.2 ≤ s'.maxCol) ∧
    ((s'.minRow = 2 ^ 32 - 1) ∨ ∃ p ∈ touched (ops ++ [op]), p.1 = s'.minRow) ∧
    ((s'.minCol = 2 ^ 32 - 1) ∨ ∃ p ∈ touched (ops ++ [op]), p.2 = s'.minCol) ∧
    (s'.maxRow = 0 ∨ ∃ p ∈ touched (ops ++ [op]), p.1 = s'.maxRow) ∧
    (s'.maxCol = 0 ∨ ∃ p ∈ touched (ops ++ [op]), p.2 = s'.maxCol) := by
  have ht : touched (ops ++ [op]) = touched ops ++ [(row, col)] := by
    rw [← hop]; simp [touched]
  simp only [ht, Sheet.extend]
  refine ⟨fun p hp => ?_, ?_, ?_, ?_, ?_⟩
  · rcases List.mem_append.mp hp with hp | hp
    · have := g.bounds p hp
      refine ⟨?_, ?_, ?_, ?_⟩ <;> split <;> omega
    · rw [List.mem_singleton.mp hp]
      refine ⟨?_, ?_, ?_, ?_⟩ <;> split <;> simp only <;> omega
  · split
    · exact Or.inr ⟨(row, col), by simp, rfl⟩
    · rcases g.minRow with h | ⟨p, hp, h⟩
      · exact Or.inl h
      · exact Or.inr ⟨p, by simp [hp], h⟩
  · split
    · exact Or.inr ⟨(row, col), by simp, rfl⟩
    · rcases g.minCol with h | ⟨p, hp, h⟩
      · exact Or.inl h
      · exact Or.inr ⟨p, by simp [hp], h⟩
  · split
    · exact Or.inr ⟨(row, col), by simp, rfl⟩
    · rcases g.maxRow with h | ⟨p, hp, h⟩
      · exact Or.inl h
      · exact Or.inr ⟨p, by simp [hp], h⟩
  · split
    · exact Or.inr ⟨(row, col), by simp, rfl⟩
    · rcases g.maxCol with h | ⟨p, hp, h⟩
      · exact Or.inl h
      · exact Or.inr ⟨p, by simp [hp], h⟩

theorem apply_good {ops : List (GridOp α)} {s : Sheet α} (g : Good ops s) (op : GridOp α) :
    ∃ s', s.apply op = some s' ∧ Good (ops ++ [op]) s' := by
  cases op with
  | cell c =>
    obtain ⟨l, d, e, h1, h2, _⟩ := addLoop_spec c g.ordered s.cells.length
    have hb := extend_bounds g (.cell c) c.row c.col rfl
    refine ⟨{ s.extend c.row c.col with cells := l }, ?_, ?_⟩
    · simp [Sheet.apply, Sheet.addCell, e]
    · refine ⟨h1, g.noted, fun row col => ?_, hb.1, hb.2.1, hb.2.2.1, hb.2.2.2.1, hb.2.2.2.2, by simp⟩
      rw [lastCell_append]
      simp only [writes]
      apply Option.ext
      intro x
      rw [findCell_mem (s := { s.extend c.row c.col with cells := l }) h1]
      simp only [h2]
      by_cases hc : c.row = row ∧ c.col = col
      · rw [if_pos hc, Option.some_or]
        constructor
        · rintro ⟨rfl | ⟨hx, hk⟩, hr, hcl⟩
          · rfl
          · exact absurd (Prod.ext (hr.trans hc.1.symm) (hcl.trans hc.2.symm)) hk
        · intro hx
          cases hx
          exact ⟨Or.inl rfl, hc⟩
      · rw [if_neg hc, Option.none_or, ← g.find, findCell_mem g.ordered]
        constructor
        · rintro ⟨rfl | ⟨hx, hk⟩, hr, hcl⟩
          · exact absurd ⟨hr, hcl⟩ hc
          · exact ⟨hx, hr, hcl⟩
        · rintro ⟨hx, hr, hcl⟩
          refine ⟨Or.inr ⟨hx, fun hk => hc ⟨?_, ?_⟩⟩, hr, hcl⟩
          · rw [← hr]; exact (congrArg Prod.fst hk).symm
          · rw [← hcl]; exact (congrArg Prod.snd hk).symm
  | note c =>
    obtain ⟨l, d, e, h1, h2, _⟩ := addLoop_spec c g.noted s.notes.length
    have hb := extend_bounds g (.note c) c.row c.col rfl
    refine ⟨{ s.extend c.row c.col with notes := l }, ?_, ?_⟩
    · simp [Sheet.apply, Sheet.addNote, e]
    · refine ⟨g.ordered, h1, fun row col => ?_, hb.1, hb.2.1, hb.2.2.1, hb.2.2.2.1, hb.2.2.2.2, by simp⟩
      rw [lastCell_append]
      exact g.find row col

theorem run_good_from (ops : List (GridOp α)) {ops0 : List (GridOp α)} {s : Sheet α} (g : Good ops0 s) :
    ∃ s', ops.foldlM Sheet.apply s = some s' ∧ Good (ops0 ++ ops) s' := by
  induction ops generalizing ops0 s with
  | nil => exact ⟨s, rfl, by simpa using g⟩
  | cons op r ih =>
    obtain ⟨s1, e1, g1⟩ := apply_good g op
    obtain ⟨s2, e2, g2⟩ := ih g1
    exact ⟨s2, by simp [e1, e2], by simpa using g2⟩

theorem run_good (ops : List (GridOp α)) : ∃ s, Sheet.run ops = some s ∧ Good ops s := by
  have g0 : Good ([] : List (GridOp α)) ({} : Sheet α) :=
    ⟨List.Pairwise.nil, List.Pairwise.nil, fun _ _ => rfl, by simp [touched], Or.inl rfl, Or.inl rfl, Or.inl rfl,
      Or.inl rfl, fun _ => ⟨rfl, rfl⟩⟩
  obtain ⟨s, e, g⟩ := run_good_from ops g0
  exact ⟨s, e, by simpa using g⟩

/-! ### The properties -/

/-- C14: after any sequence of calls, looking up a coordinate gives the cell written there last, or nothing
    if none was written there. -/
theorem c14_last_write_wins (ops : List (GridOp α)) :
    ∃ s, Sheet.run ops = some s ∧ ∀ row col, s.findCell row col = lastCell row col ops := by
  obtain ⟨s, e, g⟩ := run_good ops
  exact ⟨s, e, g.find⟩

/-- C14, frame: writing a cell changes the lookup at its own coordinate only. -/
theorem c14_frame (ops : List (GridOp α)) (c : Cell α) :
    ∃ s s', Sheet.run ops = some s ∧ Sheet.run (ops ++ [.cell c]) = some s' ∧
      s'.findCell c.row c.col = some c ∧
      ∀ row col, (row, col) ≠ (c.row, c.col) → s'.findCell row col = s.findCell row col := by
  obtain ⟨s, e, g⟩ := run_good ops
  obtain ⟨s', e', g'⟩ := run_good (ops ++ [.cell c])
  refine ⟨s, s', e, e', ?_, fun row col h => ?_⟩
  · rw [g'.find, lastCell_append]; simp [writes]
  · rw [g'.find, g.find, lastCell_append]
    rw [writes, if_neg (fun h' => h (Prod.ext h'.1.symm h'.2.symm)), Option.none_or]

-- the second write of (2,5) replaces the first, whatever lies between
example : ((Sheet.run [.cell ⟨1, 2, 5, "a"⟩, .cell ⟨2, 0, 0, "b"⟩, .cell ⟨3, 2, 5, "c"⟩]).map
    (fun s => (s.findCell 2 5, s.cells.length))) = some (some ⟨3, 2, 5, "c"⟩, 2) := by decide

/-- C15: after any sequence of calls the cells of the sheet come in strictly increasing (row, column) order
    — so there is one per coordinate — and they are exactly the last cells written. -/
theorem c15_row_major (ops : List (GridOp α)) :
    ∃ s, Sheet.run ops = some s ∧
      s.cells.Pairwise (fun a b => a.row < b.row ∨ (a.row = b.row ∧ a.col < b.col)) ∧
      ∀ c, c ∈ s.cells ↔ lastCell c.row c.col ops = some c := by
  obtain ⟨s, e, g⟩ := run_good ops
  refine ⟨s, e, g.ordered.imp (fun h => (klt_iff _ _).mp h), fun c => ?_⟩
  rw [← g.find, findCell_mem g.ordered]
  simp

example : ((Sheet.run [.cell ⟨1, 2, 5, 'a'⟩, .cell ⟨2, 0, 9, 'b'⟩, .cell ⟨3, 2, 4, 'c'⟩, .cell ⟨4, 0, 9, 'd'⟩]).map
    (fun s => s.cells.map Cell.val)) = some ['d', 'c', 'a'] := by decide

/-- Reader of a DIMENSION payload: first row, last row + 1, first column, last column + 1. -/
def readDimension (p : Bytes) : Option (Nat × Nat × Nat × Nat) :=
  (takeLE 4 p).bind fun (r0, p) => (takeLE 4 p).bind fun (r1, p) =>
  (takeLE 2 p).bind fun (c0, p) => (takeLE 2 p).bind fun (c1, p) =>
  (takeLE 2 p).bind fun (_, p) => if p = [] then some (r0, r1, c0, c1) else none

theorem readDimension_eq (s : Sheet α) : readDimension s.dimension =
    some (s.minRow % 2 ^ 32, (s.maxRow + 1) % 2 ^ 32, s.minCol % 65536, (s.maxCol + 1) % 2 ^ 32 % 65536) := by
  have h5 : takeLE 2 (leN 2 0) = some (0, []) := by decide
  simp only [readDimension, Sheet.dimension, List.append_assoc, takeLE_leN_append, Option.bind_some, h5, if_true]
  simp

/-- C16: the DIMENSION record of a sheet in which something was written: its first and last row and column
    (the latter exclusive) bound every coordinate written by a cell or a comment, and each of the four
    bounds is attained.  Coordinates within the limits of the format. -/
theorem c16_bounding_box (ops : List (GridOp α)) (hne : ops ≠ [])
    (hlim : ∀ p ∈ touched ops, p.1 < 65536 ∧ p.2 < 65535) :
    ∃ s r0 r1 c0 c1, Sheet.run ops = some s ∧ readDimension s.dimension = some (r0, r1, c0, c1) ∧
      (∀ p ∈ touched ops, r0 ≤ p.1 ∧ p.1 < r1 ∧ c0 ≤ p.2 ∧ p.2 < c1) ∧
      (∃ p ∈ touched ops, p.1 = r0) ∧ (∃ p ∈ touched ops, p.1 + 1 = r1) ∧
      (∃ p ∈ touched ops, p.2 = c0) ∧ (∃ p ∈ touched ops, p.2 + 1 = c1) := by
  obtain ⟨s, e, g⟩ := run_good ops
  obtain ⟨q, hq⟩ : ∃ q, q ∈ touched ops := by
    cases ops with
    | nil => exact absurd rfl hne
    | cons o r => exact ⟨_, List.mem_cons_self⟩
  have hb := g.bounds q hq
  have hl := hlim q hq
  have h1 : ∃ p ∈ touched ops, p.1 = s.minRow := g.minRow.resolve_left (by omega)
  have h2 : ∃ p ∈ touched ops, p.2 = s.minCol := g.minCol.resolve_left (by omega)
  have h3 : ∃ p ∈ touched ops, p.1 = s.maxRow := by
    rcases g.maxRow with h | h
    · exact ⟨q, hq, by omega⟩
    · exact h
  have h4 : ∃ p ∈ touched ops, p.2 = s.maxCol := by
    rcases g.maxCol with h | h
    · exact ⟨q, hq, by omega⟩
    · exact h
  have b1 : s.minRow < 65536 := by obtain ⟨p, hp, h⟩ := h1; have := hlim p hp; omega
  have b2 : s.minCol < 65535 := by obtain ⟨p, hp, h⟩ := h2; have := hlim p hp; omega
  have b3 : s.maxRow < 65536 := by obtain ⟨p, hp, h⟩ := h3; have := hlim p hp; omega
  have b4 : s.maxCol < 65535 := by obtain ⟨p, hp, h⟩ := h4; have := hlim p hp; omega
  refine ⟨s, s.minRow, s.maxRow + 1, s.minCol, s.maxCol + 1, e, ?_, fun p hp => ?_, h1, ?_, h2, ?_⟩
  · rw [readDimension_eq, Nat.mod_eq_of_lt (by omega), Nat.mod_eq_of_lt (by omega), Nat.mod_eq_of_lt (by omega),
      Nat.mod_eq_of_lt (a := s.maxCol + 1) (by omega), Nat.mod_eq_of_lt (by omega)]
  · have := g.bounds p hp; omega
  · obtain ⟨p, hp, h⟩ := h3; exact ⟨p, hp, by omega⟩
  · obtain ⟨p, hp, h⟩ := h4; exact ⟨p, hp, by omega⟩

/-- C16, negative: the record of a sheet without cells does not declare an empty range in the sense of the
    format (all zero): its first row is 4294967295, its first column 65535. -/
theorem c16_empty_sheet : ∃ s : Sheet α, Sheet.run ([] : List (GridOp α)) = some s ∧
    readDimension s.dimension = some (4294967295, 1, 65535, 1) :=
  ⟨{}, rfl, by rw [readDimension_eq]; simp⟩

-- the box of a cell at (7,3) and a comment at (2,9)
example : ((Sheet.run [.cell ⟨1, 7, 3, ()⟩, .note ⟨2, 2, 9, ()⟩]).bind (fun s => readDimension s.dimension)) =
    some (2, 8, 3, 10) := by decide

end Xls.Cells
