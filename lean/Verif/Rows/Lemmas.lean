import Verif.Rows.Model
import Verif.Cells.Props
/-
Helper lemmas: the row-block machine block by block.
-/
namespace Xls.Rows
open Xls.Cells Xls.Biff

variable {α : Type}

/-- The machine runs from one state to another, handing out records. -/
inductive Exec (size : Cell α → Nat) (heights : List RowHeight) : Nat → St α → List (Ev α) → Nat → St α → Prop
  | refl (off : Nat) (s : St α) : Exec size heights off s [] off s
  | again {off : Nat} {s s' : St α} {evs : List (Ev α)} {off' : Nat} {s'' : St α} :
      pass size heights off s = .again s' → Exec size heights off s' evs off' s'' → Exec size heights off s evs off' s''
  | ret {off : Nat} {s s' : St α} {e : Ev α} {evs : List (Ev α)} {off' : Nat} {s'' : St α} :
      pass size heights off s = .ret (some e) s' → Exec size heights (off + e.size size) s' evs off' s'' →
      Exec size heights off s (e :: evs) off' s''

theorem Exec.trans {size : Cell α → Nat} {heights : List RowHeight} {o1 o2 o3 : Nat} {s1 s2 s3 : St α}
    {e1 e2 : List (Ev α)} (h1 : Exec size heights o1 s1 e1 o2 s2) (h2 : Exec size heights o2 s2 e2 o3 s3) :
    Exec size heights o1 s1 (e1 ++ e2) o3 s3 := by
  induction h1 with
  | refl => exact h2
  | again hp _ ih => exact .again hp (ih h2)
  | ret hp _ ih => exact .ret hp (ih h2)

/-- Several records in front. -/
def Outcome.pushAll (evs : List (Ev α)) (o : Outcome α) : Outcome α := evs.foldr Outcome.push o

theorem pushAll_done (evs evs' : List (Ev α)) (s : St α) :
    Outcome.pushAll evs (.done evs' s) = .done (evs ++ evs') s := by
  induction evs with
  | nil => rfl
  | cons e r ih =>
    have : Outcome.pushAll (e :: r) (.done evs' s) = (Outcome.pushAll r (.done evs' s)).push e := rfl
    rw [this, ih]; rfl

theorem pushAll_ub (evs : List (Ev α)) : Outcome.pushAll evs (.ub : Outcome α) = .ub := by
  induction evs with
  | nil => rfl
  | cons e r ih =>
    have : Outcome.pushAll (e :: r) (.ub : Outcome α) = (Outcome.pushAll r .ub).push e := rfl
    rw [this, ih]; rfl

theorem Exec.run {size : Cell α → Nat} {heights : List RowHeight} {o1 o2 : Nat} {s1 s2 : St α} {evs : List (Ev α)}
    (h : Exec size heights o1 s1 evs o2 s2) :
    ∃ n, ∀ fuel, run size heights (fuel + n) o1 s1 = Outcome.pushAll evs (run size heights fuel o2 s2) := by
  induction h with
  | refl => exact ⟨0, fun fuel => rfl⟩
  | again hp _ ih =>
    obtain ⟨n, hn⟩ := ih
    refine ⟨n + 1, fun fuel => ?_⟩
    rw [← Nat.add_assoc, Rows.run, hp]
    exact hn fuel
  | ret hp _ ih =>
    obtain ⟨n, hn⟩ := ih
    refine ⟨n + 1, fun fuel => ?_⟩
    rw [← Nat.add_assoc, Rows.run, hp]
    simp only [hn fuel]
    rfl

/-- A row as the machine meets it: its number, its height setting, its cells. -/
structure Item (α : Type) where
  num : Nat
  ht : Option RowHeight
  here : List (Cell α)

/-- The next row. -/
def nextRow (c : Cell α) (r : List (Cell α)) (hts : List RowHeight) : Item α × List (Cell α) × List RowHeight :=
  let n := rowNum c hts
  (⟨n, (takeHeight n hts).1, (c :: r).takeWhile (fun x => x.row == n)⟩,
   (c :: r).dropWhile (fun x => x.row == n), (takeHeight n hts).2)

/-- Up to `k` rows. -/
def takeRows : Nat → List (Cell α) → List RowHeight → List (Item α) × List (Cell α) × List RowHeight
  | 0, cur, hts => ([], cur, hts)
  | _ + 1, [], hts => ([], [], hts)
  | k + 1, c :: r, hts =>
    ((nextRow c r hts).1 :: (takeRows k (nextRow c r hts).2.1 (nextRow c r hts).2.2).1,
     (takeRows k (nextRow c r hts).2.1 (nextRow c r hts).2.2).2)

/-- The ROW record of a row. -/
def Item.ev (it : Item α) : Ev α := .row it.num (colBounds it.here).1 (colBounds it.here).2 it.ht

/-- The cells of rows. -/
def cellsOf (its : List (Item α)) : List (Cell α) := its.flatMap Item.here

theorem takeRows_cells (k : Nat) (cur : List (Cell α)) (hts : List RowHeight) :
    cellsOf (takeRows k cur hts).1 ++ (takeRows k cur hts).2.1 = cur := by
  induction k generalizing cur hts with
  | zero => simp [takeRows, cellsOf]
  | succ k ih =>
    cases cur with
    | nil => simp [takeRows, cellsOf]
    | cons c r =>
      simp only [takeRows, nextRow]
      have := ih ((c :: r).dropWhile (fun x => x.row == rowNum c hts)) (takeHeight (rowNum c hts) hts).2
      simp only [cellsOf, List.flatMap_cons, List.append_assoc] at this ⊢
      rw [this, List.takeWhile_append_dropWhile]

theorem takeRows_length (k : Nat) (cur : List (Cell α)) (hts : List RowHeight) :
    (takeRows k cur hts).1.length ≤ k := by
  induction k generalizing cur hts with
  | zero => simp [takeRows]
  | succ k ih =>
    cases cur with
    | nil => simp [takeRows]
    | cons c r =>
      simp only [takeRows, List.length_cons]
      have := ih (nextRow c r hts).2.1 (nextRow c r hts).2.2
      omega

/-- Rows are left out only if the limit was reached. -/
theorem takeRows_full (k : Nat) (cur : List (Cell α)) (hts : List RowHeight) :
    (takeRows k cur hts).2.1 = [] ∨ (takeRows k cur hts).1.length = k := by
  induction k generalizing cur hts with
  | zero => exact Or.inr rfl
  | succ k ih =>
    cases cur with
    | nil => exact Or.inl rfl
    | cons c r =>
      simp only [takeRows, List.length_cons]
      rcases ih (nextRow c r hts).2.1 (nextRow c r hts).2.2 with h | h
      · exact Or.inl h
      · exact Or.inr (by rw [h])

theorem nextRow_shrinks (c : Cell α) (r : List (Cell α)) (hts : List RowHeight) :
    (nextRow c r hts).2.1.length + (nextRow c r hts).2.2.length < (c :: r).length + hts.length := by
  have h1 : ((c :: r).dropWhile (fun x => x.row == rowNum c hts)).length ≤ (c :: r).length :=
    (List.dropWhile_sublist _).length_le
  cases hts with
  | nil =>
    have : ((c :: r).dropWhile (fun x => x.row == rowNum c [])).length ≤ r.length := by
      simp only [rowNum, List.dropWhile, beq_self_eq_true]
      exact (List.dropWhile_sublist _).length_le
    simp only [nextRow, takeHeight, List.length_cons, List.length_nil]
    omega
  | cons h hs =>
    simp only [nextRow, takeHeight]
    by_cases hh : h.row = rowNum c (h :: hs)
    · rw [if_pos hh]; simp only [List.length_cons] at h1 ⊢; omega
    · rw [if_neg hh]
      have hn : rowNum c (h :: hs) = c.row := by
        simp only [rowNum] at hh ⊢
        by_cases hc : c.row > h.row
        · simp [hc] at hh
        · rw [if_neg hc]
      have : ((c :: r).dropWhile (fun x => x.row == rowNum c (h :: hs))).length ≤ r.length := by
        rw [hn]
        simp only [List.dropWhile, beq_self_eq_true]
        exact (List.dropWhile_sublist _).length_le
      simp only [List.length_cons] at this ⊢
      omega

theorem takeRows_le (k : Nat) (cur : List (Cell α)) (hts : List RowHeight) :
    (takeRows k cur hts).2.1.length + (takeRows k cur hts).2.2.length ≤ cur.length + hts.length := by
  induction k generalizing cur hts with
  | zero => simp [takeRows]
  | succ k ih =>
    cases cur with
    | nil => simp [takeRows]
    | cons c r =>
      simp only [takeRows]
      have := ih (nextRow c r hts).2.1 (nextRow c r hts).2.2
      have := nextRow_shrinks c r hts
      omega

theorem takeRows_shrinks (k : Nat) (c : Cell α) (r : List (Cell α)) (hts : List RowHeight) :
    (takeRows (k + 1) (c :: r) hts).2.1.length + (takeRows (k + 1) (c :: r) hts).2.2.length <
      (c :: r).length + hts.length := by
  simp only [takeRows]
  have := takeRows_le k (nextRow c r hts).2.1 (nextRow c r hts).2.2
  have := nextRow_shrinks c r hts
  omega

/-- A row block: its rows and the cells written in it. -/
structure Block (α : Type) where
  rows : List (Item α)
  cells : List (Cell α)

/-- The blocks the machine writes from `cur` and `hts` on; `none` if it runs past the end of the cells. -/
def blocks (cur : List (Cell α)) (hts : List RowHeight) : Option (List (Block α)) :=
  match cur with
  | [] => some []
  | c :: r =>
    if cellsOf (takeRows 16 (c :: r) hts).1 = [] ∧ (takeRows 16 (c :: r) hts).2.1.length ≠ 1 then none
    else if (takeRows 16 (c :: r) hts).2.1.length = 1 then some [⟨(takeRows 16 (c :: r) hts).1, c :: r⟩]
    else
      (blocks (takeRows 16 (c :: r) hts).2.1 (takeRows 16 (c :: r) hts).2.2).map
        (⟨(takeRows 16 (c :: r) hts).1, cellsOf (takeRows 16 (c :: r) hts).1⟩ :: ·)
termination_by cur.length + hts.length
decreasing_by exact takeRows_shrinks 15 c r hts

/-- Sizes of the offsets in a DBCELL record. -/
def offsOf (size : Cell α → Nat) (nrows : Nat) : List (Cell α) → List Nat
  | [] => []
  | _ :: r => 20 * nrows :: r.map size

/-- The records of a block. -/
def Block.evs (size : Cell α → Nat) (b : Block α) : List (Ev α) :=
  b.rows.map Item.ev ++ b.cells.map Ev.cell ++
    [.dbcell (20 * b.rows.length + (b.cells.map size).sum) (offsOf size b.rows.length b.cells)]

/-! ### The phases -/

variable (size : Cell α → Nat) (heights : List RowHeight)

/-- The ROW records of a block. -/
theorem rows_phase (j : Nat) (s : St α) (off : Nat) (hph : s.phase = .rows) (hcur : s.cur ≠ [])
    (hj : s.rowCounter + (j + 1) = 16) (hcc : s.cellCounter + s.cur.length < 2 ^ 32) :
    ∃ s', Exec size heights off s ((takeRows (j + 1) s.cur s.hts).1.map Item.ev)
        (off + 20 * (takeRows (j + 1) s.cur s.hts).1.length) s' ∧
      s'.phase = .firstCell ∧ s'.cur = (takeRows (j + 1) s.cur s.hts).2.1 ∧
      s'.hts = (takeRows (j + 1) s.cur s.hts).2.2 ∧ s'.rowCounter = 0 ∧ s'.start = s.start ∧
      s'.cellCounter = s.cellCounter + (cellsOf (takeRows (j + 1) s.cur s.hts).1).length +
        (if (takeRows (j + 1) s.cur s.hts).2.1.length = 1 then 1 else 0) ∧
      s'.dbOff = s.dbOff + 20 * (takeRows (j + 1) s.cur s.hts).1.length ∧
      s'.firstRowOff = s.firstRowOff ∧ s'.offs = s.offs := by
  induction j generalizing s off with
  | zero =>
    obtain ⟨c, r, hc⟩ := List.exists_cons_of_ne_nil hcur
    have hl := takeRows_cells 1 s.cur s.hts
    have hl2 : (cellsOf (takeRows 1 s.cur s.hts).1).length + (takeRows 1 s.cur s.hts).2.1.length = s.cur.length := by
      rw [← List.length_append, hl]
    have htr : takeRows (0 + 1) s.cur s.hts = ([(nextRow c r s.hts).1], (nextRow c r s.hts).2) := by
      rw [hc]; rfl
    rw [Nat.zero_add] at htr
    rw [htr] at hl2
    simp only [cellsOf, List.flatMap_cons, List.flatMap_nil, List.append_nil] at hl2
    have hp : pass size heights off s = .ret (some ((nextRow c r s.hts).1).ev)
        { s with cur := (nextRow c r s.hts).2.1, hts := (nextRow c r s.hts).2.2, dbOff := s.dbOff + 20,
                 cellCounter := s.cellCounter + (nextRow c r s.hts).1.here.length +
                   (if (nextRow c r s.hts).2.1.length = 1 then 1 else 0)
                 rowCounter := 0, phase := .firstCell } := by
      unfold pass
      rw [hph]
      simp only [hc]
      rw [if_pos (Or.inl (by unfold maxRows; omega))]
      have e1 : (s.cellCounter + (nextRow c r s.hts).1.here.length) % 2 ^ 32 = s.cellCounter + (nextRow c r s.hts).1.here.length :=
        Nat.mod_eq_of_lt (by omega)
      have e2 : (if (nextRow c r s.hts).2.1.length = 1 then
            ((s.cellCounter + (nextRow c r s.hts).1.here.length) % 2 ^ 32 + 1) % 2 ^ 32
          else (s.cellCounter + (nextRow c r s.hts).1.here.length) % 2 ^ 32) =
          s.cellCounter + (nextRow c r s.hts).1.here.length + (if (nextRow c r s.hts).2.1.length = 1 then 1 else 0) := by
        rw [e1]
        by_cases h1 : (nextRow c r s.hts).2.1.length = 1
        · rw [if_pos h1, if_pos h1]; exact Nat.mod_eq_of_lt (by omega)
        · rw [if_neg h1, if_neg h1]; rfl
      rw [← e2]
      rfl
    rw [Nat.zero_add, htr]
    refine ⟨_, .ret hp (.refl _ _), rfl, rfl, rfl, rfl, rfl, ?_, rfl, rfl, rfl⟩
    simp [cellsOf]
  | succ j ih =>
    obtain ⟨c, r, hc⟩ := List.exists_cons_of_ne_nil hcur
    have hl2 : (nextRow c r s.hts).1.here.length + (nextRow c r s.hts).2.1.length = s.cur.length := by
      rw [hc, ← List.length_append]
      simp [nextRow, List.takeWhile_append_dropWhile]
    have htr : takeRows (j + 1 + 1) s.cur s.hts =
        ((nextRow c r s.hts).1 :: (takeRows (j + 1) (nextRow c r s.hts).2.1 (nextRow c r s.hts).2.2).1,
         (takeRows (j + 1) (nextRow c r s.hts).2.1 (nextRow c r s.hts).2.2).2) := by
      rw [hc]; rfl
    have e1 : (s.cellCounter + (nextRow c r s.hts).1.here.length) % 2 ^ 32 = s.cellCounter + (nextRow c r s.hts).1.here.length :=
      Nat.mod_eq_of_lt (by omega)
    by_cases hrest : (nextRow c r s.hts).2.1 = []
    · have hp : pass size heights off s = .ret (some ((nextRow c r s.hts).1).ev)
          { s with cur := (nextRow c r s.hts).2.1, hts := (nextRow c r s.hts).2.2, dbOff := s.dbOff + 20,
                   cellCounter := s.cellCounter + (nextRow c r s.hts).1.here.length
                   rowCounter := 0, phase := .firstCell } := by
        unfold pass
        rw [hph]
        simp only [hc]
        have hrest' : (c :: r).dropWhile (fun x => x.row == rowNum c s.hts) = [] := hrest
        rw [if_pos (Or.inr hrest')]
        have e2 : (if (nextRow c r s.hts).2.1.length = 1 then
              ((s.cellCounter + (nextRow c r s.hts).1.here.length) % 2 ^ 32 + 1) % 2 ^ 32
            else (s.cellCounter + (nextRow c r s.hts).1.here.length) % 2 ^ 32) =
            s.cellCounter + (nextRow c r s.hts).1.here.length := by
          rw [e1, hrest]; rfl
        rw [← e2]
        rfl
      have htr2 : takeRows (j + 1) (nextRow c r s.hts).2.1 (nextRow c r s.hts).2.2 = ([], [], (nextRow c r s.hts).2.2) := by
        rw [hrest]; rfl
      rw [htr, htr2]
      refine ⟨_, .ret hp (.refl _ _), rfl, hrest, rfl, rfl, rfl, ?_, rfl, rfl, rfl⟩
      simp [cellsOf]
    · have hp : pass size heights off s = .ret (some ((nextRow c r s.hts).1).ev)
          { s with cur := (nextRow c r s.hts).2.1, hts := (nextRow c r s.hts).2.2, dbOff := s.dbOff + 20,
                   cellCounter := s.cellCounter + (nextRow c r s.hts).1.here.length
                   rowCounter := s.rowCounter + 1 } := by
        unfold pass
        rw [hph]
        simp only [hc]
        have hno : ¬ (s.rowCounter + 1 ≥ maxRows ∨
            (c :: r).dropWhile (fun x => x.row == rowNum c s.hts) = []) := by
          rintro (h | h)
          · unfold maxRows at h; omega
          · exact hrest h
        rw [if_neg hno, ← e1]
        rfl
      obtain ⟨s', he, h1, h2, h3, h4, h5, h6, h7, h8, h9⟩ := ih
        { s with cur := (nextRow c r s.hts).2.1, hts := (nextRow c r s.hts).2.2, dbOff := s.dbOff + 20,
                 cellCounter := s.cellCounter + (nextRow c r s.hts).1.here.length
                 rowCounter := s.rowCounter + 1 }
        (off + 20) hph hrest (by simp only; omega) (by simp only; omega)
      rw [htr]
      refine ⟨s', ?_, h1, h2, h3, h4, h5, ?_, ?_, h8, h9⟩
      · have := Exec.ret hp he
        simp only [List.map_cons, List.length_cons]
        rw [show off + 20 * ((takeRows (j + 1) (nextRow c r s.hts).2.1 (nextRow c r s.hts).2.2).1.length + 1) =
          off + 20 + 20 * (takeRows (j + 1) (nextRow c r s.hts).2.1 (nextRow c r s.hts).2.2).1.length by omega]
        exact this
      · rw [h6]
        simp only [cellsOf, List.flatMap_cons, List.length_append]
        omega
      · rw [h7]
        simp only [List.length_cons]
        omega

/-- The cells after the first one. -/
theorem cells_phase (xs ys : List (Cell α)) (s : St α) (off : Nat) (hph : s.phase = .cells)
    (hst : s.start = xs ++ ys) (hcc : s.cellCounter = xs.length) :
    Exec size heights off s (xs.map Ev.cell) (off + (xs.map size).sum)
      { s with phase := .dbcell, start := ys, cellCounter := 0, dbOff := s.dbOff + (xs.map size).sum,
               offs := s.offs ++ xs.map size } := by
  induction xs generalizing s off with
  | nil =>
    have hp : pass size heights off s = .again { s with phase := .dbcell } := by
      unfold pass
      rw [hph]
      simp only [List.length_nil] at hcc
      simp only [hcc, if_true]
    refine .again hp ?_
    simp only [List.map_nil, List.sum_nil, Nat.add_zero, List.append_nil]
    simp only [List.length_nil] at hcc
    simp only [List.nil_append] at hst
    rw [← hst, ← hcc]
    exact .refl _ _
  | cons x xs ih =>
    have hp : pass size heights off s = .ret (some (.cell x))
        { s with dbOff := s.dbOff + size x, offs := s.offs ++ [size x], cellCounter := s.cellCounter - 1,
                 start := xs ++ ys } := by
      unfold pass
      rw [hph]
      simp only [List.length_cons] at hcc
      simp only [hst, List.cons_append]
      rw [if_neg (by omega)]
    have := ih { s with dbOff := s.dbOff + size x, offs := s.offs ++ [size x], cellCounter := s.cellCounter - 1,
                        start := xs ++ ys } (off + size x) hph rfl (by simp only [List.length_cons] at hcc; simp only; omega)
    have := Exec.ret hp this
    simp only [List.map_cons, List.sum_cons, List.append_assoc, List.cons_append, List.nil_append, Nat.add_assoc] at this ⊢
    exact this

/-- The cells of a block. -/
theorem first_phase (x : Cell α) (xs ys : List (Cell α)) (s : St α) (off : Nat) (hph : s.phase = .firstCell)
    (hst : s.start = x :: xs ++ ys) (hcc : s.cellCounter = xs.length + 1) (hlt : xs.length + 1 < 2 ^ 32) :
    ∃ s', Exec size heights off s ((x :: xs).map Ev.cell) (off + ((x :: xs).map size).sum) s' ∧
      s'.phase = .dbcell ∧ s'.cur = s.cur ∧ s'.hts = s.hts ∧ s'.rowCounter = s.rowCounter ∧
      s'.dbOff = s.dbOff + ((x :: xs).map size).sum ∧
      s'.offs = s.offs ++ (off - s.firstRowOff) :: xs.map size := by
  have hc1 : (s.cellCounter + (2 ^ 32 - 1)) % 2 ^ 32 = xs.length := by
    rw [hcc, show xs.length + 1 + (2 ^ 32 - 1) = xs.length + 2 ^ 32 by omega, Nat.add_mod_right]
    exact Nat.mod_eq_of_lt (by omega)
  by_cases hx : xs = []
  · subst hx
    refine ⟨{ s with dbOff := s.dbOff + size x, offs := s.offs ++ [off - s.firstRowOff], cellCounter := 0,
                     phase := .dbcell }, ?_, rfl, rfl, rfl, rfl, by simp, by simp⟩
    have hp : pass size heights off s = .ret (some (.cell x))
        { s with dbOff := s.dbOff + size x, offs := s.offs ++ [off - s.firstRowOff], cellCounter := 0,
                 phase := .dbcell } := by
      unfold pass
      rw [hph]
      simp only [hst, List.cons_append, hc1, List.length_nil, if_true]
    have := Exec.ret hp (.refl _ _)
    simpa [Ev.size] using this
  · have hp : pass size heights off s = .ret (some (.cell x))
        { s with dbOff := s.dbOff + size x, offs := s.offs ++ [off - s.firstRowOff], cellCounter := xs.length,
                 phase := .cells, start := xs ++ ys } := by
      unfold pass
      rw [hph]
      have : xs.length ≠ 0 := by simpa using hx
      simp only [hst, List.cons_append, hc1, if_neg this]
    have := cells_phase size heights xs ys
      { s with dbOff := s.dbOff + size x, offs := s.offs ++ [off - s.firstRowOff], cellCounter := xs.length,
               phase := .cells, start := xs ++ ys } (off + size x) rfl rfl rfl
    refine ⟨{ s with dbOff := s.dbOff + size x + (xs.map size).sum,
                     offs := s.offs ++ [off - s.firstRowOff] ++ xs.map size,
                     cellCounter := 0, phase := .dbcell, start := ys }, ?_, rfl, rfl, rfl, rfl, ?_, ?_⟩
    · have h2 := Exec.ret hp this
      simp only [List.map_cons, List.sum_cons]
      rw [← Nat.add_assoc]
      exact h2
    · simp only [List.map_cons, List.sum_cons]; omega
    · simp

/-- A whole block. -/
theorem block_phase (s : St α) (off : Nat) (hph : s.phase = .firstRow) (hrc : s.rowCounter = 0)
    (c : Cell α) (r : List (Cell α)) (hcur : s.cur = c :: r) (hlt : s.cur.length < 2 ^ 32)
    (hok : ¬ (cellsOf (takeRows 16 (c :: r) s.hts).1 = [] ∧ (takeRows 16 (c :: r) s.hts).2.1.length ≠ 1)) :
    ∃ s' b off', Exec size heights off s (Block.evs size b) off' s' ∧
      b.rows = (takeRows 16 (c :: r) s.hts).1 ∧
      b.cells = (if (takeRows 16 (c :: r) s.hts).2.1.length = 1 then c :: r
        else cellsOf (takeRows 16 (c :: r) s.hts).1) ∧
      s'.phase = (if (takeRows 16 (c :: r) s.hts).2.1.length = 1 then .finish else .firstRow) ∧
      s'.cur = (takeRows 16 (c :: r) s.hts).2.1 ∧ s'.hts = (takeRows 16 (c :: r) s.hts).2.2 ∧ s'.rowCounter = 0 := by
  have hp : pass size heights off s =
      .again { s with phase := .rows, start := s.cur, cellCounter := 0, dbOff := 0, firstRowOff := off, offs := [] } := by
    unfold pass
    rw [hph]
    simp only [hcur]
    rw [if_pos (by simp)]
  obtain ⟨s1, e1, a1, a2, a3, a4, a5, a6, a7, a8, a9⟩ := rows_phase size heights 15
    { s with phase := .rows, start := s.cur, cellCounter := 0, dbOff := 0, firstRowOff := off, offs := [] } off rfl
    (by simp [hcur]) (by simp only; omega) (by simp only; omega)
  rw [hcur] at hp
  simp only [hcur, Nat.zero_add] at e1 a2 a3 a5 a6 a7 a8 a9
  have hsplit := takeRows_cells 16 (c :: r) s.hts
  generalize htr : takeRows 16 (c :: r) s.hts = T at *
  obtain ⟨its, cur', hts'⟩ := T
  simp only at *
  obtain ⟨x, xs, ys, hb, hbs, hlen⟩ : ∃ x xs ys, (if cur'.length = 1 then c :: r else cellsOf its) = x :: xs ∧
      c :: r = x :: xs ++ ys ∧
      xs.length + 1 = (cellsOf its).length + (if cur'.length = 1 then 1 else 0) := by
    by_cases h1 : cur'.length = 1
    · refine ⟨c, r, [], by simp [h1], by simp, ?_⟩
      have := congrArg List.length hsplit
      simp only [List.length_append, List.length_cons] at this
      simp only [h1, if_true]
      omega
    · have hne : cellsOf its ≠ [] := fun h => hok ⟨h, h1⟩
      obtain ⟨x, xs, hx⟩ := List.exists_cons_of_ne_nil hne
      exact ⟨x, xs, cur', by simp [h1, hx], by rw [← hx, hsplit], by simp [h1, hx]⟩
  have hxlt : xs.length + 1 < 2 ^ 32 := by
    have := congrArg List.length hbs
    rw [hcur] at hlt
    simp only [List.length_append, List.length_cons] at this hlt
    omega
  obtain ⟨s2, e2, b1, b2, b3, b4, b5, b6⟩ := first_phase size heights x xs ys s1 (off + 20 * its.length) a1
    (by rw [a5, hbs]) (by omega) hxlt
  have hp3 : pass size heights (off + 20 * its.length + ((x :: xs).map size).sum) s2 =
      .ret (some (.dbcell s2.dbOff s2.offs)) { s2 with phase := if s2.cur.length = 1 then .finish else .firstRow } := by
    unfold pass
    rw [b1]
  refine ⟨{ s2 with phase := if s2.cur.length = 1 then .finish else .firstRow }, ⟨its, x :: xs⟩,
    off + 20 * its.length + ((x :: xs).map size).sum + (Ev.dbcell s2.dbOff s2.offs : Ev α).size size, ?_, rfl, hb.symm,
    ?_, ?_, ?_, ?_⟩
  · have := (Exec.again hp e1).trans (e2.trans (Exec.ret hp3 (.refl _ _)))
    have hd : s2.dbOff = 20 * its.length + ((x :: xs).map size).sum := by rw [b5, a7]
    have ho : s2.offs = offsOf size its.length (x :: xs) := by
      rw [b6, a8, a9, Nat.add_sub_cancel_left]; rfl
    have he : Block.evs size ⟨its, x :: xs⟩ =
        its.map Item.ev ++ ((x :: xs).map Ev.cell ++ [.dbcell s2.dbOff s2.offs]) := by
      rw [hd, ho, Block.evs, List.append_assoc]
    rw [he]
    exact this
  · simp only [b2, a2]
  · rw [← a2, ← b2]
  · rw [← a3, ← b3]
  · rw [← a4, ← b4]

/-- From the beginning of a block to the end of the row blocks. -/
theorem blocks_run (bs : List (Block α)) (s : St α) (off : Nat) (hph : s.phase = .firstRow) (hrc : s.rowCounter = 0)
    (hlt : s.cur.length < 2 ^ 32) (hb : blocks s.cur s.hts = some bs) :
    ∃ s' off', Exec size heights off s (bs.flatMap (Block.evs size)) off' s' ∧ s'.phase = .finish := by
  induction bs generalizing s off with
  | nil =>
    match hc : s.cur with
    | [] =>
      have hp : pass size heights off s = .again { s with phase := .finish } := by
        unfold pass
        rw [hph]
        simp [hc]
      exact ⟨_, off, .again hp (.refl _ _), rfl⟩
    | c :: r =>
      rw [hc, blocks] at hb
      split at hb
      · simp at hb
      · split at hb
        · simp at hb
        · simp [Option.map_eq_some_iff] at hb
  | cons b bs ih =>
    match hc : s.cur with
    | [] => rw [hc, blocks] at hb; simp at hb
    | c :: r =>
      rw [hc, blocks] at hb
      by_cases h1 : cellsOf (takeRows 16 (c :: r) s.hts).1 = [] ∧ (takeRows 16 (c :: r) s.hts).2.1.length ≠ 1
      · rw [if_pos h1] at hb; simp at hb
      · rw [if_neg h1] at hb
        obtain ⟨s1, b1, off1, e1, r1, r2, r3, r4, r5, r6⟩ := block_phase size heights s off hph hrc c r hc hlt h1
        by_cases h2 : (takeRows 16 (c :: r) s.hts).2.1.length = 1
        · rw [if_pos h2, Option.some.injEq, List.cons.injEq] at hb
          obtain ⟨hb1, hb2⟩ := hb
          subst hb2
          rw [if_pos h2] at r2 r3
          have : b1 = b := by rw [← hb1]; cases b1; simp_all
          subst this
          refine ⟨s1, off1, ?_, r3⟩
          simpa using e1
        · rw [if_neg h2, Option.map_eq_some_iff] at hb
          obtain ⟨bs', hb1, hb2⟩ := hb
          rw [List.cons.injEq] at hb2
          obtain ⟨hb2, hb3⟩ := hb2
          subst hb3
          rw [if_neg h2] at r2 r3
          have : b1 = b := by rw [← hb2]; cases b1; simp_all
          subst this
          obtain ⟨s2, off2, e2, p2⟩ := ih s1 off1 r3 r6 (by
            rw [r4]
            have := congrArg List.length (takeRows_cells 16 (c :: r) s.hts)
            rw [List.length_append] at this
            rw [hc] at hlt
            omega) (by rw [r4, r5]; exact hb1)
          exact ⟨s2, off2, by simpa using e1.trans e2, p2⟩

/-- The whole run. -/
theorem run_blocks (cells : List (Cell α)) (old : St α) (off : Nat) (bs : List (Block α))
    (hlt : cells.length < 2 ^ 32) (hb : blocks cells heights = some bs) :
    ∃ n s', ∀ fuel, run size heights (fuel + n) off (enter cells old) = .done (bs.flatMap (Block.evs size)) s' ∧
      s'.phase = .init := by
  have hp : pass size heights off (enter cells old) =
      .again { enter cells old with phase := .firstRow, rowCounter := 0, hts := heights } := rfl
  obtain ⟨s1, off1, e1, p1⟩ := blocks_run size heights bs
    { enter cells old with phase := .firstRow, rowCounter := 0, hts := heights } off rfl rfl hlt hb
  obtain ⟨n, hn⟩ := (Exec.again hp e1).run
  refine ⟨n + 1, { s1 with phase := .init }, fun fuel => ⟨?_, rfl⟩⟩
  have := hn (fuel + 1)
  rw [show fuel + (n + 1) = fuel + 1 + n by omega, this]
  have hl : run size heights (fuel + 1) off1 s1 = .done [] { s1 with phase := .init } := by
    rw [run]
    have : pass size heights off1 s1 = .ret none { s1 with phase := .init } := by
      unfold pass; rw [p1]
    rw [this]
  rw [hl, pushAll_done, List.append_nil]

end Xls.Rows
