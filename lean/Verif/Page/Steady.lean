import Verif.Page.Props
import Verif.Page.RowSpec
import Verif.Rows.Props
/-
When the library gets past the rows of a sheet (C21), in terms of the calls.
-/
namespace Xls.Page
open Xls.Biff Xls.Sheet Xls.Cells Xls.Book Xls.Save Xls.Whole
open Xls.Rows (RowHeight Item Block items nums cellsOf blocks takeRows_spec HtSorted RowSorted)

variable {α : Type}

/-- The program left a cell there. -/
def Written (h : List (Nat × Cell Val)) (i row col : Nat) : Prop := (lastWrite h i row col).isSome = true

/-- The row heights of a sheet after any calls. -/
theorem heights_after (D : Data α Note.Note) (l : List Act) :
    Ordered heightKey (applyAll (new D) l).heights ∧ ∀ y, y ∈ (applyAll (new D) l).heights ↔ latest (Act.height y.row) l = some (y.height, y.xf) := by
  induction l using snoc_induction with
  | h0 => simp [applyAll, new, Data.fresh, Ordered, latest]
  | h1 l a ih =>
    obtain ⟨ih1, ih2⟩ := ih
    rw [applyAll_snoc]
    have keep : (apply (applyAll (new D) l) a).heights = (applyAll (new D) l).heights → (∀ row, Act.height row a = none) →
        Ordered heightKey (apply (applyAll (new D) l) a).heights ∧ ∀ y, y ∈ (apply (applyAll (new D) l) a).heights ↔
          latest (Act.height y.row) (l ++ [a]) = some (y.height, y.xf) := by
      intro h1 h2
      rw [h1]
      exact ⟨ih1, fun y => by rw [latest_snoc, h2, Option.none_or]; exact ih2 y⟩
    cases a with
    | call c =>
      cases c with
      | rowheight k w x =>
        obtain ⟨h1, h2⟩ := rowheight_heights (applyAll (new D) l) k w x ih1
        refine ⟨h1, fun y => ?_⟩
        simp only [apply, Data.call]
        rw [h2, ih2, latest_snoc]
        simp only [Act.height]
        by_cases hk : k.toNat = y.row
        · rw [if_pos hk, Option.some_or]
          obtain ⟨r, ht, xf⟩ := y
          simp only at hk
          subst hk
          simp only [RowHeight.mk.injEq, true_and, ne_eq, not_true_eq_false, and_false, or_false, Option.some.injEq, Prod.mk.injEq]
          constructor
          · rintro ⟨rfl, rfl⟩; simp
          · rintro ⟨rfl, rfl⟩; simp
        · rw [if_neg hk, Option.none_or]
          constructor
          · rintro (rfl | ⟨h, _⟩)
            · simp at hk
            · exact h
          · intro h
            exact Or.inr ⟨h, fun e => hk e.symm⟩
      | colwidth k w x =>
        refine keep ?_ fun _ => rfl
        simp only [apply, Data.call, Data.colwidth]
        split <;> rfl
      | _ => exact keep rfl fun _ => rfl
    | comment r c a t =>
      refine keep ?_ fun _ => rfl
      obtain ⟨n, hmk, -⟩ := Note.c47_call r c a t
      simp only [apply, hmk]
    | _ => exact keep rfl fun _ => rfl

theorem sorted_of_ordered {l : List RowHeight} (h : Ordered heightKey l) : HtSorted l := by
  refine h.imp fun {a b} hab => ?_
  rw [klt_iff] at hab
  simp only [heightKey] at hab
  omega

/-- There is a cell. -/
def HasCell (D : Data α Note.Note) (row col : Nat) : Prop := ∃ c ∈ D.cells, c.row = row ∧ c.col = col

theorem HasCell.mk {D : Data α Note.Note} {c : Cell α} (h : c ∈ D.cells) : HasCell D c.row c.col := ⟨c, h, rfl, rfl⟩

theorem hasCell_iff {h : List (Nat × Cell Val)} {b : Whole.Book} (r : Reach h b) {i : Nat} {D : Data (Nat × Val) Note.Note}
    (hc : D.cells = (b.sheets i).cells) : HasCell D = Written h i := by
  funext row col
  apply propext
  unfold HasCell Written
  constructor
  · rintro ⟨c, hm, rfl, rfl⟩
    rw [hc] at hm
    obtain ⟨d, h1, h2⟩ := ((reach_sheets r i).cells c).mp hm
    rw [h1]
    rfl
  · intro hw
    obtain ⟨d, hd⟩ := Option.isSome_iff_exists.mp hw
    have hk : d.row = row ∧ d.col = col := by
      unfold lastWrite at hd
      obtain ⟨p, hp, rfl⟩ := Option.map_eq_some_iff.mp hd
      have := List.mem_of_getLast? hp
      simp only [List.mem_filter, Bool.and_eq_true, beq_iff_eq] at this
      exact this.2.2
    refine ⟨stamp i d, ?_, hk.1, hk.2⟩
    rw [hc, (reach_sheets r i).cells]
    exact ⟨d, by rw [show (stamp i d).row = row from hk.1, show (stamp i d).col = col from hk.2]; exact hd, rfl⟩

theorem after_le_one {l : List (Cell α)} (ho : Ordered Cell.key l) (n : Nat) :
    Rows.after l n ≤ 1 ↔ ∀ c ∈ l, ∀ d ∈ l, n < c.row → n < d.row → c.row = d.row ∧ c.col = d.col := by
  unfold Rows.after
  have hsub : (l.filter fun c => decide (n < c.row)).Pairwise fun a b => klt a.key b.key := ho.sublist List.filter_sublist
  have hmem : ∀ c, c ∈ l.filter (fun c => decide (n < c.row)) ↔ c ∈ l ∧ n < c.row := fun c => by simp
  generalize l.filter (fun c => decide (n < c.row)) = m at hsub hmem
  constructor
  · intro h c hc d hd h1 h2
    have hc' := (hmem c).mpr ⟨hc, h1⟩
    have hd' := (hmem d).mpr ⟨hd, h2⟩
    match m, h, hc', hd' with
    | [x], _, hc', hd' =>
      rw [List.mem_singleton] at hc' hd'
      subst hc' hd'
      exact ⟨rfl, rfl⟩
  · intro h
    match m, hsub, hmem with
    | [], _, _ => simp
    | [x], _, _ => simp
    | a :: b :: r, hsub, hmem =>
      have ha := (hmem a).mp (by simp)
      have hb := (hmem b).mp (by simp)
      have e := h a ha.1 b hb.1 ha.2 hb.2
      have := (List.pairwise_cons.mp hsub).1 b (by simp)
      rw [klt_iff] at this
      simp only [Cell.key] at this
      omega

/-- The rows that are needed are those of the list. -/
theorem needed_iff {acts : List Act} {D : Data α Note.Note}
    (hl : ∀ y, y ∈ D.heights ↔ latest (Act.height y.row) acts = some (y.height, y.xf)) (n : Nat) :
    Needed (HasCell D) acts n ↔ (∃ c ∈ D.cells, c.row = n) ∨ ((∃ h ∈ D.heights, h.row = n) ∧ ∃ c ∈ D.cells, n < c.row) := by
  have e1 : latest (Act.height n) acts ≠ none ↔ ∃ h ∈ D.heights, h.row = n := by
    constructor
    · intro h
      obtain ⟨⟨w, x⟩, hx⟩ := Option.ne_none_iff_exists'.mp h
      exact ⟨⟨n, w, x⟩, (hl _).mpr hx, rfl⟩
    · rintro ⟨y, hy, rfl⟩
      rw [(hl y).mp hy]
      simp
  unfold Needed HasCell
  rw [e1]
  constructor
  · rintro (⟨col, c, hc, h1, -⟩ | ⟨h1, row, col, hlt, c, hc, h2, -⟩)
    · exact .inl ⟨c, hc, h1⟩
    · exact .inr ⟨h1, c, hc, by omega⟩
  · rintro (⟨c, hc, h1⟩ | ⟨h1, c, hc, h2⟩)
    · exact .inl ⟨c.col, c, hc, h1, rfl⟩
    · exact .inr ⟨h1, c.row, c.col, h2, c, hc, rfl, rfl⟩

/-- The library gets past the rows in exactly these cases. -/
theorem steady_iff {acts : List Act} {D : Data α Note.Note} (ho : Ordered Cell.key D.cells) (hh : HtSorted D.heights)
    (hl : ∀ y, y ∈ D.heights ↔ latest (Act.height y.row) acts = some (y.height, y.xf)) :
    Steady (HasCell D) acts ↔ ∃ R, Rows.RowList D.cells D.heights R ∧ Rows.NoStall D.cells R := by
  have hsort := Rows.rowSorted_of_ordered ho
  have hcell : ∀ n, (∀ row col row' col', n < row → HasCell D row col → n < row' → HasCell D row' col' → row = row' ∧ col = col') ↔
      Rows.after D.cells n ≤ 1 := by
    intro n
    rw [after_le_one ho]
    constructor
    · intro h c hc d hd h1 h2
      exact h _ _ _ _ h1 (.mk hc) h2 (.mk hd)
    · rintro h _ _ _ _ h1 ⟨c, hc, rfl, rfl⟩ h2 ⟨d, hd, rfl, rfl⟩
      exact h c hc d hd h1 h2
  have hrow : ∀ l : List Nat, (∃ m ∈ l, ∃ col, HasCell D m col) ↔ ∃ c ∈ D.cells, c.row ∈ l := by
    intro l
    constructor
    · rintro ⟨m, hm, col, c, hc, rfl, -⟩
      exact ⟨c, hc, hm⟩
    · rintro ⟨c, hc, hm⟩
      exact ⟨_, hm, c.col, .mk hc⟩
  constructor
  · intro h
    have hR : Rows.RowList D.cells D.heights (nums (items D.cells D.heights)) :=
      ⟨Rows.items_incr _ _ hsort hh, fun n => Rows.mem_items _ _ hsort hh n⟩
    refine ⟨_, hR, fun k n hk => ?_⟩
    have := h _ hR.incr (fun n => (hR.mem n).trans (needed_iff hl n).symm) k n hk
    rwa [hrow, hcell] at this
  · rintro ⟨R, hR, hs⟩ R' h1 h2 k n hk
    have : R' = R := Rows.incr_unique h1 hR.incr fun n => by rw [h2, needed_iff hl, hR.mem]
    subst this
    rw [hrow, hcell]
    exact hs k n hk

end Xls.Page
