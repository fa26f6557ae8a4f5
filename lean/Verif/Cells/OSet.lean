/-
`std::set` with a comparator that compares a key: the elements in increasing order, one per key.

Keys are pairs of numbers compared lexicographically: (row, column) for cells (cell.h 136-147), (row, 0)
for row heights (row.h 105-112), (first column, 0) for column settings (colinfo.h 53-60).  The tree inside
the container and the position hint given to `insert` are not modelled: a hint never changes the result.
-/
namespace Xls.Cells

abbrev Key := Nat × Nat

/-- The comparison `insertsort::operator()`, cell.h 139-146. -/
def klt (a b : Key) : Bool := if a.1 ≠ b.1 then decide (a.1 < b.1) else decide (a.2 < b.2)

/-- `std::set::insert`: the new contents, or the element that already has the key. -/
def setInsert {α : Type} (key : α → Key) (x : α) : List α → List α × Option α
  | [] => ([x], none)
  | y :: r =>
    if klt (key x) (key y) then (x :: y :: r, none)
    else if klt (key y) (key x) then
      let (r', e) := setInsert key x r
      (y :: r', e)
    else (y :: r, some y)

/-- `std::set::find` with a probe that has key `k`. -/
def setFind {α : Type} (key : α → Key) (k : Key) : List α → Option α
  | [] => none
  | y :: r => if !klt k (key y) && !klt (key y) k then some y else setFind key k r

/-- `std::set::erase` by key. -/
def setErase {α : Type} (key : α → Key) (k : Key) : List α → List α
  | [] => []
  | y :: r => if !klt k (key y) && !klt (key y) k then r else y :: setErase key k r

/-- Strictly increasing keys. -/
def Ordered {α : Type} (key : α → Key) (l : List α) : Prop := l.Pairwise (fun a b => klt (key a) (key b) = true)

theorem klt_irrefl (a : Key) : klt a a = false := by simp [klt]

theorem klt_iff (a b : Key) : klt a b = true ↔ a.1 < b.1 ∨ (a.1 = b.1 ∧ a.2 < b.2) := by
  unfold klt
  by_cases h : a.1 = b.1
  · simp [h]
  · simp only [ne_eq, h, not_false_eq_true, if_true, decide_eq_true_eq, false_and, or_false]

theorem klt_false_iff (a b : Key) : klt a b = false ↔ b.1 < a.1 ∨ (a.1 = b.1 ∧ b.2 ≤ a.2) := by
  rw [← Bool.not_eq_true, klt_iff]; omega

theorem klt_trans {a b c : Key} (h1 : klt a b = true) (h2 : klt b c = true) : klt a c = true := by
  rw [klt_iff] at *; omega

theorem klt_eq {a b : Key} (h1 : klt a b = false) (h2 : klt b a = false) : a = b := by
  rw [klt_false_iff] at *
  exact Prod.ext (by omega) (by omega)

theorem same_iff (a b : Key) : (!klt a b && !klt b a) = true ↔ a = b := by
  constructor
  · intro h
    simp only [Bool.and_eq_true, Bool.not_eq_true'] at h
    exact klt_eq h.1 h.2
  · rintro rfl; simp [klt_irrefl]

variable {α : Type} {key : α → Key}

theorem setFind_eq (k : Key) (l : List α) : setFind key k l = l.find? (fun y => key y == k) := by
  induction l with
  | nil => rfl
  | cons y r ih =>
    simp only [setFind, List.find?]
    by_cases h : key y = k
    · rw [if_pos ((same_iff _ _).mpr h.symm)]
      simp [h]
    · rw [if_neg (fun h' => h ((same_iff _ _).mp h').symm)]
      simp only [beq_eq_false_iff_ne.mpr h]
      exact ih

theorem setFind_mem {k : Key} {l : List α} {x : α} (h : setFind key k l = some x) : x ∈ l ∧ key x = k := by
  rw [setFind_eq] at h
  exact ⟨List.mem_of_find?_eq_some h, by simpa using List.find?_some h⟩

theorem ordered_unique {l : List α} (hl : Ordered key l) {x y : α} (hx : x ∈ l) (hy : y ∈ l)
    (h : key x = key y) : x = y := by
  induction l with
  | nil => simp at hx
  | cons z r ih =>
    obtain ⟨h1, h2⟩ := List.pairwise_cons.mp hl
    rcases List.mem_cons.mp hx with rfl | hx'
    · rcases List.mem_cons.mp hy with rfl | hy'
      · rfl
      · have := h1 y hy'; rw [h, klt_irrefl] at this; simp at this
    · rcases List.mem_cons.mp hy with rfl | hy'
      · have := h1 x hx'; rw [h, klt_irrefl] at this; simp at this
      · exact ih h2 hx' hy'

theorem setFind_of_mem {l : List α} (hl : Ordered key l) {x : α} (hx : x ∈ l) : setFind key (key x) l = some x := by
  cases h : setFind key (key x) l with
  | none =>
    rw [setFind_eq] at h
    have := List.find?_eq_none.mp h x hx
    simp at this
  | some y =>
    obtain ⟨hy, hk⟩ := setFind_mem h
    rw [ordered_unique hl hy hx hk]

theorem setErase_sub (k : Key) (l : List α) : (setErase key k l).Sublist l := by
  induction l with
  | nil => exact List.Sublist.refl _
  | cons y r ih =>
    simp only [setErase]
    split
    · exact List.sublist_cons_self y r
    · exact ih.cons_cons y

theorem setErase_ordered {l : List α} (hl : Ordered key l) (k : Key) : Ordered key (setErase key k l) :=
  List.Pairwise.sublist (setErase_sub k l) hl

theorem mem_setErase {l : List α} (hl : Ordered key l) (k : Key) (x : α) :
    x ∈ setErase key k l ↔ x ∈ l ∧ key x ≠ k := by
  induction l with
  | nil => simp [setErase]
  | cons y r ih =>
    obtain ⟨h1, h2⟩ := List.pairwise_cons.mp hl
    simp only [setErase]
    by_cases h : k = key y
    · rw [if_pos ((same_iff _ _).mpr h)]
      constructor
      · intro hx
        refine ⟨List.mem_cons_of_mem _ hx, fun hk => ?_⟩
        have := h1 x hx
        rw [← h, hk, klt_irrefl] at this
        simp at this
      · rintro ⟨hx, hk⟩
        rcases List.mem_cons.mp hx with rfl | hx
        · exact absurd h.symm hk
        · exact hx
    · rw [if_neg (fun h' => h ((same_iff _ _).mp h'))]
      simp only [List.mem_cons, ih h2]
      constructor
      · rintro (rfl | ⟨h3, h4⟩)
        · exact ⟨Or.inl rfl, fun h' => h h'.symm⟩
        · exact ⟨Or.inr h3, h4⟩
      · rintro ⟨rfl | h3, h4⟩
        · exact Or.inl rfl
        · exact Or.inr ⟨h3, h4⟩

/-- Insertion under a key that is not there. -/
theorem setInsert_new {l : List α} (hl : Ordered key l) (x : α) (hx : ∀ y ∈ l, key y ≠ key x) :
    (setInsert key x l).2 = none ∧ Ordered key (setInsert key x l).1 ∧
      ∀ y, y ∈ (setInsert key x l).1 ↔ y = x ∨ y ∈ l := by
  induction l with
  | nil => simp [setInsert, Ordered]
  | cons y r ih =>
    obtain ⟨h1, h2⟩ := List.pairwise_cons.mp hl
    simp only [setInsert]
    by_cases ha : klt (key x) (key y) = true
    · rw [if_pos ha]
      refine ⟨rfl, List.pairwise_cons.mpr ⟨fun z hz => ?_, hl⟩, by simp⟩
      rcases List.mem_cons.mp hz with rfl | hz
      · exact ha
      · exact klt_trans ha (h1 z hz)
    · rw [if_neg ha]
      have hb : klt (key y) (key x) = true := by
        refine Classical.byContradiction fun hb => ?_
        exact hx y (by simp) (klt_eq (by simpa using hb) (by simpa using ha))
      rw [if_pos hb]
      obtain ⟨e1, e2, e3⟩ := ih h2 (fun z hz => hx z (by simp [hz]))
      refine ⟨e1, List.pairwise_cons.mpr ⟨fun z hz => ?_, e2⟩, fun z => ?_⟩
      · rcases (e3 z).mp hz with rfl | hz
        · exact hb
        · exact h1 z hz
      · simp only [List.mem_cons, e3]
        constructor
        · rintro (h | h | h)
          · exact Or.inr (Or.inl h)
          · exact Or.inl h
          · exact Or.inr (Or.inr h)
        · rintro (h | h | h)
          · exact Or.inr (Or.inl h)
          · exact Or.inl h
          · exact Or.inr (Or.inr h)

/-- Insertion under a key that is there. -/
theorem setInsert_old {l : List α} (hl : Ordered key l) (x y : α) (hy : y ∈ l) (hk : key y = key x) :
    setInsert key x l = (l, some y) := by
  induction l with
  | nil => simp at hy
  | cons z r ih =>
    obtain ⟨h1, h2⟩ := List.pairwise_cons.mp hl
    simp only [setInsert]
    rcases List.mem_cons.mp hy with rfl | hy
    · rw [hk, klt_irrefl]; simp
    · have hz : klt (key z) (key x) = true := by rw [← hk]; exact h1 y hy
      have hn : klt (key x) (key z) = false := by
        cases h : klt (key x) (key z) with
        | false => rfl
        | true => have := klt_trans hz h; rw [klt_irrefl] at this; simp at this
      rw [hn, hz, ih h2 hy]; simp

end Xls.Cells
