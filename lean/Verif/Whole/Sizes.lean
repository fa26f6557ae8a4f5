import Verif.Whole.File
import Verif.Formula.CellProps
/-
The sizes that cells announce against the records they make (C19): right for all kinds but long texts and formulas.
-/
namespace Xls.Whole
open Xls.Biff Xls.Cells Xls.Book Xls.Save

/-- A text that goes to the shared string table. -/
def Val.long : Val → Bool
  | .text t => decide (255 < t.length)
  | _ => false

/-- Everything but expressions and array formulas (whose sizes are C25). -/
def Val.simple : Val → Bool
  | .expr .. => false
  | .tokens array _ => !array
  | _ => true

/-- Whatever is in the cell, the size it announces is the number of bytes of its record, but for long texts it is two bytes short. -/
theorem c19_sizes_partial (labels : List Sst.LCell) (xf : Nat) (c : WCell) (hs : c.val.2.simple = true) :
    ∃ n, announced c = some n ∧ (cellBytes labels xf c).length = n + if c.val.2.long then 2 else 0 := by
  obtain ⟨id, row, col, i, v⟩ := c
  have one : ∀ r : Rec, cellRecords labels xf ⟨id, row, col, i, v⟩ = some [r] → (cellBytes labels xf ⟨id, row, col, i, v⟩).length = (enc r).length := by
    intro r h; simp [cellBytes, h]
  cases v with
  | expr a e => cases hs
  | tokens a tok =>
    obtain rfl : a = false := by simpa [Val.simple] using hs
    refine ⟨_, rfl, ?_⟩
    have := Formula.c25_stack row col xf tok
    unfold Formula.stackUnit Formula.formulaUnit at this
    simpa [cellBytes, cellRecords, Val.long] using this
  | blank => exact ⟨_, rfl, by rw [one _ rfl, (Num.c23_sizes row col xf 0 (.int 0) true).2.2.2]; simp [Val.long]⟩
  | bool v => exact ⟨_, rfl, by rw [one _ rfl, (Num.c23_sizes row col xf 0 (.int 0) v).2.1]; simp [Val.long]⟩
  | error v => exact ⟨_, rfl, by rw [one _ rfl, (Num.c23_sizes row col xf v (.int 0) true).2.2.1]; simp [Val.long]⟩
  | double v => exact ⟨_, rfl, by rw [one _ rfl, (Num.c23_sizes row col xf 0 _ true).1]; simp [Val.long]⟩
  | signed v => exact ⟨_, rfl, by rw [one _ rfl, (Num.c23_sizes row col xf 0 _ true).1]; simp [Val.long]⟩
  | unsigned v => exact ⟨_, rfl, by rw [one _ rfl, (Num.c23_sizes row col xf 0 _ true).1]; simp [Val.long]⟩
  | text t =>
    refine ⟨_, rfl, ?_⟩
    rw [one _ rfl]
    unfold Sst.labelRec labelSize
    by_cases h : 255 < t.length
    · simp [enc, Val.long, h, Sst.inSST, toL, Val.label]
    · simp [enc, Val.long, h, Sst.inSST, toL, Val.label, Unit.c04_string_size, Unit.unicodeStringLength]
      split <;> omega

/-- The number of long texts among the cells. -/
def longTexts (cells : List WCell) : Nat := (cells.filter fun c => c.val.2.long).length

theorem sums (labels : List Sst.LCell) (xf : WCell → Nat) (cells : List WCell) (hs : ∀ c ∈ cells, c.val.2.simple = true) :
    (cells.map fun c => (cellBytes labels (xf c) c).length).sum = (cells.map fun c => (announced c).getD 0).sum + 2 * longTexts cells := by
  induction cells with
  | nil => rfl
  | cons c r ih =>
    obtain ⟨n, h1, h2⟩ := c19_sizes_partial labels (xf c) c (hs c (by simp))
    have := ih (fun x hx => hs x (by simp [hx]))
    rw [List.map_cons, List.map_cons, List.sum_cons, List.sum_cons, this, h1, h2]
    unfold longTexts
    rw [List.filter_cons]
    simp only [Option.getD_some]
    split <;> simp [*] <;> omega

/-- C19 fails for sheets with long texts: already for a sheet of at most 16 rows, the INDEX record points two bytes before the DBCELL
    record for each text of more than 255 characters; without such texts it is right. -/
theorem c19_long_texts {h : List (Nat × Cell Val)} {b : Book} (r : Reach h b) (xf : WCell → Nat) (i : Nat) (heights : List Rows.RowHeight)
    (R : List Nat) (old : Rows.St (Nat × Val)) (pos ncol : Nat) (hh : Rows.HtSorted heights) (hlen : (b.sheets i).cells.length < 2 ^ 32)
    (hR : Rows.RowList (b.sheets i).cells heights R) (hon : Rows.HeightsOnCells (b.sheets i).cells heights) (hne : (b.sheets i).cells ≠ [])
    (h16 : R.length ≤ 16) (hs : ∀ c ∈ (b.sheets i).cells, c.val.2.simple = true) :
    ∃ n evs s' p q, (∀ fuel, Rows.run (fun c => (cellBytes b.labels (xf c) c).length) heights (fuel + n) (Rows.defColWidthAt pos 1 ncol + 6 + 18)
        (Rows.enter (b.sheets i).cells old) = .done evs s') ∧
      Rows.dbcellAt (fun c => (cellBytes b.labels (xf c) c).length) (Rows.defColWidthAt pos 1 ncol + 6 + 18) evs = [p] ∧
      Rows.indexOffsets (fun c => (announced c).getD 0) pos ncol (b.sheets i).cells = [Rows.defColWidthAt pos 1 ncol, q] ∧
      q + 2 * longTexts (b.sheets i).cells = p := by
  obtain ⟨n, evs, s', p, q, h1, h2, h3, h4⟩ := Rows.c19_wrong_sizes (fun c => (cellBytes b.labels (xf c) c).length) (fun c => (announced c).getD 0)
    (b.sheets i).cells heights R old pos ncol (reach_sheets r i).ordered hh hlen hR hon hne h16
  refine ⟨n, evs, s', p, q, h1, h2, h3, ?_⟩
  have e := sums b.labels xf _ hs
  rw [e] at h4
  clear e
  generalize (List.map (fun c => (announced c).getD 0) (b.sheets i).cells).sum = S at h4
  omega

/-- One sheet: a text of 300 characters and a number. -/
example (t : List UInt16) (ht : t.length = 300) : ∃ b, Reach [(0, ⟨1, 0, 0, .text t⟩), (0, ⟨2, 0, 1, .signed 7⟩)] b ∧
    0 < longTexts (b.sheets 0).cells ∧ ∀ c ∈ (b.sheets 0).cells, c.val.2.simple = true := by
  obtain ⟨b, r, -⟩ := reach_of [(0, ⟨1, 0, 0, .text t⟩), (0, ⟨2, 0, 1, .signed 7⟩)] (by simp)
  refine ⟨b, r, ?_, ?_⟩
  · have : stamp 0 ⟨1, 0, 0, .text t⟩ ∈ (b.sheets 0).cells := ((reach_sheets r 0).cells _).mpr ⟨_, rfl, rfl⟩
    exact List.length_pos_of_mem (List.mem_filter.mpr ⟨this, decide_eq_true (by show 255 < t.length; omega)⟩)
  · intro c hc
    obtain ⟨d, h1, rfl⟩ := ((reach_sheets r 0).cells c).mp hc
    unfold lastWrite at h1
    obtain ⟨p, hp, rfl⟩ := Option.map_eq_some_iff.mp h1
    have := (List.mem_filter.mp (List.mem_of_getLast? hp)).1
    simp only [List.mem_cons, List.not_mem_nil, or_false] at this
    rcases this with rfl | rfl <;> rfl

end Xls.Whole
