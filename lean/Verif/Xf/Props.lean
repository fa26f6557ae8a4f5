import Verif.Xf.Track
/-
C28: the XF record says what was asked for.
-/
namespace Xls.Xf
open Xls.Xf.Spec

/-- The bytes written for a user format (`workbook::xformat`, workbook.cpp 203-234) after the calls `ops`. -/
def written (ops : List Op) : Option Bytes := ((new true true false).bind fun x => runAll x ops).bind record

/-- C28, apart from the diagonal border: for every history of calls the record decodes to the attributes asked for.
    Missing for the full claim (`readXf (bs.drop 4) = some (want ops)` for every history): the diagonals, which are never
    written, `c28_diagonal_lost`. -/
theorem c28_xf_partial (ops : List Op) (ho : ∀ o ∈ ops, Valid o) :
    ∃ bs, written ops = some bs ∧ bs.length = 24 ∧ bs.take 4 = [0xE0, 0, 20, 0] ∧
      readXf (bs.drop 4) = some { want ops with diagonal := ⟨0, 0⟩, diagWhich := 0 } := by
  have hi : (track fresh ops).indent ∈ indentTable := by
    obtain ⟨i1, i2⟩ := indent_last ops ho
    show last pickIndentCode 0 ops ∈ indentTable
    rw [i1]
    exact (indent_codes _ i2).1
  obtain ⟨bs, h1, h2, h3, h4⟩ := read_record (track fresh ops) hi
  refine ⟨bs, ?_, h3, h2, ?_⟩
  · rw [written, new_user, Option.bind_some, runAll_track fresh rfl ops ho, Option.bind_some, h1]
  · rw [h4, seen_track ops ho]

/-- Is the call about the diagonals? -/
def onDiagonal : Op → Bool
  | .bstyle .diagonals _ => true
  | .bcolor .diagonals _ => true
  | .bcolorIdx .diagonals _ => true
  | _ => false

/-- C28 in full for histories that leave the diagonals alone. -/
theorem c28_no_diagonals (ops : List Op) (ho : ∀ o ∈ ops, Valid o) (hd : ∀ o ∈ ops, onDiagonal o = false) :
    ∃ bs, written ops = some bs ∧ readXf (bs.drop 4) = some (want ops) := by
  obtain ⟨bs, h1, -, -, h4⟩ := c28_xf_partial ops ho
  refine ⟨bs, h1, ?_⟩
  have e : ops.foldl (lineStep .diagonals) ⟨0, 0⟩ = ⟨0, 0⟩ := by
    clear h1 h4 ho
    induction ops with
    | nil => rfl
    | cons o r ih =>
      have ho := hd o (by simp)
      have : lineStep .diagonals ⟨0, 0⟩ o = ⟨0, 0⟩ := by
        cases o <;> simp only [lineStep] <;> (rename_i s n; cases s <;> simp [onDiagonal] at ho ⊢)
      rw [List.foldl_cons, this]
      exact ih fun o h => hd o (by simp [h])
  rw [h4]
  simp [want, line, e]

/-- The diagonal border is accepted and lost: the record of a format with a thick red diagonal says there is none. -/
theorem c28_diagonal_lost : ∃ ops, (∀ o ∈ ops, Valid o) ∧ ∃ bs, written ops = some bs ∧ readXf (bs.drop 4) ≠ some (want ops) := by
  refine ⟨[.bstyle .diagonals 5, .bcolor .diagonals 17], ?_, ?_⟩
  · intro o h
    simp only [List.mem_cons, List.not_mem_nil, or_false] at h
    rcases h with h | h <;> subst h <;> simp [Valid]
  · obtain ⟨bs, h1, -, -, h4⟩ := c28_xf_partial [.bstyle .diagonals 5, .bcolor .diagonals 17] (by
      intro o h
      simp only [List.mem_cons, List.not_mem_nil, or_false] at h
      rcases h with h | h <;> subst h <;> simp [Valid])
    refine ⟨bs, h1, ?_⟩
    rw [h4]
    decide

/-- What a call is about. -/
inductive Attr
  | font | format | halign | valign | indent | orient | fill | fg | bg | locked | hidden | wrap | border (s : Side)
deriving DecidableEq

def about : Op → Attr
  | .font _ => .font
  | .formatIndex _ => .format | .format _ => .format | .userFormat _ => .format
  | .halign _ => .halign | .valign _ => .valign | .indent _ => .indent | .orient _ => .orient
  | .fill _ => .fill | .fg _ => .fg | .fgIdx _ => .fg | .bg _ => .bg | .bgIdx _ => .bg
  | .locked _ => .locked | .hidden _ => .hidden | .wrap _ => .wrap
  | .bstyle s _ => .border s | .bcolor s _ => .border s | .bcolorIdx s _ => .border s

/-- The part of the record about an attribute. -/
def part (s : Seen) : Attr → List Nat
  | .font => [s.font] | .format => [s.format]
  | .halign => [s.halign] | .valign => [s.valign] | .indent => [s.indent, s.shrink.toNat, s.direction] | .orient => [s.orient]
  | .fill => [s.pattern] | .fg => [s.fg] | .bg => [s.bg]
  | .locked => [s.locked.toNat] | .hidden => [s.hidden.toNat] | .wrap => [s.wrap.toNat]
  | .border .left => [s.left.style, s.left.color] | .border .right => [s.right.style, s.right.color]
  | .border .top => [s.top.style, s.top.color] | .border .bottom => [s.bottom.style, s.bottom.color]
  | .border .diagonals => [s.diagonal.style, s.diagonal.color]

theorem last_filter {α : Type} (pick : Op → Option α) (d : α) (a : Attr) (ops : List Op)
    (h : ∀ o, about o ≠ a → pick o = none) : last pick d (ops.filter (about · = a)) = last pick d ops := by
  induction ops generalizing d with
  | nil => rfl
  | cons o r ih =>
    by_cases hc : about o = a
    · rw [List.filter_cons_of_pos (by simpa using hc)]
      exact ih _
    · rw [List.filter_cons_of_neg (by simpa using hc), ih]
      show last pick d r = last pick ((pick o).getD d) r
      rw [h o hc]
      rfl

theorem line_filter (s : Side) (l : Line) (ops : List Op) :
    (ops.filter (about · = .border s)).foldl (lineStep s) l = ops.foldl (lineStep s) l := by
  induction ops generalizing l with
  | nil => rfl
  | cons o r ih =>
    by_cases hc : about o = .border s
    · rw [List.filter_cons_of_pos (by simpa using hc)]
      exact ih _
    · rw [List.filter_cons_of_neg (by simpa using hc), ih, List.foldl_cons]
      congr 1
      cases o <;> simp [about] at hc <;> simp [lineStep, hc]

/-- Setting one attribute does not disturb another: the part of the record about an attribute is the same as if only the
    calls about that attribute had been made. -/
theorem c28_isolated (ops : List Op) (ho : ∀ o ∈ ops, Valid o) (a : Attr) :
    ∃ bs bs' s s', written ops = some bs ∧ written (ops.filter (about · = a)) = some bs' ∧ readXf (bs.drop 4) = some s ∧
      readXf (bs'.drop 4) = some s' ∧ part s a = part s' a := by
  obtain ⟨bs, h1, -, -, h4⟩ := c28_xf_partial ops ho
  obtain ⟨bs', h1', -, -, h4'⟩ := c28_xf_partial (ops.filter (about · = a)) (fun o h => ho o (List.mem_filter.mp h).1)
  refine ⟨bs, bs', _, _, h1, h1', h4, h4', ?_⟩
  cases a
  case border s => cases s <;> simp only [part, want, line, line_filter]
  all_goals
    simp only [part, want]
    rw [last_filter]
    intro o h
    cases o <;> simp [about] at h <;> rfl

/-- The hypotheses are met, and the record says what one expects: bold header cells of a report. -/
example : ∃ bs, written [.halign 2, .indent 17, .fill 1, .fgIdx 44, .bstyle .bottom 2, .wrap true, .format 9, .font (some 5),
      .locked false, .halign 3] = some bs ∧
    (readXf (bs.drop 4)).map (fun s => (s.halign, s.direction, s.fg, s.bottom, s.format, s.font, s.locked, s.usesProtect))
      = some (3, 1, 44, ⟨2, 64⟩, 9, 6, false, true) := by
  obtain ⟨bs, h1, h2⟩ := c28_no_diagonals [.halign 2, .indent 17, .fill 1, .fgIdx 44, .bstyle .bottom 2, .wrap true, .format 9,
    .font (some 5), .locked false, .halign 3] (by
      intro o h
      simp only [List.mem_cons, List.not_mem_nil, or_false] at h
      rcases h with h | h | h | h | h | h | h | h | h | h <;> subst h <;> simp [Valid]) (by decide)
  exact ⟨bs, h1, by rw [h2]; rfl⟩

end Xls.Xf
