import Verif.Look.Props
/-
C57 with nothing assumed but the program.
-/
namespace Xls.Look
open Xls.Whole Xls.Cells Xls.Biff Xls.Book Xls.Save
open Xls.Styles (Action)
open Xls.Styles.Spec (upd fontOf wantXf wantFont)

/-- The workbook globals with the fonts and formats of `s`: five default fonts and 21 default formats come from `m_DefaultFonts` and
    `m_DefXFs`, the others from `m_Fonts` and `m_XFs` (globalrec.cpp 378-437); `D0` gives everything else. -/
def dress (s : State) (D0 : Globals.Data) (names : List (List UInt16)) (table : List (List UInt16)) : Globals.Data :=
  { D0 with
    defFonts := (Styles.fontRecords s.styles).take 5
    fonts := (Styles.fontRecords s.styles).drop 5
    formats := s.formats.list.map NumFmt.payload
    defXfs := ((Styles.xfRecords s.styles).getD []).take 21
    xfs := ((Styles.xfRecords s.styles).getD []).drop 21
    bounds := names.map fun n => ⟨n, 0⟩
    labels := table }

theorem font_small (f : Font.Font) (h : f.name.length < 256) : (Font.payload f).length ≤ 8224 := by
  have h1 : (Unit.strBytes f.name .len1).length ≤ 2 + 2 * f.name.length := by
    simp only [Unit.strBytes, Unit.strHeader, Unit.strChars, List.length_append]
    split <;> simp [List.length_flatMap, List.map_const', List.sum_replicate_nat] <;> omega
  simp only [Font.payload, Font.recordOps, List.flatMap_cons, List.flatMap_nil, Unit.Op.bytes, List.length_append, leN_length, List.length_nil,
    List.length_cons]
  omega

theorem format_small (c : Nat × List UInt16) (h : c.2.length < 4096) : (NumFmt.payload c).length ≤ 8224 := by
  have h1 : (Unit.strBytes c.2 .len2).length ≤ 3 + 2 * c.2.length := by
    simp only [Unit.strBytes, Unit.strHeader, Unit.strChars, List.length_append]
    split <;> simp [List.length_flatMap, List.map_const', List.sum_replicate_nat] <;> omega
  simp only [NumFmt.payload, NumFmt.recordOps, List.flatMap_cons, List.flatMap_nil, Unit.Op.bytes, List.length_append, leN_length, List.length_nil]
  omega

theorem xf_records (s : Styles.State) : ∃ l, Styles.xfRecords s = some l ∧ l.length = s.xfs.length ∧ ∀ p ∈ l, p.length ≤ 8224 := by
  have hrec : ∀ e : Styles.XEnt, (Xf.record e.xf).map (·.drop 4) = some (((Xf.record e.xf).map (·.drop 4)).getD []) := by
    intro e
    rw [Xf.record_words]
    rfl
  refine ⟨_, Styles.mapM_all _ _ hrec _, by simp, ?_⟩
  intro p hp
  obtain ⟨e, -, rfl⟩ := List.mem_map.mp hp
  rw [Xf.record_words]
  simp [Xf.words]

/-- C57, nothing assumed but the program: any calls as in C29 that write `Fine` values, in at most 32832 rows of each sheet, on the sheets of a new
    workbook with plain settings are carried out and saved without undefined behaviour, and a reader of the file finds every cell with its
    content and look. -/
theorem c57_plain {ar : Nat → Option Nat} (hA : Formula.KnowsArity ar) (calls : List Call) (s0 : State) (h0 : init = some s0)
    (hf : Fine s0 nothing calls) (hv : All Whole.Fine (asked s0 nothing calls).writes) (hlen : (asked s0 nothing calls).writes.length < 2 ^ 32)
    (hrow : FewRows (asked s0 nothing calls).writes) (cs : WCell → Nat)
    (names : List (List UInt16)) (hn0 : names ≠ []) (hn1 : names.length ≤ 1000) (hn2 : ∀ n ∈ names, n.length < 256)
    (D0 : Globals.Data) (hD0 : ∀ p ∈ D0.styles ++ [D0.palette], p.length ≤ 8224) :
    ∃ t, steps s0 calls = some t ∧ (t.styles.xfs.length ≤ 65536 → ∃ D fuel us s' bs, Dressed t D ∧
      Pours t.book D ((List.range names.length).map (plainSheet t.book)) ∧
      Book.run Globals.next (Sheet.next (Note.env (fun c => cellBytes t.book.labels (xf t c) c) cs)) fuel
        (plainStart D ((List.range names.length).map (plainSheet t.book))) = .done us s' ∧
      stream us s'.bpos = some bs ∧ (bs.length < 2 ^ 32 → ∃ L recs, openCells bs = some (names.zip L) ∧ L.length = names.length ∧
        openStyles bs = some recs ∧ ∀ (i : Nat) xs, L[i]? = some xs → Shown ar (asked s0 nothing calls) recs i xs)) := by
  obtain ⟨t, t1, H⟩ := c57_cells_partial hA calls s0 h0 hf
  have G : Good t (asked s0 nothing calls) := by
    obtain ⟨s, h1, G⟩ := init_good
    rw [h0] at h1
    cases Option.some.inj h1
    obtain ⟨t', t2, G'⟩ := sim_all G calls hf
    rw [t1] at t2
    cases Option.some.inj t2
    exact G'
  refine ⟨t, t1, fun hx => ?_⟩
  obtain ⟨table, ht⟩ := labels_text G.reach
  obtain ⟨X, hX, hXl, hXs⟩ := xf_records t.styles
  have hFs : ∀ p ∈ Styles.fontRecords t.styles, p.length ≤ 8224 := by
    intro p hp
    obtain ⟨f, hf, rfl⟩ := List.mem_map.mp hp
    exact font_small _ (G.short _ (List.mem_map.mpr ⟨f, hf, rfl⟩))
  have hD : Dressed t (dress t D0 names table) := ⟨by simp [dress], rfl, by simp [dress, hX]⟩
  obtain ⟨n, us, s', hp, hok, hs, hrun, hsm, hsh⟩ := plain_saves_of hA _ t.book G.reach hv.sound hlen hrow (xf t) (xf_lt G) cs names hn0 hn1 hn2
    (dress t D0 names table) rfl ht
    (by
      have := G.styles.inv.fonts.five
      intro e
      have := congrArg List.length e
      simp only [dress, List.length_take, Styles.fontRecords, List.length_map, List.length_nil] at this
      omega)
    (by
      have := G.styles.inv.many
      intro e
      have := congrArg List.length e
      simp only [dress, hX, Option.getD_some, List.length_take, List.length_nil] at this
      omega)
    (by
      intro p hp
      simp only [dress, hX, Option.getD_some, List.mem_append, List.mem_cons, List.not_mem_nil, or_false] at hp
      have hD0' : ∀ p, p ∈ D0.styles ∨ p = D0.palette → p.length ≤ 8224 := fun p h => hD0 p (by simpa using h)
      rcases hp with (((((h | h) | h) | h) | h) | h) | h
      · exact hFs p (List.mem_of_mem_take h)
      · exact hFs p (List.mem_of_mem_drop h)
      · obtain ⟨c, hc, rfl⟩ := List.mem_map.mp h
        refine format_small c ?_
        rw [G.formats, NumFmt.user_index, List.mem_mapIdx] at hc
        obtain ⟨k, hk, rfl⟩ := hc
        exact G.codes _ (List.getElem_mem hk)
      · exact hXs p (List.mem_of_mem_take h)
      · exact hXs p (List.mem_of_mem_drop h)
      · exact hD0' p (.inl h)
      · exact hD0' p (.inr h))
  obtain ⟨bs, e1, e2⟩ := H hv hx cs _ demoGs _ _ s' us n hD hp hok hs hrun hsm hsh
  refine ⟨_, n, us, s', bs, hD, hp, hrun, e1, fun h32 => ?_⟩
  obtain ⟨L, recs, l1, l2, l3, l4⟩ := e2 h32 []
  rw [List.append_nil] at l1 l3
  refine ⟨L, recs, ?_, by simpa using l2, l3, l4⟩
  rw [l1]
  simp [dress, Function.comp_def]

/-! ### A program -/

/-- `Ok`, computed. -/
def okB (s : State) (A : Asked) : Call → Bool
  | .put _ _ _ _ q => Styles.okB s.styles A.looks (.newCell q)
  | .style a => Styles.okB s.styles A.looks a && (match a with | .destroy c => A.writes.all (·.2.id != c) | _ => true)
  | .format code => decide (A.codes.length < 65372) && decide (code.length < 4096)

theorem ok_of {s : State} {A : Asked} {c : Call} (h : okB s A c = true) : Ok s A c := by
  cases c with
  | put i row col v q => exact Styles.ok_of h
  | format code => simpa [okB, Ok] using h
  | style a =>
    simp only [okB, Bool.and_eq_true] at h
    refine ⟨Styles.ok_of h.1, ?_⟩
    rintro c rfl i row col d hw
    unfold lastWrite at hw
    obtain ⟨p, hp, rfl⟩ := Option.map_eq_some_iff.mp hw
    have := List.all_eq_true.mp h.2 p (List.mem_filter.mp (List.mem_of_getLast? hp)).1
    simpa using this

def fineB (s : State) (A : Asked) : List Call → Bool
  | [] => true
  | c :: r => okB s A c && decide (s.styles.fonts.length < 65535) && (match step s c with | none => true | some t => fineB t (ask s A c) r)

theorem fine_of {s : State} {A : Asked} {calls : List Call} (h : fineB s A calls = true) : Fine s A calls := by
  induction calls generalizing s A with
  | nil => trivial
  | cons c r ih =>
    simp only [fineB, Bool.and_eq_true, decide_eq_true_eq] at h
    refine ⟨ok_of h.1.1, h.1.2, fun t ht => ih ?_⟩
    have := h.2
    rw [ht] at this
    exact this

/-- A font, a number format and a format; three cells, two with the format; one is made bold, another centred and given the number format,
    the third overwritten; the font is changed at the end. -/
def sample : List Call :=
  [.style (.newFont [65]), .format [48, 46, 48], .style .newXf, .style (.xf 21 (.font (some 5))), .put 0 0 0 (.text [72, 105]) (some 21),
   .put 0 0 1 (.signed 7) (some 21), .put 1 4 2 (.bool true) none, .style (.cellFont 0 (.bold 0)),
   .style (.cellFont 2 (.italic true)), .put 1 4 2 (.error 42) (some 21), .style (.cell 1 (.halign 2)), .style (.cell 1 (.userFormat (some 0))), .style (.cell 3 (.wrap true)), .style (.font 5 (.height 300))]

/-- Enough for `Whole.Fine`, computed. -/
def valB : Val → Bool
  | .text t => decide (t.length ≤ 4000)
  | .signed z => decide (-2147483648 ≤ z) && decide (z < 2147483648)
  | .bool _ => true
  | .blank => true
  | .error c => decide (c < 256)
  | _ => false

theorem val_of {i : Nat} {v : Val} (h : valB v = true) : Whole.Fine i v := by
  cases v with
  | text t =>
    simp only [valB, decide_eq_true_eq] at h
    show t.length + 3 + _ ≤ 8224
    split <;> omega
  | signed z =>
    simp only [valB, Bool.and_eq_true, decide_eq_true_eq] at h
    exact h
  | bool b => trivial
  | blank => trivial
  | error c =>
    simp only [valB, decide_eq_true_eq] at h
    exact h
  | double | unsigned | expr | tokens => simp [valB] at h

/-- The sample meets all conditions of `c57_plain`. -/
theorem sample_fine : ∃ s0, init = some s0 ∧ Fine s0 nothing sample ∧ All Whole.Fine (asked s0 nothing sample).writes ∧
    (asked s0 nothing sample).writes.length = 4 ∧ ∀ p ∈ (asked s0 nothing sample).writes, p.2.row < 32832 := by
  obtain ⟨s0, h0, -⟩ := init_good
  have h : (init.map fun s => fineB s nothing sample && decide ((asked s nothing sample).writes.length = 4) &&
      (asked s nothing sample).writes.all fun p => decide (p.2.row < 32832) && decide (p.2.col < 256) && valB p.2.val) = some true := by decide +kernel
  rw [h0] at h
  simp only [Option.map_some, Option.some.injEq, Bool.and_eq_true, decide_eq_true_eq, List.all_eq_true] at h
  refine ⟨s0, h0, fine_of h.1.1, ?_, h.1.2, fun p hp => (h.2 p hp).1.1⟩
  intro i row col c hw
  unfold lastWrite at hw
  obtain ⟨p, hp, rfl⟩ := Option.map_eq_some_iff.mp hw
  have := h.2 p (List.mem_filter.mp (List.mem_of_getLast? hp)).1
  exact ⟨by omega, this.1.2, val_of this.2⟩

/-- What the sample asks for: the overwritten cell is gone, the new one wraps; the cell that got its own font keeps the height it had when the
    font was changed later, the other does not. -/
example : (init.map fun s => (asked s nothing sample).writes.map (fun p => (p.1, p.2.id, p.2.row, p.2.col))) =
    some [(0, 0, 0, 0), (0, 1, 0, 1), (1, 2, 4, 2), (1, 3, 4, 2)] := by decide +kernel
example : (init.bind fun s => ((asked s nothing sample).looks.cells 3).map (fun l => (wantXf l).wrap)) = some true ∧
    (init.bind fun s => ((asked s nothing sample).looks.cells 1).bind fun l => codeOf l.calls) = some 0 ∧
    (init.map fun s => (asked s nothing sample).codes) = some [[48, 46, 48]] ∧
    (init.bind fun s => (asked s nothing sample).looks.cells 2) = none := by decide +kernel
example : (init.bind fun s => (((asked s nothing sample).looks.cells 1).bind (fontOf (asked s nothing sample).looks)).map (fun h => (wantFont h).height)) = some 300 ∧
    (init.bind fun s => (((asked s nothing sample).looks.cells 0).bind (fontOf (asked s nothing sample).looks)).map
      (fun h => ((wantFont h).height, (wantFont h).weight))) = some (200, 700) := by decide +kernel

example : ∃ s0 t, init = some s0 ∧ steps s0 sample = some t ∧ (t.styles.xfs.length ≤ 65536 → ∃ D fuel us s' bs, Dressed t D ∧
      Pours t.book D ((List.range 2).map (plainSheet t.book)) ∧
      Book.run Globals.next (Sheet.next (Note.env (fun c => cellBytes t.book.labels (xf t c) c) fun _ => 0)) fuel
        (plainStart D ((List.range 2).map (plainSheet t.book))) = .done us s' ∧
      stream us s'.bpos = some bs ∧ (bs.length < 2 ^ 32 → ∃ L recs, openCells bs = some ([[65], [66]].zip L) ∧ L.length = 2 ∧
        openStyles bs = some recs ∧ ∀ (i : Nat) xs, L[i]? = some xs → Shown Formula.tableArity (asked s0 nothing sample) recs i xs)) := by
  obtain ⟨s0, h0, h1, h2, h3, h4⟩ := sample_fine
  obtain ⟨t, ht⟩ := c57_plain Formula.tableArity_knows sample s0 h0 h1 h2 (by omega) (fewRows_of h4) (fun _ => 0) [[65], [66]] (by decide) (by decide) (by decide)
    (demoGlobals [] []) (by decide)
  exact ⟨s0, t, h0, ht⟩

end Xls.Look
