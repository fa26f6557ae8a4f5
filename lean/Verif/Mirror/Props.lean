import Verif.Mirror.Saved
import Verif.Mirror.Effects
/-
C73: at any moment of any program the getters answer what a reader of the file finds that would be saved then.
-/
namespace Xls.Mirror
open Xls.Biff Xls.Book Xls.Cells Xls.Save Xls.Whole
open Xls.Page (Act latest applyAll new Fit Short RowFit)
open Xls.Desk (Call State names Possible dataOf blank globals steps start units sheets init)

/-- A save of a workbook on which any program worked that hands over existing objects. -/
theorem save_echoed {ar : Nat → Option Nat} (hA : Formula.KnowsArity ar) (calls : List Call) (p0 : Prog.State) (h0 : Prog.init = some p0)
    (hp : Possible 0 calls) (hf : AllAble p0 Prog.nothing (calls.filterMap Call.inner))
    (hm : Prog.Modest (Prog.asked p0 Prog.nothing (calls.filterMap Call.inner))) (cs : WCell → Nat)
    (hn0 : names calls ≠ []) (hn1 : (names calls).length ≤ 1000) (hn2 : ∀ n ∈ names calls, n.length < 256)
    {s : State} (hs : steps (start p0) calls = some s) (hx : s.prog.look.styles.xfs.length ≤ 65536) (hfo : s.prog.look.styles.fonts.length ≤ 65535)
    (sts : Nat → Sheet.St (Nat × Val)) (hready : ∀ i < (names calls).length, Sheet.Ready (dataOf s i) (sts i)) (gs : Globals.St) (hgs : gs.phase = .init)
    (B : Globals.Data → Book.St (Globals.Data × Globals.St) (Sheet.Data (Nat × Val) Note.Note × Sheet.St (Nat × Val)))
    (hB : ∀ D, Xls.Book.start (D, gs) ((List.range (names calls).length).map fun i => (dataOf s i, sts i)) (B D)) :
    ∃ D fuel us B' wb, globals s = some D ∧
      Book.run Globals.next (Sheet.next (Note.env (fun c => cellBytes s.prog.look.book.labels (Look.xf s.prog.look c) c) cs)) fuel (B D) = .done us B' ∧
      us.mapM (patch B'.bpos) = some wb ∧
      (wb.flatten.length < 2 ^ 32 → ∀ pad, Echoed ar s.prog.look.styles (Prog.asked p0 Prog.nothing (calls.filterMap Call.inner)).look.codes
        (Prog.asked p0 Prog.nothing (calls.filterMap Call.inner)).look.writes (Prog.asked p0 Prog.nothing (calls.filterMap Call.inner)).acts
        (names calls) (wb.flatten ++ pad)) := by
  obtain ⟨p, h1, G0⟩ := init_sound
  rw [h0] at h1
  cases Option.some.inj h1
  obtain ⟨t, t1, G⟩ := G0.steps (calls.filterMap Call.inner) hf
  obtain ⟨s', s1, S, rfl⟩ := Desk.run hp (by omega) t1
  rw [hs] at s1
  obtain rfl := Option.some.inj s1
  generalize hAe : Prog.asked p0 Prog.nothing (calls.filterMap Call.inner) = A at *
  obtain ⟨table, ht⟩ := labels_text G.reach
  obtain ⟨X, hX, -, -⟩ := Look.xf_records s.prog.look.styles
  let D0 : Globals.Data := { window := s.wb.window, defFonts := [], fonts := [], formats := [], defXfs := [], xfs := []
                             styles := Desk.builtins.map Desk.stylePayload, palette := Palette.payload s.colors, bounds := [], labels := [] }
  obtain ⟨hD, d1, d2, d3⟩ := G.dressed [] table D0 (by
    intro p hp
    rcases List.mem_append.mp hp with h | h
    · exact Desk.style_small p h
    · rw [List.mem_singleton.mp h]
      show (Palette.payload s.colors).length ≤ _
      rw [S.colors]
      exact Desk.palette_small _)
  let D : Globals.Data := { Look.dress s.prog.look D0 [] table with bounds := s.wb.bounds }
  have hglob : globals s = some D := by
    unfold globals
    rw [hX, Option.bind_some, ht]
    simp only [Option.map_some, D, Look.dress, hX, Option.getD_some, D0]
  have hbn : D.bounds.map (·.name) = names calls := by
    show s.wb.bounds.map (·.name) = _
    rw [S.bounds, List.map_map]
    exact List.zipIdx_map_fst ..
  have hacts := G.numbered hx
  have hdata : ∀ i, dataOf s i = applyAll (new (blank s i)) (A.acts i) := fun i => by unfold dataOf; rw [← congrFun hacts i]
  generalize hshs : (List.range (names calls).length).map (fun i => (dataOf s i, sts i)) = sheets at *
  have hget : ∀ (i : Nat) sh, sheets[i]? = some sh → i < (names calls).length ∧ sh = (applyAll (new (blank s i)) (A.acts i), sts i) := by
    intro i sh hi
    rw [← hshs, List.getElem?_map] at hi
    obtain ⟨j, hj, rfl⟩ := Option.map_eq_some_iff.mp hi
    have hlt := (List.getElem?_eq_some_iff.mp hj).1
    have := (List.getElem?_eq_some_iff.mp hj).2
    simp only [List.getElem_range] at this
    subst this
    exact ⟨by simpa using hlt, by rw [← hdata]⟩
  have hslen : sheets.length = (names calls).length := by rw [← hshs]; simp
  have hdim : ∀ i, (s.used i).dimension.length = 14 := fun i => by simp [Cells.Sheet.dimension]
  have hxf : ∀ c, Look.xf s.prog.look c < 65536 := fun c => xf_index_lt G.styles.num c.id
  obtain ⟨n, us, s', hpo, hok, hrun, hsm, hsh⟩ := tame_saves hA _ s.prog.look.book G.reach hm.fine.sound hm.few hm.rows (Look.xf s.prog.look) hxf cs
    (names calls) hn0 hn1 hn2 D hbn ht d1 d2 d3 sheets hslen
    (fun i sh hi => by
      rw [(hget i sh hi).2]
      exact Page.tame_of G.reach i (blank s i) rfl (by show (s.used i).dimension.length ≤ _; rw [hdim]; decide) (A.acts i)
        (fun a ha => ⟨(hm.fit i a ha).1.1, (hm.fit i a ha).2.1⟩) (hm.heights i) (hm.comments i) _ (hdata i ▸ hready i (hget i sh hi).1))
    gs hgs (B D) (hB D)
  obtain ⟨bs, e1, e2⟩ := G.echoed hA hm.fine hx hfo (fun i a ha => ⟨(hm.fit i a ha).1, (hm.fit i a ha).2.2⟩) hm.calls cs D gs sheets _ s' us n
    ⟨hD.fonts, hD.formats, hD.xfs⟩ hpo hok (hB D) hrun hsm hsh (fun i sh hi => ⟨blank s i, by rw [(hget i sh hi).2]⟩)
  unfold stream at e1
  obtain ⟨wb, hwb, rfl⟩ := Option.map_eq_some_iff.mp e1
  refine ⟨D, n, us, s', wb, hglob, hrun, hwb, fun h32 pad => ?_⟩
  have := e2 h32 pad
  rwa [hbn] at this

/-- C73: any program on a new workbook that hands over existing objects and arguments of the right types -- it may share, change in use, replace, give up
    and take again formats and fonts as it likes -- is carried out and can be saved at its end without undefined behaviour; then a reader of the stream
    finds for each font, format and cell what their getters answered at that moment, and each column and row has the number of the format that it was given.
    Missing for the full claim: at most 65535 fonts and 65536 formats (`c52_numbers`: beyond them the numbers repeat), diagonals and user formats among the
    getters, and the limits of `Modest`, 1000 sheets, names of 255 characters and 4 GB. -/
theorem c73_stream_partial {ar : Nat → Option Nat} (hA : Formula.KnowsArity ar) (calls : List Call) (p0 : Prog.State) (h0 : Prog.init = some p0)
    (hp : Possible 0 calls) (hf : AllAble p0 Prog.nothing (calls.filterMap Call.inner))
    (hm : Prog.Modest (Prog.asked p0 Prog.nothing (calls.filterMap Call.inner))) (cs : WCell → Nat)
    (hn0 : names calls ≠ []) (hn1 : (names calls).length ≤ 1000) (hn2 : ∀ n ∈ names calls, n.length < 256) :
    ∃ s0 s, init = some s0 ∧ steps s0 calls = some s ∧
      (s.prog.look.styles.xfs.length ≤ 65536 → s.prog.look.styles.fonts.length ≤ 65535 → ∃ fuel wb, units cs fuel s = some wb ∧
        (wb.flatten.length < 2 ^ 32 → ∀ pad, Echoed ar s.prog.look.styles (Prog.asked p0 Prog.nothing (calls.filterMap Call.inner)).look.codes
          (Prog.asked p0 Prog.nothing (calls.filterMap Call.inner)).look.writes (Prog.asked p0 Prog.nothing (calls.filterMap Call.inner)).acts
          (names calls) (wb.flatten ++ pad))) := by
  obtain ⟨p, h1, G0⟩ := init_sound
  rw [h0] at h1
  cases Option.some.inj h1
  obtain ⟨t, t1, G⟩ := G0.steps (calls.filterMap Call.inner) hf
  obtain ⟨s, s1, S, rfl⟩ := Desk.run hp (by omega) t1
  refine ⟨start p0, s, by rw [init, h0]; rfl, s1, fun hx hfo => ?_⟩
  have hsh : sheets s = (List.range (names calls).length).map fun i => (dataOf s i, Page.unsaved (dataOf s i)) := by
    unfold sheets Desk.sheetOf Page.unsaved
    rw [S.sheets, List.length_range]
  obtain ⟨D, n, us, B', wb, e1, e2, e3, e4⟩ := save_echoed hA calls p0 h0 hp hf hm cs hn0 hn1 hn2 s1 hx hfo (fun i => Page.unsaved (dataOf s i))
    (fun i _ => Page.unsaved_ready _) demoGs rfl (fun D => plainStart D (sheets s)) (fun D => ⟨rfl, rfl, hsh, rfl⟩)
  refine ⟨n, wb, ?_, e4⟩
  unfold units
  rw [e1, Option.bind_some, e2]
  exact e3

/-- C73 for the file: a compound-file reader finds the workbook stream in which fonts, formats and cells are as their getters answered when the file was
    made, whatever the document properties.
    Missing for the full claim: as in `c73_stream_partial`; 2 GB. -/
theorem c73_file_partial {ar : Nat → Option Nat} (hA : Formula.KnowsArity ar) (calls : List Call) (p0 : Prog.State) (h0 : Prog.init = some p0)
    (hp : Possible 0 calls) (hf : AllAble p0 Prog.nothing (calls.filterMap Call.inner))
    (hm : Prog.Modest (Prog.asked p0 Prog.nothing (calls.filterMap Call.inner))) (cs : WCell → Nat)
    (hn0 : names calls ≠ []) (hn1 : (names calls).length ≤ 1000) (hn2 : ∀ n ∈ names calls, n.length < 256)
    (bs bd : Bytes) (hbs : bs.length = 4096) (hbd : bd.length = 4096) :
    ∃ s0 s, init = some s0 ∧ steps s0 calls = some s ∧
      (s.prog.look.styles.xfs.length ≤ 65536 → s.prog.look.styles.fonts.length ≤ 65535 → ∃ fuel wb, units cs fuel s = some wb ∧
        (Ole.dataSize wb + 8192 < 2 ^ 31 - 12288 → ∃ f w, Ole.CompleteFile (Ole.workbookFiles wb [bs] [bd]) f ∧
          Cfb.readStream f (Ole.nameUnits Ole.workbookNames[0]) = some w ∧
          Echoed ar s.prog.look.styles (Prog.asked p0 Prog.nothing (calls.filterMap Call.inner)).look.codes
            (Prog.asked p0 Prog.nothing (calls.filterMap Call.inner)).look.writes (Prog.asked p0 Prog.nothing (calls.filterMap Call.inner)).acts
            (names calls) w)) := by
  obtain ⟨s0, s, s1, s2, H⟩ := c73_stream_partial hA calls p0 h0 hp hf hm cs hn0 hn1 hn2
  refine ⟨s0, s, s1, s2, fun hx hfo => ?_⟩
  obtain ⟨n, wb, e1, e2⟩ := H hx hfo
  refine ⟨n, wb, e1, fun hsize => ?_⟩
  have h1 : Ole.dataSize [bs] = 4096 := by simp [Ole.dataSize, hbs]
  have h2 : Ole.dataSize [bd] = 4096 := by simp [Ole.dataSize, hbd]
  obtain ⟨f, k1, k2, k3, hcf, f1, -⟩ := Ole.c10_workbook wb [bs] [bd] (by omega)
  have : wb.flatten.length = Ole.dataSize wb := by rw [List.length_flatten]; rfl
  exact ⟨f, _, hcf, f1, e2 (by omega) (List.replicate k1 0)⟩

/-! ### A program -/

theorem asked_acts {s t : Prog.State} {A : Prog.Asked} {calls : List Prog.Call} (h : Prog.steps s calls = some t) (i : Nat) :
    (Prog.asked s A calls).acts i = A.acts i ++ calls.filterMap (Prog.onSheet i) := by
  induction calls generalizing s A with
  | nil => simp [Prog.asked]
  | cons c r ih =>
    rw [Prog.steps] at h
    obtain ⟨u, u1, u2⟩ := Option.bind_eq_some_iff.mp h
    rw [Prog.asked, u1]
    simp only
    rw [ih u2, List.filterMap_cons]
    cases c with
    | look c => rfl
    | page j a =>
      simp only [Prog.ask, Prog.put, Prog.onSheet]
      by_cases e : i = j
      · subst e; simp
      · simp [e, Ne.symm e]

def ableB (s : Prog.State) (A : Prog.Asked) : Prog.Call → Bool
  | .look (.put _ _ _ _ q) => saneB s.look.styles (.newCell q)
  | .look (.style a) => saneB s.look.styles a && (match a with | .destroy _ => false | _ => true)
  | .look (.format code) => decide (A.look.codes.length < 65372) && decide (code.length < 4096)
  | .page i a => match Prog.slotOf i a with
    | some (_, some q) => decide (q < s.look.styles.xfs.length)
    | _ => true

theorem able_of {s : Prog.State} {A : Prog.Asked} {c : Prog.Call} (h : ableB s A c = true) : Able s A c := by
  cases c with
  | look c =>
    cases c with
    | put i row col v q => exact sane_of h
    | style a =>
      simp only [ableB, Bool.and_eq_true] at h
      refine ⟨sane_of h.1, ?_⟩
      rintro c rfl
      cases h.2
    | format code => simpa [ableB, Able] using h
  | page i a =>
    intro k q hs
    simpa [ableB, hs] using h

def allAbleB (s : Prog.State) (A : Prog.Asked) : List Prog.Call → Bool
  | [] => true
  | c :: r => ableB s A c && match Prog.step s c with | none => true | some t => allAbleB t (Prog.ask s A c) r

theorem allAble_of {s : Prog.State} {A : Prog.Asked} {calls : List Prog.Call} (h : allAbleB s A calls = true) : AllAble s A calls := by
  induction calls generalizing s A with
  | nil => trivial
  | cons c r ih =>
    simp only [allAbleB, Bool.and_eq_true] at h
    refine ⟨able_of h.1, fun t ht => ih ?_⟩
    have := h.2
    rw [ht] at this
    exact this

/-- A program outside the conditions of C29 and C61: format 21 is changed while a cell has it, its only cell is overwritten, then it is given to two more
    cells and twice to the same row; the font of one of the cells, the font object itself and the format of the other cell are changed. -/
def sample : List Call :=
  [.sheet [65], .on (.look (.style (.newFont [65]))), .on (.look (.style .newXf)), .on (.look (.style (.xf 21 (.font (some 5))))),
   .on (.look (.put 0 0 0 (.bool true) (some 21))), .on (.look (.style (.xf 21 (.halign 2)))), .on (.look (.put 0 0 0 (.bool false) none)),
   .on (.look (.put 0 1 0 (.bool true) (some 21))), .on (.look (.put 0 2 0 (.signed 7) (some 21))),
   .on (.page 0 (.call (.rowheight 3 600 (some 21)))), .on (.page 0 (.call (.rowheight 3 500 (some 21)))),
   .on (.look (.style (.cellFont 2 (.bold 0)))), .on (.look (.style (.font 5 (.italic true)))), .on (.look (.style (.cell 3 (.wrap true)))),
   .on (.look (.style (.setXf 2 21)))]

/-- A condition along a program holds at each of its calls. -/
theorem along_at {Q : Prog.State → Prog.Asked → Prog.Call → Prop} {s t : Prog.State} {A : Prog.Asked} {l r : List Prog.Call} {c : Prog.Call}
    (h : Prog.Along Q s A (l ++ c :: r)) (ht : Prog.steps s l = some t) : Q t (Prog.asked s A l) c := by
  induction l generalizing s A with
  | nil =>
    cases ht
    exact h.1
  | cons d l ih =>
    rw [Prog.steps] at ht
    obtain ⟨u, u1, u2⟩ := Option.bind_eq_some_iff.mp ht
    rw [Prog.asked, u1]
    exact ih (h.2.2 u u1) u2

theorem sample_able : ∃ p0, Prog.init = some p0 ∧ Possible 0 sample ∧ AllAble p0 Prog.nothing (sample.filterMap Call.inner) ∧
    Prog.Modest (Prog.asked p0 Prog.nothing (sample.filterMap Call.inner)) ∧ ¬ Prog.Fine p0 Prog.nothing (sample.filterMap Call.inner) := by
  obtain ⟨p0, h0, G0⟩ := init_sound
  have h : (Prog.init.map fun p => allAbleB p Prog.nothing (sample.filterMap Call.inner) &&
      decide ((Prog.asked p Prog.nothing (sample.filterMap Call.inner)).look.writes.length < 1000) &&
      (Prog.asked p Prog.nothing (sample.filterMap Call.inner)).look.writes.all fun p => decide (p.2.row < 32832) && decide (p.2.col < 256) && Look.valB p.2.val) = some true := by
    decide +kernel
  rw [h0] at h
  simp only [Option.map_some, Option.some.injEq, Bool.and_eq_true, decide_eq_true_eq, List.all_eq_true] at h
  have hf := allAble_of h.1.1
  obtain ⟨t, t1, -⟩ := G0.steps _ hf
  have ha : ∀ i, (Prog.asked p0 Prog.nothing (sample.filterMap Call.inner)).acts i =
      if 0 = i then [.call (.rowheight 3 600 (some 21)), .call (.rowheight 3 500 (some 21))] else [] := by
    intro i
    rw [asked_acts t1 i]
    simp only [sample, Prog.nothing, List.filterMap_cons, Call.inner, Prog.onSheet, List.filterMap_nil, List.nil_append]
    by_cases hi : 0 = i <;> simp [hi]
  refine ⟨p0, h0, by simp [sample, Possible, Desk.target], hf, ⟨⟨?_, by omega, Whole.fewRows_of fun p hp => (h.2 p hp).1.1, ?_, ?_, ?_⟩, ?_⟩, ?_⟩
  · intro i row col c hw
    unfold lastWrite at hw
    obtain ⟨p, hp, rfl⟩ := Option.map_eq_some_iff.mp hw
    have := h.2 p (List.mem_filter.mp (List.mem_of_getLast? hp)).1
    exact ⟨by omega, this.1.2, Look.val_of this.2⟩
  · intro i a hm
    rw [ha] at hm
    split at hm
    · simp only [List.mem_cons, List.not_mem_nil, or_false] at hm
      rcases hm with rfl | rfl <;> simp [Page.RowFit, Page.Fit, Page.InLimits, Page.Short, Act.rowHeight]
    · cases hm
  · intro i
    rw [ha]
    split <;> simp
  · intro i
    rw [ha]
    refine Nat.le_trans List.countP_le_length ?_
    split <;> simp
  · intro i
    refine Page.few_steady _ _ ?_
    rw [ha]
    split <;> decide
  · intro hfine
    have k : (Prog.init.bind fun p => (Prog.steps p ((sample.filterMap Call.inner).take 4)).map fun t => (t.look.styles.xfs[21]?).map (·.used)) = some (some true) := by
      decide +kernel
    rw [h0, Option.bind_some] at k
    obtain ⟨u, u1, u2⟩ := Option.map_eq_some_iff.mp k
    obtain ⟨e, e1, e2⟩ := Option.map_eq_some_iff.mp u2
    have := along_at (l := (sample.filterMap Call.inner).take 4) (r := (sample.filterMap Call.inner).drop 5) (c := .look (.style (.xf 21 (.halign 2)))) hfine u1
    rw [this.1.1.2.2 e e1] at e2
    cases e2

example {ar : Nat → Option Nat} (hA : Formula.KnowsArity ar) : ∃ p0 s0 s, Prog.init = some p0 ∧ init = some s0 ∧ steps s0 sample = some s ∧
      (s.prog.look.styles.xfs.length ≤ 65536 → s.prog.look.styles.fonts.length ≤ 65535 → ∃ fuel wb, units (fun _ => 0) fuel s = some wb ∧
        (Ole.dataSize wb + 8192 < 2 ^ 31 - 12288 → ∃ f w, Ole.CompleteFile (Ole.workbookFiles wb [List.replicate 4096 0] [List.replicate 4096 0]) f ∧
          Cfb.readStream f (Ole.nameUnits Ole.workbookNames[0]) = some w ∧
          Echoed ar s.prog.look.styles (Prog.asked p0 Prog.nothing (sample.filterMap Call.inner)).look.codes
            (Prog.asked p0 Prog.nothing (sample.filterMap Call.inner)).look.writes (Prog.asked p0 Prog.nothing (sample.filterMap Call.inner)).acts
            (names sample) w)) := by
  obtain ⟨p0, h0, h1, h2, h3, -⟩ := sample_able
  obtain ⟨s0, s, e⟩ := c73_file_partial hA sample p0 h0 h1 h2 h3 (fun _ => 0) (by decide) (by decide) (by decide) (List.replicate 4096 0) (List.replicate 4096 0)
    List.length_replicate List.length_replicate
  exact ⟨p0, s0, s, h0, e⟩


/-- At the end of the sample: six fonts, 23 formats; cell 0 is gone, cells 2 and 3 differ, cell 4 is the row. -/
example : (Prog.init.bind fun p => (Prog.steps p (sample.filterMap Call.inner)).map fun t =>
    (t.look.styles.fonts.length, t.look.styles.xfs.length, (List.range 5).map (Styles.xfIndexOf t.look.styles))) =
      some (6, 23, [none, some 15, some 21, some 22, some 21]) := by decide +kernel

end Xls.Mirror
