import Verif.Desk.Props
/-
C65: which programs can be saved.
-/
namespace Xls.Desk
open Xls.Biff Xls.Book Xls.Cells Xls.Save Xls.Whole
open Xls.Page (Act latest applyAll new)

/-- No call is made on a sheet that is not there. -/
theorem no_calls {calls : List Call} (hp : Possible 0 calls) {i : Nat} (hi : (names calls).length ≤ i) :
    (calls.filterMap Call.inner).filterMap (Prog.onSheet i) = [] := by
  rw [List.filterMap_filterMap, List.filterMap_eq_nil_iff]
  intro c hc
  cases c with
  | on d =>
    cases d with
    | look k => rfl
    | page j a =>
      have := possible_mem hp hc (i := j) rfl
      simp only [Call.inner, Option.bind_some, Prog.onSheet]
      rw [if_neg (by omega)]
  | _ => rfl

/-- C65, which programs can be saved: exactly those with no sheet whose rows stall the library; otherwise saving has undefined behaviour or does not
    end. -/
theorem c65_saved_iff {ar : Nat → Option Nat} (hA : Formula.KnowsArity ar) (calls : List Call) (p0 : Prog.State) (h0 : Prog.init = some p0)
    (hp : Possible 0 calls) (hf : Prog.Fine p0 Prog.nothing (calls.filterMap Call.inner))
    (hm : Prog.Slim (Prog.asked p0 Prog.nothing (calls.filterMap Call.inner))) (cs : WCell → Nat)
    (hn0 : names calls ≠ []) (hn1 : (names calls).length ≤ 1000) (hn2 : ∀ n ∈ names calls, n.length < 256) :
    ∃ s0 s, init = some s0 ∧ steps s0 calls = some s ∧ (s.prog.look.styles.xfs.length ≤ 65536 →
      ((∃ fuel wb, units cs fuel s = some wb) ↔ ∀ i < (names calls).length,
        Page.Steady (Page.Written (Prog.asked p0 Prog.nothing (calls.filterMap Call.inner)).look.writes i)
          ((Prog.asked p0 Prog.nothing (calls.filterMap Call.inner)).acts i))) := by
  obtain ⟨p, h1, G0⟩ := Prog.init_good
  rw [h0] at h1
  cases Option.some.inj h1
  obtain ⟨t, t1, G⟩ := Prog.sim_all G0 (calls.filterMap Call.inner) hf
  obtain ⟨s, s1, S, rfl⟩ := run hp (by omega) t1
  refine ⟨start p0, s, by rw [init, h0]; rfl, s1, fun hx => ⟨?_, fun hst => ?_⟩⟩
  · rintro ⟨fuel, wb, hu⟩ i hi
    obtain ⟨Bk, GB, ag⟩ := G.look
    have hacts := Prog.numbered_same G hx
    generalize Prog.asked p0 Prog.nothing (calls.filterMap Call.inner) = A at *
    have hreach : Reach A.look.writes s.prog.look.book := ag.writes ▸ GB.reach
    unfold units at hu
    cases hg : globals s with
    | none => simp [hg] at hu
    | some D =>
      rw [hg, Option.bind_some] at hu
      have hlen : (sheets s).length = (names calls).length := by simp [sheets, S.sheets]
      generalize hrun : Book.run Globals.next (Sheet.next (Note.env (fun c => cellBytes s.prog.look.book.labels (Look.xf s.prog.look c) c) cs)) fuel
        (plainStart D (sheets s)) = o at hu
      cases o with
      | done us s' =>
        obtain ⟨gus, g', uss, sheets', offs, -, hsh, -⟩ := dump_inv (g := (D, demoGs)) (sheets := sheets s) ⟨rfl, rfl, rfl, rfl⟩ hrun
          (fun e => hn0 (List.eq_nil_of_length_eq_zero (by rw [← hlen, e]; rfl))) (by omega)
        obtain ⟨hu1, -, -, hst, -⟩ := sheetsTrace_parts hsh
        have hiu : i < uss.length := by omega
        obtain ⟨sh, sh', o, wl, a, -, -, d⟩ := hst i uss[i] (by simp [hiu])
        obtain ⟨f, hd⟩ := d.drain
        have hsi : sh = (dataOf s i, Page.unsaved (dataOf s i)) := by
          unfold sheets at a
          rw [List.getElem?_map, List.getElem?_eq_getElem (by simp [S.sheets, hi])] at a
          simp only [Option.map_some, List.getElem_range] at a
          exact (Option.some.inj a).symm
        subst hsi
        have hdata : dataOf s i = applyAll (new (blank s i)) (A.acts i) := by unfold dataOf; rw [← congrFun hacts i]
        obtain ⟨k1, -⟩ := Page.applyAll_keeps (new (blank s i)) (A.acts i)
        have hc : (dataOf s i).cells = (s.prog.look.book.sheets i).cells := hdata ▸ k1
        obtain ⟨m1, m2, m3⟩ := Page.applyAll_lengths (blank s i) (A.acts i)
        obtain ⟨bs, hb, -⟩ := Sheet.drain_done (Page.unsaved_ready _) (by
            rw [hc]
            have := (reach_lengths hreach).2 i
            have := hm.few
            omega) (by
            rw [hdata]
            exact Nat.le_trans m2 (hm.comments i)) hd
        have ho : Ordered Cell.key (dataOf s i).cells := hc ▸ (reach_sheets hreach i).ordered
        have hh : Rows.HtSorted (dataOf s i).heights := hdata ▸ Page.sorted_of_ordered m3
        have hs := Rows.rowSorted_of_ordered ho
        rw [← Page.hasCell_iff hreach hc]
        exact (Page.steady_iff ho hh (hdata ▸ (Page.heights_after (blank s i) (A.acts i)).2)).mpr
          ⟨_, ⟨Rows.items_incr _ _ hs hh, Rows.mem_items _ _ hs hh⟩, (Rows.blocks_some_iff _ _ hs hh).mp ⟨bs, hb⟩⟩
      | _ => cases hu
  · obtain ⟨s0', s', i1, i2, H⟩ := c65_stream_partial hA calls p0 h0 hp hf ⟨hm, fun i => by
      by_cases hi : i < (names calls).length
      · exact hst i hi
      · refine Page.few_steady _ _ ?_
        rw [Prog.asked_acts G0 hf, show Prog.nothing.acts i = [] from rfl, List.nil_append, no_calls hp (by omega)]
        decide⟩ cs hn0 hn1 hn2
    rw [init, h0] at i1
    obtain rfl := Option.some.inj i1
    obtain rfl := Option.some.inj (s1.symm.trans i2)
    obtain ⟨n, wb, e, -⟩ := H hx
    exact ⟨n, wb, e⟩

/-! ### A program that cannot be saved -/

/-- Two cells in row 20, and heights for the rows 0 to 15. -/
def stalled : List Call :=
  [.sheet [65], .on (.look (.put 0 20 0 (.signed 1) none)), .on (.look (.put 0 20 1 (.signed 2) none))] ++
    (List.range 16).map fun k => .on (.page 0 (.call (.rowheight (UInt32.ofNat k) 500 none)))

theorem stalled_fine : ∃ p0, Prog.init = some p0 ∧ Prog.Fine p0 Prog.nothing (stalled.filterMap Call.inner) ∧
    Prog.Slim (Prog.asked p0 Prog.nothing (stalled.filterMap Call.inner)) ∧
    ¬ Page.Steady (Page.Written (Prog.asked p0 Prog.nothing (stalled.filterMap Call.inner)).look.writes 0)
      ((Prog.asked p0 Prog.nothing (stalled.filterMap Call.inner)).acts 0) := by
  obtain ⟨s0, h0, G⟩ := Prog.init_good
  have h : (Prog.init.map fun s => Prog.alongB (fun s A c => Prog.mildB s A c && Prog.keptB A c) s Prog.nothing (stalled.filterMap Call.inner) &&
      decide ((Prog.asked s Prog.nothing (stalled.filterMap Call.inner)).look.writes.map (fun p => (p.1, p.2.row, p.2.col)) = [(0, 20, 0), (0, 20, 1)]) &&
      (Prog.asked s Prog.nothing (stalled.filterMap Call.inner)).look.writes.all fun p => decide (p.2.row < 32832) && decide (p.2.col < 256) && Look.valB p.2.val)
      = some true := by decide +kernel
  rw [h0] at h
  simp only [Option.map_some, Option.some.injEq, Bool.and_eq_true, decide_eq_true_eq, List.all_eq_true] at h
  have hf : Prog.Fine s0 Prog.nothing (stalled.filterMap Call.inner) :=
    Prog.along_of (fun s A c hc => ⟨Prog.mild_of (Bool.and_eq_true _ _ ▸ hc).1, Prog.kept_of (Bool.and_eq_true _ _ ▸ hc).2⟩) h.1.1
  have ha : ∀ i, (Prog.asked s0 Prog.nothing (stalled.filterMap Call.inner)).acts i =
      if i = 0 then (List.range 16).map fun k => Act.call (.rowheight (UInt32.ofNat k) 500 none) else [] := by
    intro i
    rw [Prog.asked_acts G hf i]
    by_cases e : i = 0
    · subst e; rfl
    · rw [if_neg e, no_calls (by simp [stalled, Possible, target, List.range, List.range.loop]) (by
        have : (names stalled).length = 1 := by decide
        omega)]
      rfl
  refine ⟨s0, h0, hf, ?_⟩
  generalize Prog.asked s0 Prog.nothing (stalled.filterMap Call.inner) = A at *
  have hw : ∀ row col, Page.Written A.look.writes 0 row col ↔ row = 20 ∧ (col = 0 ∨ col = 1) := by
    intro row col
    obtain ⟨⟨-, hl⟩, -⟩ := h
    unfold Page.Written lastWrite
    rw [Option.isSome_map, Option.isSome_iff_ne_none, Ne, List.getLast?_eq_none_iff]
    generalize A.look.writes = W at hl
    match W, hl with
    | [], hl => simp at hl
    | [_], hl => simp at hl
    | _ :: _ :: _ :: _, hl => simp at hl
    | [p, q], hl =>
      simp only [List.map_cons, List.map_nil, List.cons.injEq, Prod.mk.injEq, and_true] at hl
      obtain ⟨⟨a1, a2, a3⟩, b1, b2, b3⟩ := hl
      simp only [List.filter_cons, a1, a2, a3, b1, b2, b3, List.filter_nil]
      by_cases e : row = 20
      · subst e
        by_cases e0 : col = 0
        · simp [e0]
        · by_cases e1 : col = 1
          · simp [e1]
          · simp [e0, e1, Ne.symm e0, Ne.symm e1]
      · simp [e, Ne.symm e]
  refine ⟨⟨?_, ?_, fewRows_of fun p hp => (h.2 p hp).1.1, ?_, ?_, ?_⟩, fun hs => ?_⟩
  · intro i row col c hw
    unfold lastWrite at hw
    obtain ⟨p, hp, rfl⟩ := Option.map_eq_some_iff.mp hw
    have := h.2 p (List.mem_filter.mp (List.mem_of_getLast? hp)).1
    exact ⟨by omega, this.1.2, Look.val_of this.2⟩
  · have := congrArg List.length h.1.2
    simp only [List.length_map, List.length_cons, List.length_nil] at this
    omega
  · intro i a hm
    rw [ha] at hm
    split at hm
    · obtain ⟨k, hk, rfl⟩ := List.mem_map.mp hm
      rw [List.mem_range] at hk
      have hk' : k < 65535 := by omega
      simp [Page.Fit, Page.InLimits, Page.Short, Page.RowFit, Page.Act.rowHeight]
      try omega
    · cases hm
  · intro i
    rw [ha]
    split <;> simp
  · intro i
    rw [ha]
    exact Nat.le_trans List.countP_le_length (by split <;> simp)
  · have := hs (List.range 16 ++ [20]) (by decide) (fun n => by
      unfold Page.Needed
      simp only [hw, ha, if_true, List.mem_append, List.mem_range, List.mem_singleton]
      constructor
      · rintro (hn | rfl)
        · refine .inr ⟨?_, 20, 0, by omega, by simp⟩
          have : ∀ n < 16, latest (Act.height n) ((List.range 16).map fun k => Act.call (.rowheight (UInt32.ofNat k) 500 none)) ≠ none := by decide
          exact this n hn
        · exact .inl ⟨0, by simp⟩
      · rintro (⟨col, rfl, -⟩ | ⟨hl, row, col, hlt, rfl, -⟩)
        · exact .inr rfl
        · obtain ⟨x, hx⟩ := Option.ne_none_iff_exists'.mp hl
          obtain ⟨a, ha', he⟩ := Page.latest_mem hx
          obtain ⟨k, hk, rfl⟩ := List.mem_map.mp ha'
          rw [List.mem_range] at hk
          simp only [Act.height] at he
          split at he
          · rename_i e
            rw [UInt32.toNat_ofNat'] at e
            omega
          · cases he) 0 15 (by decide)
    rcases this with ⟨m, hm, col, hc⟩ | h
    · rw [hw] at hc
      rw [hc.1] at hm
      revert hm
      decide
    · have := h 20 0 20 1 (by omega) ((hw 20 0).mpr (by simp)) (by omega) ((hw 20 1).mpr (by simp))
      omega

/-- The program cannot be saved, whatever the sizes that cells announce. -/
example : ∃ s0 s, init = some s0 ∧ steps s0 stalled = some s ∧ (s.prog.look.styles.xfs.length ≤ 65536 → ∀ fuel, units (fun _ => 0) fuel s = none) := by
  obtain ⟨p0, h0, hf, hm, hs⟩ := stalled_fine
  obtain ⟨s0, s, i1, i2, H⟩ := c65_saved_iff Formula.tableArity_knows stalled p0 h0 (by simp [stalled, Possible, target, List.range, List.range.loop]) hf hm (fun _ => 0)
    (by decide) (by decide) (by decide)
  refine ⟨s0, s, i1, i2, fun hx fuel => ?_⟩
  cases e : units (fun _ => 0) fuel s with
  | none => rfl
  | some wb => exact absurd ((H hx).mp ⟨fuel, wb, e⟩ 0 (by decide)) hs

end Xls.Desk
