import Verif.Again.Lemmas
import Verif.Desk.Stall
/-
C66: a workbook may be saved any number of times.
-/
namespace Xls.Again
open Xls.Biff Xls.Book Xls.Cells Xls.Save Xls.Whole
open Xls.Desk (Call names globals dataOf ArrangedFrom Remarks remarkAt remarks_of)
open Xls.Page (Act latest applyAll new)

/-- Where the sheets of a workbook are when a save begins. -/
def stOf (s : State) (ix : Nat → Nat → Nat) (i : Nat) : Sheet.St (Nat × Val) :=
  match s.left with
  | none => Page.unsaved (dataOf s.desk i)
  | some p => (sheetNow s.desk p ix i).2

/-- What holds of a workbook between calls: the program so far led to it, and the last save left everything at the beginning but the shape counters. -/
structure Holds (p0 : Prog.State) (before : List Call) (first : Nat → Nat) (s : State) : Prop where
  desk : Desk.steps (Desk.start p0) before = some s.desk
  left : ∀ p, s.left = some p → p.phase = .init ∧ p.g.2.phase = .init ∧ p.sheets.length ≤ (names before).length ∧
    (∀ (i : Nat) sh, p.sheets[i]? = some sh → sh.2.phase = .init ∧ sh.2.rb.phase = .init ∧ sh.2.spid = first i) ∧
    ∀ i, p.sheets.length ≤ i → first i = 0
  fresh : s.left = none → ∀ i, first i = 0

theorem Holds.spid {p0 : Prog.State} {before : List Call} {first : Nat → Nat} {s : State} (h : Holds p0 before first s) (ix : Nat → Nat → Nat) (i : Nat) :
    (stOf s ix i).spid = first i := by
  unfold stOf
  cases hl : s.left with
  | none => exact (h.fresh hl i).symm
  | some p =>
    obtain ⟨-, -, -, h3, h4⟩ := h.left p hl
    simp only [sheetNow]
    cases hi : p.sheets[i]? with
    | none => exact (h4 i (List.getElem?_eq_none_iff.mp hi)).symm
    | some sh => exact (h3 i sh hi).2.2

theorem Holds.ready {p0 : Prog.State} {before : List Call} {first : Nat → Nat} {s : State} (h : Holds p0 before first s) (ix : Nat → Nat → Nat) (i : Nat) :
    Sheet.Ready (dataOf s.desk i) (stOf s ix i) := by
  unfold stOf
  cases hl : s.left with
  | none => exact Page.unsaved_ready _
  | some p =>
    obtain ⟨-, -, -, h3, h4⟩ := h.left p hl
    simp only [sheetNow]
    cases hi : p.sheets[i]? with
    | none => exact Page.unsaved_ready _
    | some sh => exact ⟨(h3 i sh hi).1, (h3 i sh hi).2.1, by simp⟩

/-- The workbook when a save begins, given the globals. -/
def placeOf (s : State) (ix : Nat → Nat → Nat) (D : Globals.Data) : Place :=
  match s.left with
  | none => plainStart D (Desk.sheets s.desk)
  | some p => { p with g := (D, p.g.2), sheets := (List.range s.desk.wb.sheets.length).map (sheetNow s.desk p ix), bpos := [] }

theorem ready_eq (s : State) (ix : Nat → Nat → Nat) : ready s ix = (globals s.desk).map (placeOf s ix) := rfl

/-- The globals' place. -/
def gsOf (s : State) : Globals.St :=
  match s.left with
  | none => demoGs
  | some p => p.g.2

theorem Holds.start {p0 : Prog.State} {before : List Call} {first : Nat → Nat} {s : State} (h : Holds p0 before first s) (ix : Nat → Nat → Nat) (D : Globals.Data)
    {n : Nat} (hn : s.desk.wb.sheets.length = n) :
    Xls.Book.start (D, gsOf s) ((List.range n).map fun i => (dataOf s.desk i, stOf s ix i)) (placeOf s ix D) := by
  subst hn
  unfold placeOf gsOf stOf
  cases hl : s.left with
  | none => exact ⟨rfl, rfl, rfl, rfl⟩
  | some p =>
    refine ⟨(h.left p hl).1, rfl, ?_, rfl⟩
    refine List.map_congr_left fun i _ => ?_
    simp only [sheetNow]
    cases p.sheets[i]? <;> rfl

theorem Holds.gs {p0 : Prog.State} {before : List Call} {first : Nat → Nat} {s : State} (h : Holds p0 before first s) : (gsOf s).phase = .init := by
  unfold gsOf
  cases hl : s.left with
  | none => rfl
  | some p => exact (h.left p hl).2.1

/-- One save, whatever is said of the file: from what a save of the objects in memory does (`hsv`) to the objects after it. -/
theorem save_of {before : List Call} {p0 : Prog.State} (hp : Desk.Possible 0 before) (cs : WCell → Nat)
    {first : Nat → Nat} {s : State} (H : Holds p0 before first s) (ix : Nat → Nat → Nat) (S : Desk.Stands before s.desk)
    (hafter : ∀ i, Page.After ((before.filterMap Call.inner).filterMap (Prog.onSheet i)) (dataOf s.desk i)) {Q : (Nat → Nat) → Bytes → Prop}
    (hsv : ∀ (sts : Nat → Sheet.St (Nat × Val)), (∀ i < (names before).length, Sheet.Ready (dataOf s.desk i) (sts i)) → ∀ gs : Globals.St, gs.phase = .init →
      ∀ B : Globals.Data → Book.St (Globals.Data × Globals.St) (Sheet.Data (Nat × Val) Note.Note × Sheet.St (Nat × Val)),
      (∀ D, Xls.Book.start (D, gs) ((List.range (names before).length).map fun i => (dataOf s.desk i, sts i)) (B D)) →
      ∃ D fuel us B' wb, Desk.globals s.desk = some D ∧
        Book.run Globals.next (Sheet.next (Note.env (fun c => cellBytes s.desk.prog.look.book.labels (Look.xf s.desk.prog.look c) c) cs)) fuel (B D) = .done us B' ∧
        us.mapM (patch B'.bpos) = some wb ∧
        Saveable (fun c => cellBytes s.desk.prog.look.book.labels (Look.xf s.desk.prog.look c) c) D gs
          ((List.range (names before).length).map fun i => (dataOf s.desk i, sts i)) ∧
        (wb.flatten.length < 2 ^ 32 → ∀ pad, Q (fun i => (sts i).spid) (wb.flatten ++ pad))) :
    ∃ N w s' next, (∀ fuel, N ≤ fuel → save cs fuel ix s = some (w, s')) ∧ Holds p0 before next s' ∧ s'.desk = s.desk ∧
      (∀ i, ∃ n, Remarks i before n ∧ next i = if n = 0 then first i else (first i + n + 1) % 2 ^ 32) ∧
      ((∀ i, first i = 0) → ∃ fuel, Desk.units cs fuel s.desk = some w) ∧
      (w.flatten.length < 2 ^ 32 → ∀ pad, Q first (w.flatten ++ pad)) := by
  have hlen : s.desk.wb.sheets.length = (names before).length := by rw [S.sheets, List.length_range]
  obtain ⟨D, fuel, us, B', wb, e1, e2, e3, e4, e5⟩ := hsv (stOf s ix)
    (fun i _ => H.ready ix i) (gsOf s) H.gs (placeOf s ix) (fun D => H.start ix D hlen)
  obtain ⟨b1, b2, b3, b4⟩ := left_after e4 (H.start ix D hlen) e2
  refine ⟨fuel, wb, ⟨s.desk, some B'⟩, fun i => Sheet.spidEnd (first i) 0 (dataOf s.desk i).notes, ?_, ?_, rfl, ?_, ?_, ?_⟩
  · intro n hn
    have := Book.run_mono (n - fuel) e2
    rw [show fuel + (n - fuel) = n by omega] at this
    unfold save
    rw [ready_eq, e1, Option.map_some, Option.bind_some, this]
    simp only [e3, Option.map_some]
  · refine ⟨H.desk, ?_, fun h => by cases h⟩
    intro p hp'
    obtain rfl := Option.some.inj hp'
    refine ⟨b1, b2, by rw [b3]; simp, ?_, ?_⟩
    · intro i sh hi
      obtain ⟨sh0, c1, c2, c3, c4⟩ := b4 i sh hi
      rw [List.getElem?_map] at c1
      obtain ⟨j, hj, rfl⟩ := Option.map_eq_some_iff.mp c1
      have hji : j = i := by
        have := (List.getElem?_eq_some_iff.mp hj).2
        rw [List.getElem_range] at this
        exact this.symm
      subst hji
      refine ⟨c3.1, c3.2.1, ?_⟩
      rw [c4]
      show Sheet.spidEnd (stOf s ix j).spid 0 _ = _
      rw [H.spid]
    · intro i hi
      have hz : (dataOf s.desk i).notes = [] := by
        cases hq : (dataOf s.desk i).notes with
        | nil => rfl
        | cons y r =>
          have hy := (hafter i).notes y (by rw [hq]; simp)
          rw [Desk.no_calls hp (by
            rw [b3, List.length_map, List.length_range] at hi
            exact hi)] at hy
          cases hy
      rw [hz]
      show first i = 0
      cases hl : s.left with
      | none => exact H.fresh hl i
      | some p =>
        obtain ⟨-, -, g3, -, g4⟩ := H.left p hl
        refine g4 i (Nat.le_trans g3 ?_)
        rw [b3, List.length_map, List.length_range] at hi
        exact hi
  · intro i
    refine ⟨_, remarks_of (hafter i), ?_⟩
    by_cases hz : (dataOf s.desk i).notes = []
    · simp only [hz]; rfl
    · simp only [Sheet.spidEnd_zero _ _ hz]
      rw [if_neg (by simpa using hz)]
  · intro hz
    obtain ⟨D2, f2, us2, B2, wb2, k1, k2, k3, k4, -⟩ := hsv (fun i => Page.unsaved (dataOf s.desk i))
      (fun i _ => Page.unsaved_ready _) demoGs rfl (fun D => plainStart D (Desk.sheets s.desk))
      (fun D => ⟨rfl, rfl, by unfold Desk.sheets; rw [hlen]; rfl, rfl⟩)
    rw [e1] at k1
    obtain rfl := Option.some.inj k1
    obtain ⟨q1, q2⟩ := same_stream e4 (H.start ix D hlen) e2 k4 ⟨rfl, rfl, by show Desk.sheets s.desk = _; unfold Desk.sheets; rw [hlen]; rfl, rfl⟩ k2 (by
      rw [List.map_map, List.map_map]
      refine List.map_congr_left fun i _ => ?_
      show (dataOf s.desk i, (stOf s ix i).spid) = (dataOf s.desk i, 0)
      rw [H.spid, hz])
    subst q1
    rw [← q2, e3] at k3
    obtain rfl := Option.some.inj k3
    refine ⟨f2, ?_⟩
    unfold Desk.units
    rw [e1, Option.bind_some, k2]
    show us.mapM (patch B2.bpos) = _
    rw [← q2, e3]
  · have : (fun i => (stOf s ix i).spid) = first := funext fun i => H.spid ix i
    rw [this] at e5
    exact e5

/-- One save. -/
theorem one_save {ar : Nat → Option Nat} (hA : Formula.KnowsArity ar) {before : List Call} {p0 : Prog.State} (h0 : Prog.init = some p0)
    (hp : Desk.Possible 0 before) (hf : Prog.Fine p0 Prog.nothing (before.filterMap Call.inner)) (hw : Within p0 before) (cs : WCell → Nat)
    (hn0 : names before ≠ []) (hn1 : (names before).length ≤ 1000) (hn2 : ∀ n ∈ names before, n.length < 256)
    {first : Nat → Nat} {s : State} (H : Holds p0 before first s) (ix : Nat → Nat → Nat) :
    ∃ N w s' next, (∀ fuel, N ≤ fuel → save cs fuel ix s = some (w, s')) ∧ Holds p0 before next s' ∧ s'.desk = s.desk ∧
      (∀ i, ∃ n, Remarks i before n ∧ next i = if n = 0 then first i else (first i + n + 1) % 2 ^ 32) ∧
      ((∀ i, first i = 0) → ∃ fuel, Desk.units cs fuel s.desk = some w) ∧
      (w.flatten.length < 2 ^ 32 → ∀ pad, Prog.Found ar (Prog.asked p0 Prog.nothing (before.filterMap Call.inner)) (names before) (w.flatten ++ pad) ∧
        ArrangedFrom first before (w.flatten ++ pad)) := by
  have hm := hw.modest
  have hx := hw.formats _ H.desk
  obtain ⟨p, h1, G0⟩ := Prog.init_good
  rw [h0] at h1
  cases Option.some.inj h1
  obtain ⟨t, t1, G⟩ := Prog.sim_all G0 (before.filterMap Call.inner) hf
  obtain ⟨s', s1, S, rfl⟩ := Desk.run hp (by omega) t1
  rw [H.desk] at s1
  obtain rfl := Option.some.inj s1
  have hacts := Prog.numbered_same G hx
  have hafter : ∀ i, Page.After ((before.filterMap Call.inner).filterMap (Prog.onSheet i)) (dataOf s.desk i) := by
    intro i
    have := Prog.asked_acts G0 hf i
    rw [show Prog.nothing.acts i = [] from rfl, List.nil_append] at this
    rw [← this]
    show Page.After _ (applyAll (new (Desk.blank s.desk i)) ((s.desk.prog.acts i).map (Prog.numbered s.desk.prog.look.styles)))
    rw [show (s.desk.prog.acts i).map (Prog.numbered s.desk.prog.look.styles) = _ from congrFun hacts i]
    exact Page.after_all _ _
  exact save_of hp cs H ix S hafter (Q := fun first w => Prog.Found ar (Prog.asked p0 Prog.nothing (before.filterMap Call.inner)) (names before) w ∧
    ArrangedFrom first before w) fun sts hready gs hgs B hB => Desk.save_once hA before p0 h0 hp hf hm cs hn0 hn1 hn2 H.desk hx sts hready gs hgs B hB

theorem saves_head {before c : List Call} {evs : List Event} (h : c ∈ saves before evs) : ∃ r, before ++ calls evs = c ++ r := by
  induction evs generalizing before with
  | nil => cases h
  | cons e r ih =>
    cases e with
    | call d =>
      obtain ⟨r', e⟩ := ih (before := before ++ [d]) h
      exact ⟨r', by rw [← e]; simp [calls, Event.call?]⟩
    | save o ix =>
      have hr : ∀ h : c ∈ saves before r, ∃ r', before ++ calls (.save o ix :: r) = c ++ r' := fun h => ih h
      unfold saves at h
      split at h
      · rcases List.mem_cons.mp h with rfl | h
        · exact ⟨_, rfl⟩
        · exact hr h
      · exact hr h

/-- What C66 says of the save with the calls `c` before it, which wrote `w`, when the shapes were counted up to `first` before it and to `next` after it. -/
def Saved (ar : Nat → Option Nat) (cs : WCell → Nat) (p0 : Prog.State) (c : List Call) (w : List Bytes) (first next : Nat → Nat) : Prop :=
  (∀ i, ∃ n, Remarks i c n ∧ next i = if n = 0 then first i else (first i + n + 1) % 2 ^ 32) ∧
  ((∀ i, first i = 0) → ∃ d fuel, Desk.steps (Desk.start p0) c = some d ∧ Desk.units cs fuel d = some w) ∧
  (w.flatten.length < 2 ^ 32 → ∀ pad, Prog.Found ar (Prog.asked p0 Prog.nothing (c.filterMap Call.inner)) (names c) (w.flatten ++ pad) ∧
    ArrangedFrom first c (w.flatten ++ pad))

theorem all_saves {ar : Nat → Option Nat} (hA : Formula.KnowsArity ar) {p0 : Prog.State} (h0 : Prog.init = some p0) (cs : WCell → Nat)
    (evs : List Event) : ∀ (before : List Call) (first : Nat → Nat) (s : State), Holds p0 before first s →
    Desk.Possible 0 (before ++ calls evs) → Prog.Fine p0 Prog.nothing ((before ++ calls evs).filterMap Call.inner) →
    (∀ c ∈ saves before evs, Within p0 c) → (names (before ++ calls evs)).length ≤ 1000 → (∀ n ∈ names (before ++ calls evs), n.length < 256) →
    ∃ (N : Nat) (ws : List (List Bytes)) (s' : State) (count : Nat → Nat → Nat), (∀ fuel, N ≤ fuel → run cs fuel s evs = some (ws, s')) ∧
      Desk.steps (Desk.start p0) (before ++ calls evs) = some s'.desk ∧
      ws.length = (saves before evs).length ∧ count 0 = first ∧
      ∀ (k : Nat) c w, (saves before evs)[k]? = some c → ws[k]? = some w → Saved ar cs p0 c w (count k) (count (k + 1)) := by
  induction evs with
  | nil =>
    intro before first s H _ _ _ _ _
    exact ⟨0, [], s, fun _ => first, fun _ _ => rfl, by simpa [calls] using H.desk, rfl, rfl, fun k c w h => by cases h⟩
  | cons e r ih =>
    intro before first s H hp hf hw hn1 hn2
    cases e with
    | call c =>
      have he : before ++ calls (.call c :: r) = (before ++ [c]) ++ calls r := by simp [calls, Event.call?]
      rw [he] at hp hf hn1 hn2
      obtain ⟨p, h1, G0⟩ := Prog.init_good
      rw [h0] at h1
      cases Option.some.inj h1
      have hn : (names (before ++ [c])).length ≤ 65536 := by
        have : names (before ++ [c] ++ calls r) = names (before ++ [c]) ++ names (calls r) := List.filterMap_append ..
        rw [this, List.length_append] at hn1
        omega
      obtain ⟨t, t1, -⟩ := Prog.sim_all G0 _ (fine_left hf)
      obtain ⟨d, d1, -, -⟩ := Desk.run (possible_left hp) hn t1
      have d2 := d1
      rw [Desk.steps_append, H.desk, Option.bind_some, Desk.steps] at d2
      obtain ⟨d', d3, d4⟩ := Option.bind_eq_some_iff.mp d2
      cases d4
      obtain ⟨N, ws, s', count, k1, k1', k2, k3, k4⟩ := ih (before ++ [c]) first ⟨d, s.left⟩ ⟨d1, fun p hp => by
          obtain ⟨a1, a2, a3, a4⟩ := H.left p hp
          exact ⟨a1, a2, Nat.le_trans a3 (by simp [Desk.names, List.filterMap_append]), a4⟩, H.fresh⟩ hp hf hw hn1 hn2
      refine ⟨N, ws, s', count, fun fuel hfu => ?_, by rw [he]; exact k1', k2, k3, k4⟩
      rw [run, step, d3, Option.map_some, Option.bind_some]
      simp only [k1 fuel hfu]
      rfl
    | save opens ix =>
      have he : before ++ calls (.save opens ix :: r) = before ++ calls r := rfl
      rw [he] at hp hf hn1 hn2
      obtain ⟨p, h1, G0⟩ := Prog.init_good
      rw [h0] at h1
      cases Option.some.inj h1
      have hnn : names (before ++ calls r) = names before ++ names (calls r) := by simp [Desk.names]
      rw [hnn] at hn1 hn2
      rw [List.length_append] at hn1
      obtain ⟨t, t1, -⟩ := Prog.sim_all G0 _ (fine_left hf)
      obtain ⟨d, d1, S, -⟩ := Desk.run (possible_left hp) (by omega) t1
      rw [H.desk] at d1
      obtain rfl := Option.some.inj d1
      have hiff : s.desk.wb.sheets = [] ↔ names before = [] := by
        rw [S.sheets, List.range_eq_nil, List.length_eq_zero_iff]
      by_cases hc : opens = true ∧ names before ≠ []
      · have hs : saves before (.save opens ix :: r) = before :: saves before r := by rw [saves, if_pos hc]
        rw [hs] at hw ⊢
        obtain ⟨N1, w, s1, next, a1, a2, a3, a4, a5, a6⟩ := one_save hA h0 (possible_left hp) (fine_left hf) (hw _ (List.mem_cons_self ..)) cs hc.2 (by omega)
          (fun n hn => hn2 n (List.mem_append_left _ hn)) H ix
        obtain ⟨N, ws, s', count, k1, k1', k2, k3, k4⟩ := ih before next s1 a2 hp hf (fun c hc => hw c (List.mem_cons_of_mem _ hc))
          (by rw [hnn, List.length_append]; omega) (by rw [hnn]; exact hn2)
        refine ⟨max N1 N, w :: ws, s', fun k => match k with | 0 => first | k + 1 => count k, fun fuel hfu => ?_, k1', by rw [List.length_cons, List.length_cons, k2], rfl, ?_⟩
        · rw [run, step, if_neg (by rw [hiff]; intro h; rcases h with h | h; exact hc.2 h; rw [hc.1] at h; cases h), a1 fuel (by omega), Option.map_some,
            Option.bind_some]
          simp only [k1 fuel (by omega)]
          rfl
        · intro k c w' h1 h2
          cases k with
          | zero =>
            obtain rfl := Option.some.inj h1
            obtain rfl := Option.some.inj h2
            show Saved ar cs p0 before w first (count 0)
            rw [k3]
            exact ⟨a4, fun hz => by
              obtain ⟨f, hf'⟩ := a5 hz
              exact ⟨_, f, H.desk, hf'⟩, a6⟩
          | succ k => exact k4 k c w' (by simpa using h1) (by simpa using h2)
      · have hs : saves before (.save opens ix :: r) = saves before r := by rw [saves, if_neg hc]
        rw [hs] at hw ⊢
        obtain ⟨N, ws, s', count, k1, k1', k2, k3, k4⟩ := ih before first s H hp hf hw (by rw [hnn, List.length_append]; omega) (by rw [hnn]; exact hn2)
        refine ⟨N, ws, s', count, fun fuel hfu => ?_, k1', k2, k3, k4⟩
        rw [run, step, if_pos (by
          rw [hiff]
          by_cases hq : names before = []
          · exact .inl hq
          · right
            cases opens with
            | false => rfl
            | true => exact absurd ⟨rfl, hq⟩ hc), Option.bind_some]
        simp only [k1 fuel hfu]
        rfl

/-- C66: a workbook may be saved any number of times, with other calls in between.  Every save that can write hands out a stream, without undefined
    behaviour, in which a reader finds everything as asked by the calls made before that save; saves change nothing but the numbers of the
    shapes: they are counted on, from one save to the next.  A save before which no shapes were counted writes the very stream that a
    workbook with the same calls and no earlier saves writes.
    Missing for the full claim: as in `c65_stream_partial`, at each save. -/
theorem c66_saves_partial {ar : Nat → Option Nat} (hA : Formula.KnowsArity ar) (evs : List Event) (p0 : Prog.State) (h0 : Prog.init = some p0)
    (hp : Desk.Possible 0 (calls evs)) (hf : Prog.Fine p0 Prog.nothing ((calls evs).filterMap Call.inner)) (hw : ∀ c ∈ saves [] evs, Within p0 c)
    (cs : WCell → Nat) (hn1 : (names (calls evs)).length ≤ 1000) (hn2 : ∀ n ∈ names (calls evs), n.length < 256) :
    ∃ (s0 : State) (N : Nat) (ws : List (List Bytes)) (s : State) (count : Nat → Nat → Nat), init = some s0 ∧ (∀ fuel, N ≤ fuel → run cs fuel s0 evs = some (ws, s)) ∧
      Desk.steps (Desk.start p0) (calls evs) = some s.desk ∧
      ws.length = (saves [] evs).length ∧ (∀ i, count 0 i = 0) ∧
      ∀ (k : Nat) c w, (saves [] evs)[k]? = some c → ws[k]? = some w → Saved ar cs p0 c w (count k) (count (k + 1)) := by
  obtain ⟨N, ws, s, count, a1, a2, a3, a4, a5⟩ := all_saves hA h0 cs evs [] (fun _ => 0) ⟨Desk.start p0, none⟩
    ⟨rfl, (fun p h => by cases h), fun _ _ => rfl⟩ hp hf hw hn1 hn2
  exact ⟨⟨Desk.start p0, none⟩, N, ws, s, count, by rw [init, Desk.init, h0]; rfl, a1, a2, a3, fun i => by rw [a4], a5⟩

/-! ### What follows -/

theorem units_unique {cs : WCell → Nat} {f1 f2 : Nat} {d : Desk.State} {w1 w2 : List Bytes} (h1 : Desk.units cs f1 d = some w1) (h2 : Desk.units cs f2 d = some w2) :
    w1 = w2 := by
  unfold Desk.units at h1 h2
  cases hg : globals d with
  | none => rw [hg] at h1; cases h1
  | some D =>
    rw [hg, Option.bind_some] at h1 h2
    generalize plainStart D (Desk.sheets d) = B at h1 h2
    generalize Sheet.next (Note.env (fun c => cellBytes d.prog.look.book.labels (Look.xf d.prog.look c) c) cs) = nx at h1 h2
    cases e1 : Book.run Globals.next nx f1 B with
    | done us s1 =>
      cases e2 : Book.run Globals.next nx f2 B with
      | done us2 s2 =>
        obtain ⟨rfl, rfl⟩ := run_unique e1 e2
        rw [e1] at h1
        rw [e2] at h2
        exact Option.some.inj (h1.symm.trans h2)
      | _ => rw [e2] at h2; cases h2
    | _ => rw [e1] at h1; cases h1

theorem remarks_none {i n : Nat} {c : List Call} (h : c.filterMap (remarkAt i) = []) (hr : Remarks i c n) : n = 0 := by
  obtain ⟨l, -, h2, rfl⟩ := hr
  cases l with
  | nil => rfl
  | cons p r =>
    have := (h2 p).mp (by simp)
    rw [h] at this
    cases this

/-- Without comments, earlier saves leave no trace: each save writes the very bytes that a workbook with the same calls writes when it is saved for the first
    time; in particular, two saves with no calls in between write the same bytes. -/
theorem c66_no_trace {ar : Nat → Option Nat} (hA : Formula.KnowsArity ar) (evs : List Event) (p0 : Prog.State) (h0 : Prog.init = some p0)
    (hp : Desk.Possible 0 (calls evs)) (hf : Prog.Fine p0 Prog.nothing ((calls evs).filterMap Call.inner)) (hw : ∀ c ∈ saves [] evs, Within p0 c)
    (cs : WCell → Nat) (hn1 : (names (calls evs)).length ≤ 1000) (hn2 : ∀ n ∈ names (calls evs), n.length < 256)
    (hc : ∀ i, (calls evs).filterMap (remarkAt i) = []) :
    ∃ (s0 : State) (N : Nat) (ws : List (List Bytes)) (s : State), init = some s0 ∧ (∀ fuel, N ≤ fuel → run cs fuel s0 evs = some (ws, s)) ∧
      ws.length = (saves [] evs).length ∧
      (∀ (k : Nat) c w, (saves [] evs)[k]? = some c → ws[k]? = some w → ∃ d0 d fuel, Desk.init = some d0 ∧ Desk.steps d0 c = some d ∧ Desk.units cs fuel d = some w) ∧
      ∀ (j k : Nat), j < ws.length → k < ws.length → (saves [] evs)[j]? = (saves [] evs)[k]? → ws[j]? = ws[k]? := by
  obtain ⟨s0, N, ws, s, count, a1, a2, -, a3, a4, a5⟩ := c66_saves_partial hA evs p0 h0 hp hf hw cs hn1 hn2
  have hz : ∀ k, k ≤ ws.length → ∀ i, count k i = 0 := by
    intro k
    induction k with
    | zero => intro _; exact a4
    | succ k ih =>
      intro hk i
      have hk' : k < (saves [] evs).length := by omega
      obtain ⟨h1, -⟩ := a5 k _ _ (List.getElem?_eq_getElem hk') (List.getElem?_eq_getElem (show k < ws.length by omega))
      obtain ⟨n, r1, r2⟩ := h1 i
      have hn : n = 0 := by
        refine remarks_none (i := i) ?_ r1
        obtain ⟨r, hr⟩ := saves_head (List.getElem_mem hk')
        have := hc i
        rw [List.nil_append] at hr
        rw [hr, List.filterMap_append] at this
        exact (List.append_eq_nil_iff.mp this).1
      rw [r2, if_pos hn]
      exact ih (by omega) i
  have hsame : ∀ (k : Nat) c w, (saves [] evs)[k]? = some c → ws[k]? = some w → ∃ d fuel, Desk.steps (Desk.start p0) c = some d ∧ Desk.units cs fuel d = some w :=
    fun k c w h1 h2 => (a5 k c w h1 h2).2.1 (hz k (Nat.le_of_lt (List.getElem?_eq_some_iff.mp h2).1))
  refine ⟨s0, N, ws, s, a1, a2, a3, fun k c w h1 h2 => ?_, fun j k hj hk he => ?_⟩
  · obtain ⟨d, f, e1, e2⟩ := hsame k c w h1 h2
    exact ⟨_, d, f, by rw [Desk.init, h0]; rfl, e1, e2⟩
  · have hj' : j < (saves [] evs).length := by omega
    have hjs := List.getElem?_eq_getElem hj'
    obtain ⟨d1, f1, x1, x2⟩ := hsame j _ _ hjs (List.getElem?_eq_getElem hj)
    obtain ⟨d2, f2, y1, y2⟩ := hsame k _ _ (he ▸ hjs) (List.getElem?_eq_getElem hk)
    rw [x1] at y1
    obtain rfl := Option.some.inj y1
    rw [List.getElem?_eq_getElem hj, List.getElem?_eq_getElem hk, units_unique x2 y2]

end Xls.Again
