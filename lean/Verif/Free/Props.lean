import Verif.Free.Spec
/-
C77: the whole life of a workbook whose formats and fonts are shared, changed in use and taken again at will.
-/
namespace Xls.Free
open Xls.Biff Xls.Cells Xls.Whole
open Xls.Desk (names Remarks ArrangedBy)
open Xls.Live (plain Kept)
open Xls.Life (Output Event calls saves sheetNames frame Opens names_plain save_by all_saves trace_of remarks)
open Xls.Mirror (Sound AllAble Echoed)

theorem Same.sound {P : List Area.Call} {ds : List Desk.Call} {t : Desk.State} {p0 : Prog.State} (h0 : Prog.init = some p0)
    (h : Same (Desk.start p0) Prog.nothing 0 P ds t) : Sound t.prog (Area.asked (Desk.start p0) Prog.nothing P) := by
  obtain ⟨u, u1, u2⟩ := (begin_sound h0).steps _ h.able
  rw [h.inner] at u1
  obtain rfl := Option.some.inj u1
  exact h.asked.sound u2

theorem Same.acts {P : List Area.Call} {ds : List Desk.Call} {t : Desk.State} {p0 : Prog.State}
    (h : Same (Desk.start p0) Prog.nothing 0 P ds t) (i : Nat) :
    (Area.asked (Desk.start p0) Prog.nothing P).acts i = (ds.filterMap Desk.Call.inner).filterMap (Prog.onSheet i) := by
  rw [← h.asked.acts, Mirror.asked_acts h.inner]
  rfl

/-- One save. -/
theorem one_save {ar : Nat → Option Nat} (hA : Formula.KnowsArity ar) {before : List Live.Call} {props : List (Nat × Bytes)} {p0 : Prog.State}
    (h0 : Prog.init = some p0) {time : Nat} (htime : time ≤ 1000000000000) {pkg : Bytes} {r0 : Hpsf.Props} (hr0 : Hpsf.Props.init time pkg = some r0)
    (hp : Live.Possible 0 0 before) (hw : Within p0 time pkg (before, props)) (cs : WCell → Nat)
    (hn0 : sheetNames before ≠ []) (hn1 : (sheetNames before).length ≤ 1000) (hn2 : ∀ n ∈ sheetNames before, n.length < 256)
    {first : Nat → Nat} {s : Life.State} (H : Life.Holds p0 r0 before props first s) (ix : Nat → Nat → Nat) :
    ∃ N o s' next, (∀ fuel, N ≤ fuel → Life.dump cs fuel ix s = some (o, s')) ∧ Life.Holds p0 r0 before props next s' ∧
      Saved ar (Life.sizes cs s) p0 time pkg (before, props) o first next := by
  have hnm := names_plain before
  have hpos : Area.Possible 0 (plain before) := Live.possible_area _ _ 0 0 hp
  obtain ⟨ds, t, h, hal⟩ := from_start (plain before) p0 h0 hpos hw.can (by rw [hnm]; exact hn1)
  have hds : names ds = sheetNames before := by
    rw [← hnm]
    unfold names
    rw [Area.filterMap_core _ (fun _ => rfl), hal.core, ← Area.filterMap_core _ (fun _ => rfl)]
  obtain ⟨sl, hsl, hres⟩ := Live.arrives h0 hp h.run
  obtain ⟨hx, hfo⟩ := hw.numbers _ hsl
  have hst : sl.desk.prog.look.styles = t.prog.look.styles := by rw [← hres]; rfl
  rw [hst] at hx hfo
  have G := h.sound h0
  obtain ⟨t', t1, S, -⟩ := Desk.run (p := p0) h.possible (by rw [hds]; omega) h.inner
  rw [h.plain] at t1
  obtain rfl := Option.some.inj t1
  have hm := hw.modest
  have hacts := h.acts
  have St : Desk.Standing ds (StylesListed (∀ c ∈ plain before, Spares c)) (Area.asked (Desk.start p0) Prog.nothing (plain before)) t :=
    ⟨S, G.reach, fun c => Mirror.xf_index_lt G.styles.num c.id, G.numbered hx, hacts, fun X hX => ⟨rfl, (by
        obtain ⟨X', e, hl, -⟩ := Look.xf_records t.prog.look.styles
        rw [hX] at e
        cases Option.some.inj e
        rw [hl]
        exact G.styles.many), fun hs =>
      Desk.named_of h0 (same_steps (begin_sound h0) h.able (h.own hs) h.inner) hX⟩, G.dressed⟩
  generalize hAe : Area.asked (Desk.start p0) Prog.nothing (plain before) = A at *
  obtain ⟨N, o, s', next, b1, b2, b3, b4, b5⟩ := save_by h0 htime hr0 hp hw.room cs H ix h.plain h.run hal
    (Q := Echoed ar t.prog.look.styles A.look.codes A.look.writes A.acts (names ds)) (by
      intro left HA
      refine Again.save_of h.possible (Life.sizes cs s) HA ix S (fun i => ?_)
        (Q := fun first w => Echoed ar t.prog.look.styles A.look.codes A.look.writes A.acts (names ds) w ∧ ArrangedBy (StylesListed (∀ c ∈ plain before, Spares c)) first ds w) ?_
      · rw [← hacts i]
        show Page.After _ (Page.applyAll (Page.new (Desk.blank t i)) ((t.prog.acts i).map (Prog.numbered t.prog.look.styles)))
        rw [show (t.prog.acts i).map (Prog.numbered t.prog.look.styles) = _ from congrFun St.acts i]
        exact Page.after_all _ _
      · intro sts hready gs hgs B hB
        refine Desk.save_core hA ds h.possible hm (Life.sizes cs s) (by rw [hds]; exact hn0) (by rw [hds]; exact hn1) (by rw [hds]; exact hn2) St sts hready gs hgs B hB ?_
        intro D sheets s1 s2 us fuel hD hbn hpo hok hst hrun hsm hsh hset
        obtain ⟨bs, e1, e2⟩ := G.echoed hA hm.fine hx hfo (fun i a ha => ⟨(hm.fit i a ha).1, (hm.fit i a ha).2.2⟩) hm.calls (Life.sizes cs s) D gs sheets s1 s2 us fuel
          hD hpo hok hst hrun hsm hsh hset
        exact ⟨bs, e1, fun h32 pad => by rw [← hbn]; exact e2 h32 pad⟩)
  refine ⟨N, o, s', next, b1, b2, b3, fun hz => ?_, fun hsz => ?_⟩
  · obtain ⟨fuel, hfu⟩ := b4 hz
    exact ⟨s.live, fuel, H.live, hfu⟩
  obtain ⟨f, hcf, w, ws, wd, S, T, f1, ⟨g1, g2⟩, f2⟩ := b5 hsz
  rw [hds] at g1
  refine ⟨f, hcf, w, ws, wd, S, T, f1, ⟨?_, g2, sl, hsl, ?_⟩, f2⟩
  · obtain ⟨L, M, R, recs, l1, m1, -, -, l2, m2, -, -, -, l3, m3, -⟩ := g1
    subst hAe
    refine Live.kept_of hA hp h.run (fun i => ?_) l1 m1 l2 m2 (fun i xs hxs row col d hd => ?_) (fun i P hP => (m3 i P hP).1)
    · rw [hacts i, List.filterMap_filterMap, Area.filterMap_core _ (fun _ => rfl), hal.core, ← Area.filterMap_core _ (fun _ => rfl)]
    · have := (l3 i xs hxs).2 row col
      rw [hd] at this
      obtain ⟨x, hx, hr, hc, hh, -⟩ := this
      exact ⟨x, hx, hr, hc, hh⟩
  · rw [hAe, hst]
    exact g1

/-- C77: any sequence of calls on a new workbook that hand over existing objects – sheets, cells, formats and fonts that may be shared, changed in use,
    given up and taken again, ranges, columns, rows, comments, links, validations, formula objects, document properties – and of saves is carried out
    without undefined behaviour.  Every save that can write hands out a complete file in which a reader finds every font, format and cell as their getters
    answer at the moment of that save, the formulas in the form that they have then, and everything else as the calls before that save ask for (`Tells`);
    the sizes with which INDEX records are made may be outdated (`sz`; see `c71_outdated_index`).
    Missing for the full claim: at most 65535 fonts and 65536 formats at each save, the limits of `Modest`,
    1000 sheets, names of 255 characters, 2 GB, and that the properties fit (C33). -/
theorem c77_life_partial {ar : Nat → Option Nat} (hA : Formula.KnowsArity ar) (evs : List Event) (p0 : Prog.State) (h0 : Prog.init = some p0)
    (time : Nat) (htime : time ≤ 1000000000000) (pkg : Bytes) (hp : Live.Possible 0 0 (calls evs))
    (hf : AllCan (Desk.start p0) Prog.nothing (plain (calls evs))) (hw : ∀ c ∈ saves [] [] evs, Within p0 time pkg c) (cs : WCell → Nat)
    (hn1 : (sheetNames (calls evs)).length ≤ 1000) (hn2 : ∀ n ∈ sheetNames (calls evs), n.length < 256) :
    ∃ (s0 : Life.State) (N : Nat) (os : List Output) (s : Life.State) (count : Nat → Nat → Nat), Life.init time pkg = some s0 ∧
      (∀ fuel, N ≤ fuel → Life.run cs fuel s0 evs = some (os, s)) ∧ Live.steps s0.live (calls evs) = some s.live ∧
      os.length = (saves [] [] evs).length ∧ (∀ i, count 0 i = 0) ∧
      ∀ (k : Nat) c o, (saves [] [] evs)[k]? = some c → os[k]? = some o → ∃ sz, Saved ar sz p0 time pkg c o (count k) (count (k + 1)) := by
  obtain ⟨r0, -, hr0, -⟩ := Hpsf.c32_read_back time htime pkg []
  have hu : ∃ u, Live.steps ⟨Desk.start p0, []⟩ (calls evs) = some u := by
    obtain ⟨ds, t, h, -⟩ := from_start (plain (calls evs)) p0 h0 (Live.possible_area _ _ 0 0 hp) hf (by
      rw [names_plain (calls evs)]
      exact hn1)
    obtain ⟨u, h1, -⟩ := Live.arrives h0 hp h.run
    exact ⟨u, h1⟩
  obtain ⟨N, os, s, count, a1, a2, a3, a4, a5⟩ := all_saves htime hr0 cs (K := fun _ _ => True) (fun _ _ _ _ _ _ _ _ => trivial)
    (V := fun c o first next => ∃ sz, Saved ar sz p0 time pkg c o first next)
    (fun before props first s ix _ p1 p2 p3 p4 p5 H => by
      obtain ⟨N, o, s', next, x1, x2, x3⟩ := one_save hA h0 htime hr0 p1 p2 cs p3 p4 p5 H ix
      exact ⟨N, o, s', next, x1, x2, _, x3⟩) evs [] [] (fun _ => 0) ⟨⟨Desk.start p0, []⟩, r0, none, fun _ => none⟩
    ⟨rfl, rfl, (fun p h => by cases h), fun _ _ => rfl⟩ trivial hp hu hw hn1 hn2
  refine ⟨⟨⟨Desk.start p0, []⟩, r0, none, fun _ => none⟩, N, os, s, count, ?_, a1, a2, a3, fun i => by rw [a4], a5⟩
  rw [Life.init, Live.init, Desk.init, h0, Option.map_some, Option.map_some, Option.bind_some, hr0]
  rfl

/-! ### A history -/

/-- `RangeAble`, computed. -/
def rangeAbleB (s : Styles.State) : Range.RangeOp → Bool
  | .call o => Mirror.meantB s o
  | .font o => decide (Font.Spec.Valid o)
  | .color n => decide (Xf.Spec.Valid (.fg n))
  | .box b => decide (Xf.Spec.Valid (.bstyle .top b.border)) && decide (Xf.Spec.Valid (.bcolor .top b.color)) && decide (Xf.Spec.Valid (.fg b.fg)) &&
      decide (Xf.Spec.Valid (.fg b.bg)) && decide (Xf.Spec.Valid (.fill b.fill))

/-- `Can`, computed. -/
def canB (s : Desk.State) (A : Prog.Asked) : Area.Call → Bool
  | .desk (.on c) => Mirror.ableB s.prog A c
  | .desk _ => true
  | .range _ r o => decide (r.lastRow < 2 ^ 32 - 1) && decide (r.lastCol < 2 ^ 32 - 1) && rangeAbleB s.prog.look.styles o

/-- `AllCan`, computed. -/
def allCanB (s : Desk.State) (A : Prog.Asked) : List Area.Call → Bool
  | [] => true
  | c :: r => canB s A c && match Area.step s c with | none => true | some t => allCanB t (Area.ask s A c) r

theorem allCan_of {s : Desk.State} {A : Prog.Asked} {P : List Area.Call} (h : allCanB s A P = true) : AllCan s A P := by
  induction P generalizing s A with
  | nil => trivial
  | cons c r ih =>
    simp only [allCanB, Bool.and_eq_true] at h
    refine ⟨?_, fun t ht => ih ?_⟩
    · have h := h.1
      cases c with
      | desk c =>
        cases c with
        | on c =>
          exact Mirror.able_of h
        | _ => trivial
      | range i r o =>
        simp only [canB, Bool.and_eq_true, decide_eq_true_eq] at h
        refine ⟨h.1.1, h.1.2, ?_⟩
        cases o with
        | call o => exact Mirror.meant_of h.2
        | box b =>
          have := h.2
          simp only [rangeAbleB, Bool.and_eq_true, decide_eq_true_eq] at this
          exact ⟨this.1.1.1.1, this.1.1.1.2, this.1.1.2, this.1.2, this.2⟩
        | font o => exact (of_decide_eq_true h.2 : Font.Spec.Valid o)
        | color n => exact (of_decide_eq_true h.2 : Xf.Spec.Valid (.fg n))
    · have := h.2
      rw [ht] at this
      exact this

/-- A sheet, a font and format 21 with it; a cell with the format; a formula 5 in another cell; a save; the format is changed while the cell has it, the cell
    is written anew without it, the format of cells without one is changed, and format 21 is given to a third cell; bold for a range over all three;
    the font itself is changed; 7 and the addition are pushed; another save. -/
def sample (ix ix' : Nat → Nat → Nat) : List Event :=
  [.call (.other (.desk (.sheet [65]))), .call (.other (.desk (.on (.look (.style (.newFont [65])))))), .call (.other (.desk (.on (.look (.style .newXf))))),
   .call (.other (.desk (.on (.look (.style (.xf 21 (.font (some 5)))))))), .call (.other (.desk (.on (.look (.put 0 0 0 (.bool true) (some 21)))))),
   .call (.make 0), .call (.push 0 (.int 5)), .call (.cell 0 1 0 false 0 (some 21)), .save true ix,
   .call (.other (.desk (.on (.look (.style (.xf 21 (.halign 2))))))), .call (.other (.desk (.on (.look (.put 0 0 0 (.bool false) none))))),
   .call (.other (.desk (.on (.look (.style (.xf 15 (.wrap true))))))),
   .call (.other (.desk (.on (.look (.put 0 2 0 (.signed 7) (some 21)))))), .call (.other (.range 0 ⟨0, 0, 2, 0⟩ (.font (.bold 0)))),
   .call (.other (.desk (.on (.look (.style (.font 5 (.italic true))))))), .call (.push 0 (.int 7)), .call (.push 0 (.op 3)), .save true ix']

/-- The calls before the first save, and before the second. -/
def early : List Live.Call :=
  [.other (.desk (.sheet [65])), .other (.desk (.on (.look (.style (.newFont [65]))))), .other (.desk (.on (.look (.style .newXf)))),
   .other (.desk (.on (.look (.style (.xf 21 (.font (some 5))))))), .other (.desk (.on (.look (.put 0 0 0 (.bool true) (some 21))))),
   .make 0, .push 0 (.int 5), .cell 0 1 0 false 0 (some 21)]
def late : List Live.Call := early ++
  [.other (.desk (.on (.look (.style (.xf 21 (.halign 2)))))), .other (.desk (.on (.look (.put 0 0 0 (.bool false) none)))),
   .other (.desk (.on (.look (.style (.xf 15 (.wrap true)))))),
   .other (.desk (.on (.look (.put 0 2 0 (.signed 7) (some 21))))), .other (.range 0 ⟨0, 0, 2, 0⟩ (.font (.bold 0))),
   .other (.desk (.on (.look (.style (.font 5 (.italic true)))))), .push 0 (.int 7), .push 0 (.op 3)]

example (ix ix' : Nat → Nat → Nat) : calls (sample ix ix') = late ∧ saves [] [] (sample ix ix') = [(early, []), (late, [])] := ⟨rfl, rfl⟩

theorem within_of {p0 : Prog.State} (h0 : Prog.init = some p0) {time : Nat} {pkg : Bytes} {c : List Live.Call × List (Nat × Bytes)} (hp : Live.Possible 0 0 c.1)
    (hn : (sheetNames c.1).length ≤ 1000) (hi : ∀ i, (frame c.1).filterMap (fun d => d.inner.bind (Prog.onSheet i)) = [])
    (h : (Prog.init.map fun p => allCanB (Desk.start p) Prog.nothing (plain c.1) &&
      decide ((Area.asked (Desk.start p) Prog.nothing (plain c.1)).look.writes.length < 1000) &&
      (Area.asked (Desk.start p) Prog.nothing (plain c.1)).look.writes.all fun p => decide (p.2.row < 32832) && decide (p.2.col < 256) &&
        match p.2.val with | .tokens _ tok => decide (tok.length ≤ 8179) | v => Look.valB v) = some true)
    (hx : ((Prog.init.bind fun p => Live.steps ⟨Desk.start p, []⟩ c.1).map fun s => decide (s.desk.prog.look.styles.xfs.length ≤ 65536) &&
      decide (s.desk.prog.look.styles.fonts.length ≤ 65535)) = some true)
    (hr : (((Hpsf.Props.init time pkg).bind fun r => r.run c.2).map fun r => decide (Hpsf.need r.summary ≤ 4096) && decide (Hpsf.need r.doc ≤ 4096)) = some true) :
    Within p0 time pkg c := by
  rw [h0] at h hx
  simp only [Option.map_some, Option.some.injEq, Bool.and_eq_true, decide_eq_true_eq, List.all_eq_true] at h
  have hf := allCan_of h.1.1
  have ha : ∀ i, (Area.asked (Desk.start p0) Prog.nothing (plain c.1)).acts i = [] := by
    intro i
    obtain ⟨ds, t, hs, hal⟩ := from_start (plain c.1) p0 h0 (Live.possible_area _ _ 0 0 hp) hf (by rw [names_plain c.1]; exact hn)
    rw [hs.acts i, List.filterMap_filterMap, Area.filterMap_core _ (fun _ => rfl), hal.core, ← Area.filterMap_core _ (fun _ => rfl)]
    exact hi i
  refine ⟨hf, ⟨⟨?_, by omega, Whole.fewRows_of fun p hp => (h.2 p hp).1.1, ?_, ?_, ?_⟩, ?_⟩, ?_, ?_⟩
  · intro i row col c hw
    unfold lastWrite at hw
    obtain ⟨p, hp, rfl⟩ := Option.map_eq_some_iff.mp hw
    have := h.2 p (List.mem_filter.mp (List.mem_of_getLast? hp)).1
    refine ⟨by omega, this.1.2, ?_⟩
    have hv := this.2
    split at hv
    · rename_i e
      rw [e]
      simp only [decide_eq_true_eq] at hv
      exact hv
    · exact Look.val_of hv
  · intro i a hm
    rw [ha] at hm
    cases hm
  · intro i
    rw [ha]
    exact show 0 < 2 ^ 32 by decide
  · intro i
    rw [ha]
    exact show 0 ≤ 65535 by decide
  · intro i
    refine Page.few_steady _ _ ?_
    rw [ha]
    exact show 0 < 16 by decide
  · intro s hs
    rw [Option.bind_some, hs] at hx
    simpa using hx
  · intro r0 r h1 h2
    rw [h1, Option.bind_some, h2] at hr
    simpa using hr

/-- The sample meets all conditions: two files are written, and in each a reader finds the cells, formats and fonts as they were at that time. -/
example (ix ix' : Nat → Nat → Nat) : ∃ p0 s0 N o o' s, Prog.init = some p0 ∧ Life.init 1700000000 [120] = some s0 ∧
    (∀ fuel, N ≤ fuel → Life.run (fun _ => 0) fuel s0 (sample ix ix') = some ([o, o'], s)) ∧
    (Ole.dataSize o.wb + 8192 < 2 ^ 31 - 12288 → ∃ f, Ole.CompleteFile (Ole.workbookFiles o.wb [o.summary] [o.doc]) f ∧
      Opens 1700000000 [120] [] (Tells Formula.tableArity p0 (fun _ => 0) early) f) ∧
    (Ole.dataSize o'.wb + 8192 < 2 ^ 31 - 12288 → ∃ f, Ole.CompleteFile (Ole.workbookFiles o'.wb [o'.summary] [o'.doc]) f ∧
      Opens 1700000000 [120] [] (Tells Formula.tableArity p0 (fun _ => 0) late) f) := by
  obtain ⟨p0, h0, -⟩ := Mirror.init_sound
  have hp : Live.Possible 0 0 late := by simp [late, early, Live.Possible, Live.bare, Desk.target]
  have hp' : Live.Possible 0 0 early := Life.possible_append _ _ _ _ hp
  have w1 : Within p0 1700000000 [120] (early, []) :=
    within_of h0 hp' (by decide) (fun i => rfl) (by decide +kernel) (by decide +kernel) (by decide +kernel)
  have w2 : Within p0 1700000000 [120] (late, []) :=
    within_of h0 hp (by decide) (fun i => rfl) (by decide +kernel) (by decide +kernel) (by decide +kernel)
  obtain ⟨s0, N, os, s, count, a1, a2, -, a3, a4, a5⟩ := c77_life_partial Formula.tableArity_knows (sample ix ix') p0 h0 1700000000 (by decide) [120] hp w2.can (by
      intro c h
      rcases List.mem_cons.mp h with rfl | h
      · exact w1
      · rw [List.mem_singleton.mp h]; exact w2) (fun _ => 0) (show 1 ≤ 1000 by decide) (show ∀ n ∈ sheetNames late, n.length < 256 by decide)
  match os, a3 with
  | [o, o'], _ =>
    obtain ⟨_, b1⟩ := a5 0 _ o rfl rfl
    obtain ⟨_, b2⟩ := a5 1 _ o' rfl rfl
    have hz : count 1 = fun _ => 0 := by
      funext i
      obtain ⟨n, n1, n2⟩ := b1.counts i
      rw [Again.remarks_none rfl n1, a4] at n2
      exact n2
    rw [hz] at b2
    rw [show count 0 = fun _ => 0 from funext a4] at b1
    exact ⟨p0, s0, N, o, o', s, h0, a1, a2, b1.file, b2.file⟩

/-- It is outside the conditions of C71: format 21 is changed in use. -/
example : (Prog.init.map fun p => Area.fineB (Desk.start p) Prog.nothing (plain late)) = some false := by decide +kernel

end Xls.Free
