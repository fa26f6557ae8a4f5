import Verif.Area.Run
import Verif.Mirror.Progs
/-
Operations on ranges in programs that do whatever they want with formats and fonts.
-/
namespace Xls.Free
open Xls.Range (Rect RangeOp Cache each keys keys_nodup each_list okLoop ArgsOk colorOps boxTag boxOps)
open Xls.Whole Xls.Cells
open Xls.Styles.Spec (Look)
open Xls.Xf (Xf)
open Xls.Mirror (Sound Able AllAble Live Meant Sane Well)
open Xls.Area (blankAt styled setStyles step_styled making after askPlace Covers findOrBlank callBody fontBody memoBody onRange)

/-! ### What was asked for, but for looks -/

/-- The same cells, number formats and calls on sheets. -/
structure Like (A B : Prog.Asked) : Prop where
  writes : A.look.writes = B.look.writes
  codes : A.look.codes = B.look.codes
  acts : A.acts = B.acts

theorem Like.refl (A : Prog.Asked) : Like A A := ⟨rfl, rfl, rfl⟩
theorem Like.symm {A B : Prog.Asked} (h : Like A B) : Like B A := ⟨h.1.symm, h.2.symm, h.3.symm⟩
theorem Like.trans {A B C : Prog.Asked} (h : Like A B) (k : Like B C) : Like A C := ⟨h.1.trans k.1, h.2.trans k.2, h.3.trans k.3⟩

theorem Like.sound {s : Prog.State} {A B : Prog.Asked} (h : Like A B) (G : Sound s A) : Sound s B := by
  obtain ⟨h1, h2, h3⟩ := h
  refine ⟨h1 ▸ G.reach, G.styles, h1 ▸ G.live, h1 ▸ G.inj, h2 ▸ G.formats, h2 ▸ G.few, h2 ▸ G.codes, h3 ▸ G.acts, G.held, G.apart, h1 ▸ G.placed, h3 ▸ G.known⟩

theorem Like.able {s : Prog.State} {A B : Prog.Asked} (h : Like A B) {c : Prog.Call} (ok : Able s A c) : Able s B c := by
  obtain ⟨h1, h2, h3⟩ := h
  cases c with
  | page i a => exact ok
  | look c =>
    cases c with
    | put i row col v q => exact ok
    | style a => exact ⟨ok.1, fun c e => ⟨h1 ▸ (ok.2 c e).1, (ok.2 c e).2⟩⟩
    | format code => exact ⟨h2 ▸ ok.1, ok.2⟩

theorem Like.ask {s : Prog.State} {A B : Prog.Asked} (h : Like A B) (c : Prog.Call) : Like (Prog.ask s A c) (Prog.ask s B c) := by
  obtain ⟨h1, h2, h3⟩ := h
  cases c with
  | page i a => exact ⟨h1, h2, by show Prog.put A.acts i _ = Prog.put B.acts i _; rw [h3]⟩
  | look c =>
    cases c with
    | put i row col v q => exact ⟨by show A.look.writes ++ _ = B.look.writes ++ _; rw [h1], h2, h3⟩
    | style a => exact ⟨h1, h2, h3⟩
    | format code => exact ⟨h1, by show A.look.codes ++ _ = B.look.codes ++ _; rw [h2], h3⟩

theorem Like.all {s : Prog.State} {A B : Prog.Asked} (h : Like A B) {calls : List Prog.Call} (ok : AllAble s A calls) :
    AllAble s B calls ∧ Like (Prog.asked s A calls) (Prog.asked s B calls) := by
  induction calls generalizing s A B with
  | nil => exact ⟨trivial, h⟩
  | cons c r ih =>
    refine ⟨⟨h.able ok.1, fun t ht => (ih (h.ask c) (ok.2 t ht)).1⟩, ?_⟩
    rw [Prog.asked, Prog.asked]
    cases ht : Prog.step s c with
    | none => exact h
    | some t => exact (ih (h.ask c) (ok.2 t ht)).2

theorem all_append {p q : Prog.State} {A : Prog.Asked} {x y : List Prog.Call} (h : Prog.steps p x = some q) (hf : AllAble p A x)
    (h2 : AllAble q (Prog.asked p A x) y) : AllAble p A (x ++ y) ∧ Prog.asked p A (x ++ y) = Prog.asked q (Prog.asked p A x) y := by
  induction x generalizing p A with
  | nil =>
    obtain rfl := Option.some.inj h
    exact ⟨h2, rfl⟩
  | cons c x ih =>
    rw [Prog.steps] at h
    obtain ⟨p', e1, e2⟩ := Option.bind_eq_some_iff.mp h
    rw [Prog.asked, e1] at h2
    obtain ⟨i1, i2⟩ := ih e2 (hf.2 p' e1) h2
    refine ⟨⟨hf.1, fun t ht => ?_⟩, ?_⟩
    · rw [e1] at ht
      obtain rfl := Option.some.inj ht
      exact i1
    · rw [List.cons_append, Prog.asked, e1, Prog.asked, e1]
      exact i2

/-- The call is no setter on a format that the workbook made for itself. -/
def Own : Prog.Call → Prop
  | .look (.style (.xf q _)) => 21 ≤ q
  | _ => True

/-- Plain calls that make `t` of `s`; with them `A'` is asked for when `A` was asked for before. -/
structure Steps (s : Desk.State) (A : Prog.Asked) (calls : List Desk.Call) (t : Desk.State) (A' : Prog.Asked) : Prop where
  run : Desk.steps s calls = some t
  inner : Prog.steps s.prog (calls.filterMap Desk.Call.inner) = some t.prog
  able : AllAble s.prog A (calls.filterMap Desk.Call.inner)
  own : ∀ c ∈ calls.filterMap Desk.Call.inner, Own c
  asked : Like (Prog.asked s.prog A (calls.filterMap Desk.Call.inner)) A'
  sound : Sound t.prog A'
  wb : t.wb = s.wb

theorem Steps.nil {s : Desk.State} {A : Prog.Asked} (G : Sound s.prog A) : Steps s A [] s A :=
  ⟨rfl, rfl, trivial, (fun _ h => by cases h), .refl _, G, rfl⟩

theorem Steps.like {s t : Desk.State} {A A' A'' : Prog.Asked} {calls : List Desk.Call} (h : Steps s A calls t A') (k : Like A' A'') : Steps s A calls t A'' :=
  ⟨h.run, h.inner, h.able, h.own, h.asked.trans k, k.sound h.sound, h.wb⟩

theorem Steps.one {s t : Desk.State} {A : Prog.Asked} {c : Prog.Call} (G : Sound s.prog A) (h1 : Desk.step s (.on c) = some t)
    (h2 : Prog.step s.prog c = some t.prog) (h3 : Able s.prog A c) (h4 : Own c) (h5 : t.wb = s.wb) : Steps s A [.on c] t (Prog.ask s.prog A c) := by
  refine ⟨?_, ?_, ⟨h3, fun _ _ => trivial⟩, fun d hd => ?_, ?_, ?_, h5⟩
  · rw [Desk.steps, h1]; rfl
  · show Prog.steps s.prog [c] = _
    rw [Prog.steps, h2]; rfl
  · cases List.mem_singleton.mp hd
    exact h4
  · show Like (Prog.asked s.prog A [c]) _
    rw [Prog.asked, h2]
    exact .refl _
  · obtain ⟨t', e1, e2⟩ := G.step c h3
    rw [h2] at e1
    obtain rfl := Option.some.inj e1
    exact e2

theorem Steps.append {s t u : Desk.State} {A A' A'' : Prog.Asked} {l r : List Desk.Call} (h1 : Steps s A l t A') (h2 : Steps t A' r u A'') :
    Steps s A (l ++ r) u A'' := by
  obtain ⟨m1, m2⟩ := h1.asked.symm.all h2.able
  obtain ⟨k1, k2⟩ := all_append h1.inner h1.able m1
  refine ⟨?_, ?_, ?_, ?_, ?_, h2.sound, h2.wb.trans h1.wb⟩
  · rw [Desk.steps_append, h1.run]; exact h2.run
  · rw [List.filterMap_append, Desk.prog_append, h1.inner]; exact h2.inner
  · rw [List.filterMap_append]; exact k1
  · intro c hc
    rw [List.filterMap_append, List.mem_append] at hc
    exact hc.elim (h1.own c) (h2.own c)
  · rw [List.filterMap_append, k2]
    exact m2.symm.trans h2.asked

/-- One call on the styles of a cell. -/
theorem Steps.style {s : Desk.State} {A : Prog.Asked} (G : Sound s.prog A) {a : Styles.Action} (ha : Sane s.prog.look.styles a)
    (hd : ∀ c, a ≠ .destroy c) (hx : ∀ q o, a ≠ .xf q o) :
    ∃ t, Styles.step s.prog.look.styles a = some t ∧ Steps s A [styled a] (setStyles s t) A ∧ s.prog.look.styles.fonts.length ≤ t.fonts.length ∧
      s.prog.look.styles.xfs.length ≤ t.xfs.length ∧ ∀ c, Live s.prog.look.styles c → Live t c := by
  obtain ⟨t, e, -, f, x, -, k⟩ := G.styles.step ha
  refine ⟨t, e, ?_, f, x, fun c hc => k c hc (hd c)⟩
  refine (Steps.one (t := setStyles s t) (c := .look (.style a)) G (by rw [← styled, step_styled, e]; rfl) (by simp [Prog.step, Look.step, e, setStyles])
    ⟨ha, fun c e => absurd e (hd c)⟩ ?_ rfl).like ⟨rfl, rfl, rfl⟩
  cases a with
  | xf q o => exact absurd rfl (hx q o)
  | _ => trivial

/-! ### The cell -/

theorem unmark_len {s t : Styles.State} {q : Nat} (h : Styles.unmarkXf s q = some t) :
    t.cells.length = s.cells.length ∧ t.xfs.length = s.xfs.length ∧ t.fonts.length = s.fonts.length := by
  unfold Styles.unmarkXf at h
  obtain ⟨e, -, rfl⟩ := Option.map_eq_some_iff.mp h
  simp only
  split
  · cases e.xf.font with
    | none => exact ⟨rfl, List.length_modify .., rfl⟩
    | some p => exact ⟨rfl, List.length_modify .., List.length_modify ..⟩
  · exact ⟨rfl, List.length_modify .., rfl⟩

theorem destroy_len {l : List Nat} {s t : Styles.State} (h : l.foldlM Styles.destroy s = some t) :
    t.cells.length = s.cells.length ∧ t.xfs.length = s.xfs.length ∧ t.fonts.length = s.fonts.length := by
  induction l generalizing s with
  | nil => cases h; exact ⟨rfl, rfl, rfl⟩
  | cons c r ih =>
    rw [List.foldlM_cons] at h
    obtain ⟨u, h1, h2⟩ := Option.bind_eq_some_iff.mp h
    unfold Styles.destroy at h1
    obtain ⟨q, -, h1⟩ := Option.bind_eq_some_iff.mp h1
    obtain ⟨a1, a2, a3⟩ := unmark_len h1
    obtain ⟨b1, b2, b3⟩ := ih h2
    rw [List.length_set] at a1
    exact ⟨b1.trans a1, b2.trans a2, b3.trans a3⟩

theorem put_len {s t : Prog.State} {i row col : Nat} {v : Val} {q : Option Nat} (h : Prog.step s (.look (.put i row col v q)) = some t) :
    t.look.styles.cells.length = s.look.styles.cells.length + 1 ∧ t.look.styles.xfs.length = s.look.styles.xfs.length ∧
      t.look.styles.fonts.length = s.look.styles.fonts.length := by
  obtain ⟨l, h1, rfl⟩ := Option.map_eq_some_iff.mp h
  obtain ⟨b, -, h1⟩ := Option.bind_eq_some_iff.mp (show (s.look.book.put i _).bind _ = some l from h1)
  obtain ⟨u, h2, rfl⟩ := Option.map_eq_some_iff.mp h1
  obtain ⟨a1, a2, a3⟩ := destroy_len h2
  exact ⟨a1.trans List.length_append, a2.trans (List.length_modify ..), a3⟩

theorem found {s : Desk.State} {A : Prog.Asked} (G : Sound s.prog A) (i : Nat) (hi : i < s.wb.sheets.length) (k : Key) :
    ∃ t c, findOrBlank s i k.1 k.2 = some (t, c) ∧ Live t.prog.look.styles c ∧ t.prog.look.styles.xfs.length = s.prog.look.styles.xfs.length ∧
      s.prog.look.styles.fonts.length ≤ t.prog.look.styles.fonts.length ∧
      ∀ f, Steps s A (making A i k) t (after i f s A k) ∧ t.prog.look.styles.cells.length = (askPlace i f (s.prog.look.styles.cells.length, A.look) k).1 := by
  have hsw := reach_sheets G.reach i
  unfold findOrBlank making after askPlace
  cases hw : lastWrite A.look.writes i k.1 k.2 with
  | some d =>
    have hp := Look.lastWrite_at hw
    have hf : (s.prog.look.book.sheets i).findCell k.1 k.2 = some (stamp i d) :=
      (findCell_mem hsw.ordered _ _ _).mpr ⟨(hsw.cells _).mpr ⟨d, by show lastWrite _ i d.row d.col = _; rw [hp.1, hp.2, hw], rfl⟩, hp.1, hp.2⟩
    exact ⟨s, d.id, by rw [hf]; rfl, G.live _ _ _ _ hw, rfl, Nat.le_refl _, fun f => ⟨(Steps.nil G).like ⟨rfl, rfl, rfl⟩, rfl⟩⟩
  | none =>
    have hf : (s.prog.look.book.sheets i).findCell k.1 k.2 = none := by
      cases hf : (s.prog.look.book.sheets i).findCell k.1 k.2 with
      | none => rfl
      | some x =>
        obtain ⟨h1, h2, h3⟩ := (findCell_mem hsw.ordered _ _ _).mp hf
        obtain ⟨d, h4, -⟩ := (hsw.cells x).mp h1
        rw [h2, h3, hw] at h4
        cases h4
    have hok : Able s.prog A (.look (.put i k.1 k.2 .blank none)) := fun r h => by cases h
    obtain ⟨p, p1, p2⟩ := G.step _ hok
    obtain ⟨l1, l2, l3⟩ := put_len p1
    let t : Desk.State := { s with prog := p, used := Prog.put s.used i ((s.used i).extend k.1 k.2) }
    have hstep : Desk.step s (blankAt i k.1 k.2) = some t := by
      simp only [Desk.step, blankAt, Desk.target, Option.all_some, hi, decide_true, if_true, Desk.wbOp, Option.bind_some, p1, Option.map_some, Desk.place]
      rfl
    refine ⟨t, s.prog.look.styles.cells.length, by rw [hf]; simp only [hstep, Option.map_some], ?_, l2, ?_, fun f => ⟨?_, l1⟩⟩
    · refine p2.live i k.1 k.2 ⟨s.prog.look.styles.cells.length, k.1, k.2, .blank⟩ ?_
      simp only [Prog.ask, Look.ask]
      rw [lastWrite_append, if_pos ⟨rfl, rfl, rfl⟩]
    · show s.prog.look.styles.fonts.length ≤ p.look.styles.fonts.length
      omega
    · exact (Steps.one (t := t) G hstep p1 hok trivial rfl).like ⟨rfl, rfl, rfl⟩

/-! ### Its format -/

/-- Some format functions of one cell. -/
theorem Steps.calls {s : Desk.State} {A : Prog.Asked} (G : Sound s.prog A) {c : Nat} (hl : Live s.prog.look.styles c) (ops : List Xf.Op)
    (ho : ∀ o ∈ ops, Meant s.prog.look.styles o) :
    ∃ t, Steps s A (ops.map fun o => styled (.cell c o)) t A ∧ Live t.prog.look.styles c ∧
      t.prog.look.styles.cells.length = s.prog.look.styles.cells.length ∧ s.prog.look.styles.xfs.length ≤ t.prog.look.styles.xfs.length ∧
      s.prog.look.styles.fonts.length ≤ t.prog.look.styles.fonts.length := by
  induction ops generalizing s with
  | nil => exact ⟨s, Steps.nil G, hl, rfl, Nat.le_refl _, Nat.le_refl _⟩
  | cons o r ih =>
    obtain ⟨u, e, h, f, x, k⟩ := Steps.style G (a := .cell c o) ⟨hl, ho o (by simp)⟩ (by simp) (by simp)
    obtain ⟨t, t1, t2, t3, t4, t5⟩ := ih h.sound (k c hl) fun o' h' => ⟨(ho o' (by simp [h'])).1, fun p hp => Nat.lt_of_lt_of_le ((ho o' (by simp [h'])).2 p hp) f⟩
    exact ⟨t, h.append t1, t2, t3.trans (Styles.held_cellOp e), Nat.le_trans x t4, Nat.le_trans f t5⟩

/-! ### One pass -/

/-- One place is done by plain calls. -/
def Pass (i : Nat) (f : Key → Look → Look) (k : Key) (s : Desk.State) (A : Prog.Asked) (t : Desk.State) : Prop :=
  (∃ acts : List Styles.Action, Steps s A (making A i k ++ acts.map styled) t (after i f s A k)) ∧
    t.prog.look.styles.cells.length = (askPlace i f (s.prog.look.styles.cells.length, A.look) k).1 ∧
    s.prog.look.styles.fonts.length ≤ t.prog.look.styles.fonts.length

theorem call_pass {s : Desk.State} {A : Prog.Asked} (G : Sound s.prog A) (i : Nat) (hi : i < s.wb.sheets.length) (f : Key → Look → Look) (k : Key) (o : Xf.Op)
    (ho : Meant s.prog.look.styles o) : ∃ t, callBody i o k.1 k.2 s = some t ∧ Pass i f k s A t := by
  obtain ⟨t, c, h1, h2, -, h4, h5⟩ := found G i hi k
  obtain ⟨h5, h6⟩ := h5 f
  obtain ⟨u, u1, u2, u3, -, -⟩ := Steps.style h5.sound (a := .cell c o) ⟨h2, ho.1, fun p hp => Nat.lt_of_lt_of_le (ho.2 p hp) h4⟩ (by simp) (by simp)
  refine ⟨setStyles t u, ?_, ⟨[.cell c o], h5.append u2⟩, (show u.cells.length = _ from Styles.held_cellOp u1).trans h6, Nat.le_trans h4 u3⟩
  rw [callBody, h1, Option.bind_some, step_styled, u1]
  rfl

theorem font_pass {s : Desk.State} {A : Prog.Asked} (G : Sound s.prog A) (i : Nat) (hi : i < s.wb.sheets.length) (f : Key → Look → Look) (k : Key) (o : Font.FOp)
    (ho : Font.Spec.Valid o) : ∃ t, fontBody i o k.1 k.2 s = some t ∧ Pass i f k s A t := by
  obtain ⟨t, c, h1, h2, -, h4, h5⟩ := found G i hi k
  obtain ⟨h5, h6⟩ := h5 f
  obtain ⟨u, u1, u2, u3, -, -⟩ := Steps.style h5.sound (a := .cellFont c o) ⟨h2, ho⟩ (by simp) (by simp)
  refine ⟨setStyles t u, ?_, ⟨[.cellFont c o], h5.append u2⟩, (show u.cells.length = _ from Styles.held_cellFont u1).trans h6, Nat.le_trans h4 u3⟩
  rw [fontBody, h1, Option.bind_some, step_styled, u1]
  rfl

theorem memo_pass (tag : Nat → Nat → Xf → Nat) (ops : Nat → Nat → List Xf.Op) {s : Desk.State} {A : Prog.Asked} (G : Sound s.prog A) (i : Nat)
    (hi : i < s.wb.sheets.length) (f : Key → Look → Look) (k : Key) (ho : ∀ o ∈ ops k.1 k.2, Meant s.prog.look.styles o) (cache : Cache)
    (hc : ∀ x p, (x, p) ∈ cache → p < s.prog.look.styles.xfs.length) :
    ∃ t cache', memoBody i tag ops k.1 k.2 (s, cache) = some (t, cache') ∧ Pass i f k s A t ∧
      ∀ x p, (x, p) ∈ cache' → p < t.prog.look.styles.xfs.length := by
  obtain ⟨t, c, h1, h2, h3, h4, h5⟩ := found G i hi k
  obtain ⟨h5, h6⟩ := h5 f
  obtain ⟨q, hq⟩ := h2
  have hlt := h5.sound.styles.live c q hq
  have he : t.prog.look.styles.xfs[q]? = some t.prog.look.styles.xfs[q] := by simp [hlt]
  generalize t.prog.look.styles.xfs[q] = e at he
  cases hlk : cache.lookup (e.index, tag k.1 k.2 e.xf) with
  | some p =>
    have hp := hc _ _ (Range.lookup_mem hlk)
    obtain ⟨u, u1, u2, u3, u4, -⟩ := Steps.style h5.sound (a := .setXf c p) ⟨⟨q, hq⟩, by omega⟩ (by simp) (by simp)
    refine ⟨setStyles t u, cache, ?_, ⟨⟨[.setXf c p], h5.append u2⟩, (show u.cells.length = _ from Styles.held_setXf u1).trans h6, Nat.le_trans h4 u3⟩, ?_⟩
    · have hstep : Desk.step t (styled (.setXf c p)) = some (setStyles t u) := by rw [step_styled, u1]; rfl
      simp only [memoBody, h1, Option.bind_some, hq, Option.join_some, he, hlk, hstep, Option.map_some]
    · intro x p' hm
      have := hc x p' hm
      show p' < u.xfs.length
      omega
  | none =>
    obtain ⟨u, u1, ⟨r, hr⟩, u3, u4, u5⟩ := Steps.calls h5.sound ⟨q, hq⟩ (ops k.1 k.2) fun o h => ⟨(ho o h).1, fun p hp => Nat.lt_of_lt_of_le ((ho o h).2 p hp) h4⟩
    refine ⟨u, cache ++ [((e.index, tag k.1 k.2 e.xf), r)], ?_, ⟨⟨(ops k.1 k.2).map fun o => .cell c o, ?_⟩, u3.trans h6, ?_⟩, ?_⟩
    · simp only [memoBody, h1, Option.bind_some, hq, Option.join_some, he, hlk, u1.run, hr, Option.map_some]
    · rw [List.map_map]
      exact h5.append u1
    · omega
    · intro x p' hm
      rw [List.mem_append, List.mem_singleton] at hm
      rcases hm with hm | hm
      · have := hc x p' hm
        omega
      · cases hm
        exact u1.sound.styles.live c r hr

end Xls.Free
