import Verif.Touch.Calls
import Verif.Free.Run
/-
One place of a range: what its cell gets, and that nothing else changes.
-/
namespace Xls.Touch
open Xls.Range (Rect RangeOp Cache each keys keys_nodup each_list colorOps boxTag boxOps)
open Xls.Whole Xls.Cells
open Xls.Styles (fv xv)
open Xls.Styles.Spec (Look)
open Xls.Xf (Xf)
open Xls.Mirror (Sound Able Live Meant Sane Well cellOp_vals markXf_vals unmarkXf_vals)
open Xls.Area (blankAt styled setStyles step_styled making after askPlace findOrBlank callBody fontBody memoBody onRange)
open Xls.Free (Steps found)

abbrev st (s : Desk.State) : Styles.State := s.prog.look.styles

/-! ### The cell at a place -/

theorem cellAt_eq {s : Desk.State} {A : Prog.Asked} (G : Sound s.prog A) (i : Nat) (k : Key) :
    cellAt s i k = (lastWrite A.look.writes i k.1 k.2).map (stamp i) := by
  have hsw := reach_sheets G.reach i
  unfold cellAt
  cases hw : lastWrite A.look.writes i k.1 k.2 with
  | some d =>
    have hp := Look.lastWrite_at hw
    exact (findCell_mem hsw.ordered _ _ _).mpr ⟨(hsw.cells _).mpr ⟨d, by show lastWrite _ i d.row d.col = _; rw [hp.1, hp.2, hw], rfl⟩, hp.1, hp.2⟩
  | none =>
    cases hf : (s.prog.look.book.sheets i).findCell k.1 k.2 with
    | none => rfl
    | some x =>
      obtain ⟨h1, h2, h3⟩ := (findCell_mem hsw.ordered _ _ _).mp hf
      obtain ⟨d, h4, -⟩ := (hsw.cells x).mp h1
      rw [h2, h3, hw] at h4
      cases h4

theorem cellAt_live {s : Desk.State} {A : Prog.Asked} (G : Sound s.prog A) {i : Nat} {k : Key} {x : WCell} (h : cellAt s i k = some x) : Live (st s) x.id := by
  rw [cellAt_eq G] at h
  obtain ⟨d, h1, rfl⟩ := Option.map_eq_some_iff.mp h
  exact G.live _ _ _ _ h1

theorem cellAt_inj {s : Desk.State} {A : Prog.Asked} (G : Sound s.prog A) {i j : Nat} {k k' : Key} {x y : WCell} (h : cellAt s i k = some x)
    (h' : cellAt s j k' = some y) (e : x.id = y.id) : i = j ∧ k = k' := by
  rw [cellAt_eq G] at h h'
  obtain ⟨d, h1, rfl⟩ := Option.map_eq_some_iff.mp h
  obtain ⟨d', h2, rfl⟩ := Option.map_eq_some_iff.mp h'
  obtain ⟨a, b, c⟩ := G.inj _ _ _ _ _ _ _ _ h1 h2 e
  exact ⟨a, Prod.ext b c⟩

/-- The format (its position) with which the cell `x` at a place starts: that of the cell there, or the default one of a new blank cell. -/
def Start (s : Desk.State) (i : Nat) (k : Key) (x : WCell) (q : Nat) : Prop :=
  (cellAt s i k = some x ∧ (st s).cells[x.id]? = some (some q)) ∨ (cellAt s i k = none ∧ x.val = (i, .blank) ∧ (st s).cells.length ≤ x.id ∧ q = 15)

/-- `t` is `s` with a cell at the place. -/
structure Made (i : Nat) (k : Key) (s t : Desk.State) (c : Nat) : Prop where
  fonts : fv (st t) = fv (st s)
  xfs : xv (st t) = xv (st s)
  cells : ∀ d, d < (st s).cells.length → (st t).cells[d]? = (st s).cells[d]?
  count : (st s).cells.length ≤ (st t).cells.length
  elsewhere : ∀ j k', ¬ (j = i ∧ k' = k) → cellAt t j k' = cellAt s j k'
  here : ∃ x q, cellAt t i k = some x ∧ x.id = c ∧ Start s i k x q ∧ (st t).cells[c]? = some (some q)

theorem newCell_vals (s : Styles.State) (q : Option Nat) :
    fv (Styles.newCell s q) = fv s ∧ xv (Styles.newCell s q) = xv s ∧ (Styles.newCell s q).cells = s.cells ++ [some (q.getD 15)] := by
  obtain ⟨a, b, c⟩ := markXf_vals { s with cells := s.cells ++ [some (q.getD 15)] } (q.getD 15)
  exact ⟨a, b, c⟩

theorem dead_nil {s : Desk.State} {A : Prog.Asked} (G : Sound s.prog A) {i : Nat} {k : Key} (hw : lastWrite A.look.writes i k.1 k.2 = none) (c : Cell Val)
    (hc : c.row = k.1 ∧ c.col = k.2) : Look.dead s.prog.look.book i c = [] := by
  obtain ⟨l, d, e, -, -, hd, -⟩ := addLoop_spec (stamp i c) (reach_sheets G.reach i).ordered (s.prog.look.book.sheets i).cells.length
  have hadd : ∃ S, (s.prog.look.book.sheets i).addCell (stamp i c) = some (S, d) := by
    unfold Cells.Sheet.addCell
    rw [e]
    exact ⟨_, rfl⟩
  obtain ⟨S, hadd⟩ := hadd
  have : d = [] := by
    rw [List.eq_nil_iff_forall_not_mem]
    intro x hx
    obtain ⟨h1, h2⟩ := (hd x).mp hx
    obtain ⟨w, h3, -⟩ := ((reach_sheets G.reach i).cells x).mp h1
    simp only [Cell.key, stamp, Prod.mk.injEq] at h2
    rw [h2.1, h2.2, hc.1, hc.2, hw] at h3
    cases h3
  unfold Look.dead
  rw [hadd, this]
  rfl

theorem found_made {s t : Desk.State} {A : Prog.Asked} (G : Sound s.prog A) (i : Nat) (hi : i < s.wb.sheets.length) (k : Key) {c : Nat}
    (h : findOrBlank s i k.1 k.2 = some (t, c)) : Made i k s t c := by
  have hce := cellAt_eq G i k
  unfold findOrBlank at h
  rw [show (s.prog.look.book.sheets i).findCell k.1 k.2 = cellAt s i k from rfl] at h
  cases hx : cellAt s i k with
  | some x =>
    rw [hx] at h
    cases h
    obtain ⟨q, hq⟩ := cellAt_live G hx
    exact ⟨rfl, rfl, fun _ _ => rfl, Nat.le_refl _, fun _ _ _ => rfl, x, q, hx, rfl, .inl ⟨hx, hq⟩, hq⟩
  | none =>
    rw [hx] at h hce
    have hw : lastWrite A.look.writes i k.1 k.2 = none := by
      cases hl : lastWrite A.look.writes i k.1 k.2 with
      | none => rfl
      | some d => rw [hl] at hce; cases hce
    obtain ⟨t', h1, h2⟩ := Option.map_eq_some_iff.mp h
    obtain ⟨rfl, rfl⟩ := Prod.mk.inj h2
    have hok : Able s.prog A (.look (.put i k.1 k.2 .blank none)) := fun r h => by cases h
    obtain ⟨p, p1, p2⟩ := G.step _ hok
    let t : Desk.State := { s with prog := p, used := Prog.put s.used i ((s.used i).extend k.1 k.2) }
    have hstep : Desk.step s (blankAt i k.1 k.2) = some t := by
      simp only [Desk.step, blankAt, Desk.target, Option.all_some, hi, decide_true, if_true, Desk.wbOp, Option.bind_some, p1, Option.map_some, Desk.place]
      rfl
    obtain rfl : t = t' := Option.some.inj (hstep.symm.trans h1)
    have hst : p.look.styles = Styles.newCell (st s) none := by
      clear hstep h1
      have hd := dead_nil G hw ⟨(st s).cells.length, k.1, k.2, .blank⟩ ⟨rfl, rfl⟩
      simp only [Prog.step, Look.step, hd, List.foldlM_nil, Option.pure_def, Option.map_some, Option.map_bind, Option.bind_eq_some_iff] at p1
      obtain ⟨b, -, h1⟩ := p1
      cases h1
      rfl
    obtain ⟨v1, v2, v3⟩ := newCell_vals (st s) none
    have G' : Sound t.prog (Prog.ask s.prog A (.look (.put i k.1 k.2 .blank none))) := p2
    have hat : ∀ j k', cellAt t j k' = if j = i ∧ k' = k then some (stamp i ⟨(st s).cells.length, k.1, k.2, .blank⟩) else cellAt s j k' := by
      intro j k'
      rw [cellAt_eq G', cellAt_eq G]
      simp only [Prog.ask, Look.ask, lastWrite_append]
      by_cases e : j = i ∧ k' = k
      · obtain ⟨rfl, rfl⟩ := e
        rw [if_pos ⟨rfl, rfl, rfl⟩, if_pos ⟨rfl, rfl⟩]
        rfl
      · rw [if_neg e, if_neg fun h => e ⟨h.1.symm, Prod.ext h.2.1.symm h.2.2.symm⟩]
    have hcells : (st t).cells = (st s).cells ++ [some 15] := by rw [show st t = _ from hst]; exact v3
    refine ⟨by rw [show st t = _ from hst]; exact v1, by rw [show st t = _ from hst]; exact v2, fun d hd => ?_, by rw [hcells]; simp, fun j k' e => by rw [hat, if_neg e],
      stamp i ⟨(st s).cells.length, k.1, k.2, .blank⟩, 15, by rw [hat, if_pos ⟨rfl, rfl⟩], rfl, .inr ⟨hx, rfl, Nat.le_refl _, rfl⟩, ?_⟩
    · rw [hcells, List.getElem?_append_left hd]
    · rw [hcells]; simp

/-! ### Formats -/

/-- The place `k` is done: its cell went through the format calls `ops`, and nothing else changed. -/
structure Touched (i : Nat) (ks : List Key) (ops : Key → List Xf.Op) (s t : Desk.State) : Prop where
  fonts : fv (st t) = fv (st s)
  old : ∀ q, q < (xv (st s)).length → (xv (st t))[q]? = (xv (st s))[q]?
  grows : (xv (st s)).length ≤ (xv (st t)).length
  cells : ∀ d, d < (st s).cells.length → (∀ k ∈ ks, ∀ x, cellAt s i k = some x → x.id ≠ d) → (st t).cells[d]? = (st s).cells[d]?
  count : (st s).cells.length ≤ (st t).cells.length
  elsewhere : ∀ j k', ¬ (j = i ∧ k' ∈ ks) → cellAt t j k' = cellAt s j k'
  here : ∀ k ∈ ks, ∃ x q z p y, cellAt t i k = some x ∧ Start s i k x q ∧ (xv (st s))[q]? = some z ∧ (st t).cells[x.id]? = some (some p) ∧ (xv (st t))[p]? = some y ∧
    chain z (ops k) = some y

theorem Touched.nil (i : Nat) (ops : Key → List Xf.Op) (s : Desk.State) : Touched i [] ops s s :=
  ⟨rfl, fun _ _ => rfl, Nat.le_refl _, fun _ _ _ => rfl, Nat.le_refl _, fun _ _ _ => rfl, fun _ h => by cases h⟩

theorem Touched.cons {i : Nat} {k : Key} {r : List Key} {ops : Key → List Xf.Op} {s u t : Desk.State} {A B : Prog.Asked} (G : Sound s.prog A) (Gu : Sound u.prog B)
    (hk : k ∉ r) (h1 : Touched i [k] ops s u) (h2 : Touched i r ops u t) : Touched i (k :: r) ops s t := by
  obtain ⟨x, q, z, p, y, a1, a2, a3, a4, a5, a6⟩ := h1.here k (by simp)
  have hu : ∀ k', k' ∈ r → cellAt u i k' = cellAt s i k' := fun k' hk' => h1.elsewhere i k' fun h => by
    have := h.2
    rw [List.mem_singleton] at this
    exact hk (this ▸ hk')
  refine ⟨h2.fonts.trans h1.fonts, fun q hq => (h2.old q (Nat.lt_of_lt_of_le hq h1.grows)).trans (h1.old q hq), Nat.le_trans h1.grows h2.grows, fun d hd hne => ?_,
    Nat.le_trans h1.count h2.count, fun j k' hne => ?_, fun k' hk' => ?_⟩
  · rw [h2.cells d (Nat.lt_of_lt_of_le hd h1.count) fun k' hk' x' hx' => hne k' (by simp [hk']) x' (by rw [← hu k' hk']; exact hx')]
    exact h1.cells d hd fun k' hk' => hne k' (by rw [List.mem_singleton] at hk'; simp [hk'])
  · rw [h2.elsewhere j k' fun h => hne ⟨h.1, by simp [h.2]⟩]
    exact h1.elsewhere j k' fun h => hne ⟨h.1, by rw [List.mem_singleton] at h; simp [h.2]⟩
  · replace hk' := List.mem_cons.mp hk'
    rcases hk' with rfl | hk'
    · refine ⟨x, q, z, p, y, by rw [h2.elsewhere i k' fun h => hk h.2]; exact a1, a2, a3, ?_, ?_, a6⟩
      · rw [h2.cells x.id (cellAt_live Gu a1).lt, a4]
        intro k'' hk'' x' hx' e
        exact hk ((cellAt_inj Gu hx' a1 e).2 ▸ hk'')
      · rw [h2.old p (List.getElem?_eq_some_iff.mp a5).1, a5]
    · obtain ⟨x', q', z', p', y', b1, b2, b3, b4, b5, b6⟩ := h2.here k' hk'
      refine ⟨x', q', z', p', y', b1, ?_, ?_, b4, b5, b6⟩
      · rcases b2 with ⟨c1, c2⟩ | ⟨c1, c2, c3, c4⟩
        · rw [hu k' hk'] at c1
          refine .inl ⟨c1, ?_⟩
          rw [← h1.cells x'.id (cellAt_live G c1).lt, c2]
          intro k'' hk'' x'' hx'' e
          rw [List.mem_singleton] at hk''
          subst hk''
          exact hk ((cellAt_inj G hx'' c1 e).2 ▸ hk')
        · rw [hu k' hk'] at c1
          exact .inr ⟨c1, c2, Nat.le_trans h1.count c3, c4⟩
      · have hq : q' < (xv (st s)).length := by
          rw [Styles.xv_len]
          rcases b2 with ⟨c1, c2⟩ | ⟨c1, c2, c3, c4⟩
          · rw [hu k' hk'] at c1
            refine G.styles.live x'.id q' ?_
            rw [← h1.cells x'.id (cellAt_live G c1).lt, c2]
            intro k'' hk'' x'' hx'' e
            rw [List.mem_singleton] at hk''
            subst hk''
            exact hk ((cellAt_inj G hx'' c1 e).2 ▸ hk')
          · have := G.styles.many
            rw [c4]
            show 15 < s.prog.look.styles.xfs.length
            omega
        rw [← h1.old q' hq, b3]

end Xls.Touch
