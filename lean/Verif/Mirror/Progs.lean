import Verif.Mirror.Steps
import Verif.Prog.Lemmas
/-
Programs on a whole workbook that hand over existing objects, whatever else they do with formats and fonts.
-/
namespace Xls.Mirror
open Xls.Whole Xls.Cells
open Xls.Page (Act)
open Xls.Prog (Slot slotOf give again put numbered number)
open Xls.Styles (Num fv xv)

/-- The objects a call names exist, its arguments have the right types, and the program does not delete cells, columns or rows of the sheets.  Nothing is
    said about what is shared, changed in use, replaced, or given up and taken again. -/
def Able (s : Prog.State) (A : Prog.Asked) : Prog.Call → Prop
  | .look (.put _ _ _ _ q) => ∀ r, q = some r → r < s.look.styles.xfs.length
  | .look (.style a) => Sane s.look.styles a ∧ ∀ c, a = .destroy c →
      (∀ i row col d, lastWrite A.look.writes i row col = some d → d.id ≠ c) ∧ ∀ k, s.held k ≠ some c
  | .look (.format code) => A.look.codes.length < 65372 ∧ code.length < 4096
  | .page i a => ∀ k q, slotOf i a = some (k, some q) → q < s.look.styles.xfs.length

structure Sound (s : Prog.State) (A : Prog.Asked) : Prop where
  reach : Reach A.look.writes s.look.book
  styles : Well s.look.styles
  live : ∀ i row col d, lastWrite A.look.writes i row col = some d → Live s.look.styles d.id
  inj : ∀ i row col d j row' col' e, lastWrite A.look.writes i row col = some d → lastWrite A.look.writes j row' col' = some e → d.id = e.id →
    i = j ∧ row = row' ∧ col = col'
  formats : s.look.formats = A.look.codes.foldl NumFmt.add NumFmt.empty
  few : A.look.codes.length ≤ 65372
  codes : ∀ c ∈ A.look.codes, c.length < 4096
  acts : s.acts = A.acts
  held : ∀ k c, s.held k = some c → Live s.look.styles c
  apart : ∀ k k' c, s.held k = some c → s.held k' = some c → k = k'
  placed : ∀ k c, s.held k = some c → ∀ i row col d, lastWrite A.look.writes i row col = some d → d.id ≠ c
  known : ∀ i, ∀ a ∈ A.acts i, ∀ k q, slotOf i a = some (k, some q) → q < s.look.styles.xfs.length

theorem Live.lt {s : Styles.State} {c : Nat} (h : Live s c) : c < s.cells.length := by
  obtain ⟨q, hq⟩ := h
  exact (List.getElem?_eq_some_iff.mp hq).1

theorem Sound.fresh {s : Prog.State} {A : Prog.Asked} (G : Sound s A) : ¬ s.look.book.Live s.look.styles.cells.length := by
  rintro ⟨i, c, hc, e⟩
  obtain ⟨d, h1, rfl⟩ := ((reach_sheets G.reach i).cells c).mp hc
  have := (G.live _ _ _ _ h1).lt
  simp only [stamp] at e
  omega

theorem newCell_live (s : Styles.State) (q : Option Nat) : Live (Styles.newCell s q) s.cells.length :=
  ⟨q.getD 15, by show (s.cells ++ [some (q.getD 15)])[s.cells.length]? = _; simp⟩

/-- Writing a cell. -/
theorem Sound.write {s : Prog.State} {A : Prog.Asked} (G : Sound s A) (i row col : Nat) (v : Val) (q : Option Nat) (ok : Able s A (.look (.put i row col v q))) :
    ∃ t, Prog.step s (.look (.put i row col v q)) = some t ∧ Sound t (Prog.ask s A (.look (.put i row col v q))) := by
  obtain ⟨t1, e1, W1, -, x1, n1, k1⟩ := G.styles.step (a := .newCell q) ok
  simp only [Styles.step, Option.some.injEq] at e1
  have hnew : Live t1 s.look.styles.cells.length := e1 ▸ newCell_live _ q
  have old : ∀ c, Live s.look.styles c → Live t1 c := fun c h => k1 c h (by simp)
  obtain ⟨l, d, e, ho, hm, hd, hlen⟩ := addLoop_spec (stamp i ⟨s.look.styles.cells.length, row, col, v⟩) (reach_sheets G.reach i).ordered
    (s.look.book.sheets i).cells.length
  obtain ⟨S, hadd⟩ : ∃ S, (s.look.book.sheets i).addCell (stamp i ⟨s.look.styles.cells.length, row, col, v⟩) = some (S, d) := by
    unfold Cells.Sheet.addCell
    rw [e]
    exact ⟨_, rfl⟩
  obtain ⟨b, hb⟩ : ∃ b, s.look.book.put i ⟨s.look.styles.cells.length, row, col, v⟩ = some b := by
    unfold Book.put
    rw [hadd]
    exact ⟨_, rfl⟩
  have hdead : Look.dead s.look.book i ⟨s.look.styles.cells.length, row, col, v⟩ = d.map (·.id) := by
    unfold Look.dead
    rw [hadd]
  have hr : Reach (A.look.writes ++ [(i, ⟨s.look.styles.cells.length, row, col, v⟩)]) b := .put G.reach G.fresh hb
  have hinj : ∀ i1 row1 col1 d1 j row' col' e1, lastWrite (A.look.writes ++ [(i, ⟨s.look.styles.cells.length, row, col, v⟩)]) i1 row1 col1 = some d1 →
      lastWrite (A.look.writes ++ [(i, ⟨s.look.styles.cells.length, row, col, v⟩)]) j row' col' = some e1 → d1.id = e1.id → i1 = j ∧ row1 = row' ∧ col1 = col' := by
    intro i1 row1 col1 d1 j row' col' e1 h1 h2 h3
    rw [lastWrite_append] at h1 h2
    split at h1 <;> split at h2
    · rename_i a b
      exact ⟨a.1.symm.trans b.1, a.2.1.symm.trans b.2.1, a.2.2.symm.trans b.2.2⟩
    · have := (G.live _ _ _ _ h2).lt
      rw [← Option.some.inj h1] at h3
      simp only at h3
      omega
    · have := (G.live _ _ _ _ h1).lt
      rw [← Option.some.inj h2] at h3
      simp only at h3
      omega
    · exact G.inj _ _ _ _ _ _ _ _ h1 h2 h3
  have hplaced : ∀ k c, s.held k = some c → ∀ i1 row1 col1 d1,
      lastWrite (A.look.writes ++ [(i, ⟨s.look.styles.cells.length, row, col, v⟩)]) i1 row1 col1 = some d1 → d1.id ≠ c := by
    intro k c hk i1 row1 col1 d1 hw
    rw [lastWrite_append] at hw
    split at hw
    · have := (G.held k c hk).lt
      rw [← Option.some.inj hw]
      exact Nat.ne_of_gt this
    · exact G.placed k c hk _ _ _ _ hw
  simp only [Prog.step, Prog.ask, Look.step, Look.ask, hb, Option.bind_some, hdead]
  cases hw : lastWrite A.look.writes i row col with
  | none =>
    have : d = [] := by
      rw [List.eq_nil_iff_forall_not_mem]
      intro x hx
      obtain ⟨h1, h2⟩ := (hd x).mp hx
      obtain ⟨w, h3, -⟩ := ((reach_sheets G.reach i).cells x).mp h1
      simp only [Cell.key, stamp, Prod.mk.injEq] at h2
      rw [h2.1, h2.2, hw] at h3
      cases h3
    subst this
    refine ⟨{ s with look := ⟨b, Styles.newCell s.look.styles q, s.look.formats⟩ }, by simp, hr, e1 ▸ W1, ?_, hinj, G.formats, G.few, G.codes, G.acts, fun k c h => e1 ▸ old c (G.held k c h), G.apart, hplaced, ?_⟩
    · intro i1 row1 col1 d1 h1
      rw [lastWrite_append] at h1
      split at h1
      · rw [← Option.some.inj h1]; exact e1 ▸ hnew
      · exact e1 ▸ old _ (G.live _ _ _ _ h1)
    · intro j a ha k q' hq
      exact e1 ▸ Nat.lt_of_lt_of_le (G.known j a ha k q' hq) x1
  | some w =>
    have hwp := Look.lastWrite_at hw
    have : d = [stamp i w] := by
      refine Look.eq_of_mem_iff hlen fun x => ?_
      rw [hd]
      constructor
      · rintro ⟨h1, h2⟩
        obtain ⟨w', h3, h4⟩ := ((reach_sheets G.reach i).cells x).mp h1
        simp only [Cell.key, stamp, Prod.mk.injEq] at h2
        rw [h2.1, h2.2, hw] at h3
        rw [h4, Option.some.inj h3]
      · rintro rfl
        refine ⟨((reach_sheets G.reach i).cells _).mpr ⟨w, ?_, rfl⟩, ?_⟩
        · show lastWrite _ i w.row w.col = _
          rw [hwp.1, hwp.2, hw]
        · simp [Cell.key, stamp, hwp]
    subst this
    have hwl := G.live _ _ _ _ hw
    obtain ⟨t, e2, W2, -, x2, n2, k2⟩ := W1.step (a := .destroy w.id) (old _ hwl)
    have hwlt := hwl.lt
    refine ⟨{ s with look := ⟨b, t, s.look.formats⟩ }, by simp [e1, stamp, show Styles.destroy t1 w.id = some t from e2], hr, W2, ?_, hinj, G.formats, G.few, G.codes, G.acts, ?_, G.apart, hplaced, ?_⟩
    · intro i1 row1 col1 d1 h1
      rw [lastWrite_append] at h1
      split at h1
      · rw [← Option.some.inj h1]
        refine k2 _ hnew ?_
        intro e
        simp only [Styles.Action.destroy.injEq] at e
        omega
      · rename_i hne
        refine k2 _ (old _ (G.live _ _ _ _ h1)) ?_
        intro e
        simp only [Styles.Action.destroy.injEq] at e
        have := G.inj _ _ _ _ _ _ _ _ hw h1 e
        exact hne ⟨this.1, this.2.1, this.2.2⟩
    · intro k c h
      refine k2 c (old c (G.held k c h)) ?_
      intro e
      simp only [Styles.Action.destroy.injEq] at e
      exact G.placed k c h _ _ _ _ hw e
    · intro j a ha k q' hq
      have := G.known j a ha k q' hq
      exact Nat.lt_of_lt_of_le this (Nat.le_trans x1 x2)

/-- A change of the style objects that keeps all of them, and every cell, column and row that is on a sheet. -/
theorem Sound.styled {s : Prog.State} {A : Prog.Asked} (G : Sound s A) {t : Styles.State} (W : Well t) (hx : s.look.styles.xfs.length ≤ t.xfs.length)
    (h1 : ∀ i row col d, lastWrite A.look.writes i row col = some d → Live t d.id) {held : Slot → Option Nat} (h2 : ∀ k c, held k = some c → Live t c)
    (h3 : ∀ k k' c, held k = some c → held k' = some c → k = k')
    (h4 : ∀ k c, held k = some c → ∀ i row col d, lastWrite A.look.writes i row col = some d → d.id ≠ c) (looks : Styles.Spec.State) :
    Sound { s with look := { s.look with styles := t }, held := held } { A with look := { A.look with looks := looks } } :=
  ⟨G.reach, W, h1, G.inj, G.formats, G.few, G.codes, G.acts, h2, h3, h4, fun i a ha k q hq => Nat.lt_of_lt_of_le (G.known i a ha k q hq) hx⟩

theorem Sound.look {s : Prog.State} {A : Prog.Asked} (G : Sound s A) (c : Look.Call) (ok : Able s A (.look c)) :
    ∃ t, Prog.step s (.look c) = some t ∧ Sound t (Prog.ask s A (.look c)) := by
  cases c with
  | put i row col v q => exact G.write i row col v q ok
  | style a =>
    obtain ⟨t, e, W, -, x, -, k⟩ := G.styles.step ok.1
    refine ⟨_, by simp only [Prog.step, Look.step, e, Option.map_some], G.styled W x (fun i row col d hw => ?_) (fun k' c hc => ?_) G.apart G.placed _⟩
    · refine k _ (G.live _ _ _ _ hw) fun e => ?_
      exact (ok.2 _ e).1 _ _ _ _ hw rfl
    · exact k _ (G.held _ _ hc) fun e => (ok.2 _ e).2 k' hc
  | format code =>
    refine ⟨_, rfl, G.reach, G.styles, G.live, G.inj, ?_, ?_, ?_, G.acts, G.held, G.apart, G.placed, G.known⟩
    · show NumFmt.add s.look.formats code = (A.look.codes ++ [code]).foldl _ _
      rw [List.foldl_append, ← G.formats]
      rfl
    · show (A.look.codes ++ [code]).length ≤ _
      have := ok.1
      rw [List.length_append, List.length_singleton]
      omega
    · intro c hc
      rcases List.mem_append.mp hc with hc | hc
      · exact G.codes c hc
      · rw [List.mem_singleton.mp hc]; exact ok.2

/-- Giving up a format a second time changes usage counters only. -/
theorem again_fine {k : Slot} {old : Nat} {st : Styles.State} (W : Well st) (h : old < st.xfs.length) :
    ∃ t, again k (some old) st = some t ∧ Well t ∧ t.xfs.length = st.xfs.length ∧ t.cells = st.cells := by
  unfold again
  by_cases hk : k.row
  · rw [if_pos hk, Option.bind_some]
    obtain ⟨t, t1, t2, t3, t4⟩ := unmarkXf_vals h
    have hxl : t.xfs.length = st.xfs.length := by rw [← Styles.xv_len, t3, Styles.xv_len]
    exact ⟨t, t1, ⟨W.num.unmarkXf t1, by rw [t2]; exact W.fonts, by rw [t3]; exact W.xfs, by rw [t4, hxl]; exact W.live, by rw [hxl]; exact W.many⟩, hxl, t4⟩
  · rw [if_neg hk]
    exact ⟨st, rfl, W, rfl, rfl⟩

theorem Sound.give {s : Prog.State} {A : Prog.Asked} (G : Sound s A) (k : Slot) (x : Option Nat) (hx : ∀ q, x = some q → q < s.look.styles.xfs.length) :
    ∃ t, Prog.give s k x = some t ∧ Sound t A ∧ t.acts = s.acts ∧ s.look.styles.xfs.length ≤ t.look.styles.xfs.length := by
  have hid : ∀ looks, looks = A.look.looks → ({ A with look := { A.look with looks := looks } } : Prog.Asked) = A := by rintro _ rfl; rfl
  cases hk : s.held k with
  | none =>
    cases x with
    | none => exact ⟨s, by simp only [Prog.give, hk], G, rfl, Nat.le_refl _⟩
    | some q =>
      obtain ⟨t, e, W, -, xl, -, keep⟩ := G.styles.step (a := .newCell (some q)) (fun r hr => hx r hr)
      simp only [Styles.step, Option.some.injEq] at e
      subst e
      have hself : put s.held k (some s.look.styles.cells.length) k = some s.look.styles.cells.length := by simp [put]
      have hput : ∀ k', k' ≠ k → put s.held k (some s.look.styles.cells.length) k' = s.held k' := fun k' h => by simp [put, h]
      have split : ∀ k' c, put s.held k (some s.look.styles.cells.length) k' = some c →
          (k' = k ∧ c = s.look.styles.cells.length) ∨ (k' ≠ k ∧ s.held k' = some c) := by
        intro k' c h
        by_cases e : k' = k
        · subst e; rw [hself] at h; exact .inl ⟨rfl, (Option.some.inj h).symm⟩
        · rw [hput k' e] at h; exact .inr ⟨e, h⟩
      refine ⟨{ s with look := { s.look with styles := Styles.newCell s.look.styles (some q) }, held := put s.held k (some s.look.styles.cells.length) },
        by simp only [Prog.give, hk], hid _ rfl ▸ G.styled W xl (fun i row col d hw => keep _ (G.live _ _ _ _ hw) (by simp)) ?_ ?_ ?_ A.look.looks,
        rfl, xl⟩
      · intro k' c h
        rcases split k' c h with ⟨-, rfl⟩ | ⟨-, h⟩
        · exact newCell_live _ _
        · exact keep _ (G.held _ _ h) (by simp)
      · intro k1 k2 c h1 h2
        rcases split k1 c h1 with ⟨e1, f1⟩ | ⟨e1, f1⟩ <;> rcases split k2 c h2 with ⟨e2, f2⟩ | ⟨e2, f2⟩
        · rw [e1, e2]
        · have := (G.held _ _ f2).lt; omega
        · have := (G.held _ _ f1).lt; omega
        · exact G.apart _ _ _ f1 f2
      · intro k' c h i row col d hw
        rcases split k' c h with ⟨-, rfl⟩ | ⟨-, h⟩
        · exact Nat.ne_of_lt (G.live _ _ _ _ hw).lt
        · exact G.placed _ _ h _ _ _ _ hw
  | some c =>
    obtain ⟨old, hold⟩ := G.held k c hk
    have holt := G.styles.live c old hold
    cases x with
    | none =>
      obtain ⟨t, e, W, -, xl, -, keep⟩ := G.styles.step (a := .destroy c) ⟨old, hold⟩
      obtain ⟨u, u1, u2, u3, u4⟩ := again_fine (k := k) W (Nat.lt_of_lt_of_le holt xl)
      have live : ∀ d, Live s.look.styles d → d ≠ c → Live u d := by
        intro d hd hne
        unfold Live
        rw [u4]
        exact keep d hd (fun e => hne (by cases e; rfl))
      have hof : ∀ k' c', put s.held k none k' = some c' → k' ≠ k ∧ s.held k' = some c' := by
        intro k' c' h
        by_cases e : k' = k
        · subst e; simp [put] at h
        · exact ⟨e, by simpa [put, e] using h⟩
      refine ⟨{ s with look := { s.look with styles := u }, held := put s.held k none },
        by simp only [Prog.give, hk, show Styles.destroy s.look.styles c = some t from e, hold, Option.bind_some, Option.join_some, u1, Option.map_some],
        hid _ rfl ▸ G.styled u2 (by omega) (fun i row col d hw => live _ (G.live _ _ _ _ hw) (G.placed k c hk _ _ _ _ hw)) ?_ ?_ ?_ A.look.looks, rfl, by
          show _ ≤ u.xfs.length; omega⟩
      · intro k' c' h
        obtain ⟨h1, h2⟩ := hof k' c' h
        exact live c' (G.held _ _ h2) (fun e => h1 (G.apart k' k c (e ▸ h2) hk))
      · intro k1 k2 c' h1 h2
        exact G.apart _ _ _ (hof _ _ h1).2 (hof _ _ h2).2
      · intro k' c' h
        exact G.placed _ _ (hof _ _ h).2
    | some q =>
      obtain ⟨t, e, W, -, xl, -, keep⟩ := G.styles.step (a := .setXf c q) ⟨⟨old, hold⟩, hx q rfl⟩
      obtain ⟨u, u1, u2, u3, u4⟩ := again_fine (k := k) W (Nat.lt_of_lt_of_le holt xl)
      have live : ∀ d, Live s.look.styles d → Live u d := by
        intro d hd
        unfold Live
        rw [u4]
        exact keep d hd (by simp)
      exact ⟨{ s with look := { s.look with styles := u } },
        by simp only [Prog.give, hk, show Styles.setXf s.look.styles c q = some t from e, hold, Option.bind_some, Option.join_some, u1, Option.map_some],
        hid _ rfl ▸ G.styled u2 (by omega) (fun i row col d hw => live _ (G.live _ _ _ _ hw)) (fun k' c' h => live _ (G.held _ _ h)) G.apart G.placed A.look.looks,
        rfl, by show _ ≤ u.xfs.length; omega⟩

theorem Sound.page {s : Prog.State} {A : Prog.Asked} (G : Sound s A) (i : Nat) (a : Act) (ok : Able s A (.page i a)) :
    ∃ t, Prog.step s (.page i a) = some t ∧ Sound t (Prog.ask s A (.page i a)) := by
  have fin : ∀ u : Prog.State, Sound u A → s.look.styles.xfs.length ≤ u.look.styles.xfs.length →
      Sound { u with acts := put u.acts i (u.acts i ++ [a]) } (Prog.ask s A (.page i a)) := by
    intro u u2 u4
    refine ⟨u2.reach, u2.styles, u2.live, u2.inj, u2.formats, u2.few, u2.codes, ?_, u2.held, u2.apart, u2.placed, ?_⟩
    · show put u.acts i (u.acts i ++ [a]) = put A.acts i (A.acts i ++ [a])
      rw [u2.acts]
    · intro j b hb k q hq
      change b ∈ put A.acts i (A.acts i ++ [a]) j at hb
      simp only [put] at hb
      by_cases e : j = i
      · rw [if_pos e] at hb
        rcases List.mem_append.mp hb with hb | hb
        · exact u2.known j b (e ▸ hb) k q hq
        · rw [List.mem_singleton.mp hb, e] at hq
          exact Nat.lt_of_lt_of_le (ok k q hq) u4
      · rw [if_neg e] at hb
        exact u2.known j b hb k q hq
  cases hs : slotOf i a with
  | none => exact ⟨_, by simp only [Prog.step, hs, Option.map_some], fin s G (Nat.le_refl _)⟩
  | some p =>
    obtain ⟨k, x⟩ := p
    obtain ⟨u, u1, u2, -, u4⟩ := G.give k x (fun q hq => ok k q (by rw [hs, hq]))
    exact ⟨_, by simp only [Prog.step, hs, u1, Option.map_some], fin u u2 u4⟩

theorem Sound.step {s : Prog.State} {A : Prog.Asked} (G : Sound s A) (c : Prog.Call) (ok : Able s A c) :
    ∃ t, Prog.step s c = some t ∧ Sound t (Prog.ask s A c) := by
  cases c with
  | look c => exact G.look c ok
  | page i a => exact G.page i a ok

/-- The conditions along a program. -/
def AllAble (s : Prog.State) (A : Prog.Asked) : List Prog.Call → Prop
  | [] => True
  | c :: r => Able s A c ∧ ∀ t, Prog.step s c = some t → AllAble t (Prog.ask s A c) r

theorem Sound.steps {s : Prog.State} {A : Prog.Asked} (G : Sound s A) (calls : List Prog.Call) (hf : AllAble s A calls) :
    ∃ t, Prog.steps s calls = some t ∧ Sound t (Prog.asked s A calls) := by
  induction calls generalizing s A with
  | nil => exact ⟨s, rfl, G⟩
  | cons c r ih =>
    obtain ⟨t, t1, t2⟩ := G.step c hf.1
    obtain ⟨u, u1, u2⟩ := ih t2 (hf.2 t t1)
    refine ⟨u, by rw [Prog.steps, t1, Option.bind_some, u1], ?_⟩
    rw [Prog.asked, t1]
    exact u2

theorem init_sound : ∃ s, Prog.init = some s ∧ Sound s Prog.nothing := by
  obtain ⟨s, h1, h2⟩ := init_well
  refine ⟨⟨{ styles := s }, fun _ => none, fun _ => []⟩, by simp [Prog.init, Look.init, h1], .start, h2, ?_, ?_, rfl, by simp [Prog.nothing, Look.nothing],
    by simp [Prog.nothing, Look.nothing], rfl, ?_, ?_, ?_, ?_⟩
  · intro i row col d h; simp [Prog.nothing, Look.nothing, lastWrite] at h
  · intro i row col d _ _ _ _ h; simp [Prog.nothing, Look.nothing, lastWrite] at h
  · intro k c h; cases h
  · intro k k' c h; cases h
  · intro k c h; cases h
  · intro i a ha; cases ha

end Xls.Mirror
