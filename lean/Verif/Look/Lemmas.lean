import Verif.Look.Spec
import Verif.Look.Names
/-
Every call keeps the cells on the sheets, their formats and the specification in step.
-/
namespace Xls.Look
open Xls.Whole Xls.Cells Xls.Biff
open Xls.Styles (Action)
open Xls.Styles.Spec (upd fontOf wantXf wantFont)

/-- The conditions of C29 on calls about styles, and the program does not itself delete a cell that is on a sheet; no more number
    formats than numbers for them (`c38_limit`). -/
def Ok (s : State) (A : Asked) : Call → Prop
  | .put _ _ _ _ q => Styles.Ok s.styles A.looks (.newCell q)
  | .style a => Styles.Ok s.styles A.looks a ∧ ∀ c, a = .destroy c → ∀ i row col d, lastWrite A.writes i row col = some d → d.id ≠ c
  | .format code => A.codes.length < 65372 ∧ code.length < 4096

structure Good (s : State) (A : Asked) : Prop where
  reach : Reach A.writes s.book
  styles : Styles.Good s.styles A.looks
  live : ∀ i row col d, lastWrite A.writes i row col = some d → ∃ l, A.looks.cells d.id = some l
  inj : ∀ i row col d j row' col' e, lastWrite A.writes i row col = some d → lastWrite A.writes j row' col' = some e → d.id = e.id →
    i = j ∧ row = row' ∧ col = col'
  short : Styles.Short s.styles
  formats : s.formats = A.codes.foldl NumFmt.add NumFmt.empty
  few : A.codes.length ≤ 65372
  codes : ∀ c ∈ A.codes, c.length < 4096

theorem lastWrite_at {h : List (Nat × Cell Val)} {i row col : Nat} {d : Cell Val} (hw : lastWrite h i row col = some d) : d.row = row ∧ d.col = col := by
  unfold lastWrite at hw
  obtain ⟨p, hp, rfl⟩ := Option.map_eq_some_iff.mp hw
  have := List.mem_of_getLast? hp
  simp only [List.mem_filter, Bool.and_eq_true, beq_iff_eq] at this
  exact this.2.2

theorem Good.lt {s : State} {A : Asked} (G : Good s A) {i row col : Nat} {d : Cell Val} (hw : lastWrite A.writes i row col = some d) :
    d.id < s.styles.cells.length := by
  obtain ⟨l, hl⟩ := G.live i row col d hw
  obtain ⟨q, e, h1, -⟩ := G.styles.cell hl
  exact (List.getElem?_eq_some_iff.mp h1).1

theorem Good.fresh {s : State} {A : Asked} (G : Good s A) : ¬ s.book.Live s.styles.cells.length := by
  rintro ⟨i, c, hc, e⟩
  obtain ⟨d, h1, rfl⟩ := ((reach_sheets G.reach i).cells c).mp hc
  have := G.lt h1
  simp only [stamp] at e
  omega

theorem eq_of_mem_iff {α : Type} {d : List α} {y : α} (hl : d.length ≤ 1) (h : ∀ x, x ∈ d ↔ x = y) : d = [y] := by
  cases d with
  | nil => exact absurd ((h y).mpr rfl) (by simp)
  | cons a r =>
    cases r with
    | nil => rw [(h a).mp (by simp)]
    | cons b r => simp at hl

/-- Writing a cell. -/
theorem sim_put {s : State} {A : Asked} (G : Good s A) (i row col : Nat) (v : Val) (q : Option Nat) (ok : Ok s A (.put i row col v q))
    (hmany : s.styles.fonts.length < 65535) :
    ∃ t, step s (.put i row col v q) = some t ∧ Good t (ask s A (.put i row col v q)) := by
  obtain ⟨t1, e1, G1⟩ := Styles.sim G.styles (.newCell q) ok hmany
  have S1 := G.short.step ok e1
  simp only [Styles.step, Option.some.injEq] at e1
  have hcells : ∀ x, x ≠ s.styles.cells.length → (Styles.Spec.step s.styles.cells.length A.looks (.newCell q)).cells x = A.looks.cells x := by
    intro x hx
    cases q <;> simp [Styles.Spec.step, upd, hx]
  have hnew : ∃ l, (Styles.Spec.step s.styles.cells.length A.looks (.newCell q)).cells s.styles.cells.length = some l := by
    cases q with
    | none => exact ⟨_, by simp [Styles.Spec.step, upd]; rfl⟩
    | some q =>
      obtain ⟨⟨l, hl⟩, -⟩ := ok
      exact ⟨l, by simp [Styles.Spec.step, upd, hl]⟩
  change Styles.Good t1 (Styles.Spec.step s.styles.cells.length A.looks (.newCell q)) at G1
  obtain ⟨l, d, e, ho, hm, hd, hlen⟩ := addLoop_spec (stamp i ⟨s.styles.cells.length, row, col, v⟩) (reach_sheets G.reach i).ordered (s.book.sheets i).cells.length
  obtain ⟨S, hadd⟩ : ∃ S, (s.book.sheets i).addCell (stamp i ⟨s.styles.cells.length, row, col, v⟩) = some (S, d) := by
    unfold Sheet.addCell
    rw [e]
    exact ⟨_, rfl⟩
  obtain ⟨b, hb⟩ : ∃ b, s.book.put i ⟨s.styles.cells.length, row, col, v⟩ = some b := by
    unfold Book.put
    rw [hadd]
    exact ⟨_, rfl⟩
  have hdead : dead s.book i ⟨s.styles.cells.length, row, col, v⟩ = d.map (·.id) := by
    unfold dead
    rw [hadd]
  have hr : Reach (A.writes ++ [(i, ⟨s.styles.cells.length, row, col, v⟩)]) b := .put G.reach G.fresh hb
  have hinj : ∀ i1 row1 col1 d1 j row' col' e1, lastWrite (A.writes ++ [(i, ⟨s.styles.cells.length, row, col, v⟩)]) i1 row1 col1 = some d1 →
      lastWrite (A.writes ++ [(i, ⟨s.styles.cells.length, row, col, v⟩)]) j row' col' = some e1 → d1.id = e1.id → i1 = j ∧ row1 = row' ∧ col1 = col' := by
    intro i1 row1 col1 d1 j row' col' e1 h1 h2 h3
    rw [lastWrite_append] at h1 h2
    split at h1 <;> split at h2
    · rename_i a b
      exact ⟨a.1.symm.trans b.1, a.2.1.symm.trans b.2.1, a.2.2.symm.trans b.2.2⟩
    · have := G.lt h2
      rw [← Option.some.inj h1] at h3
      simp only at h3
      omega
    · have := G.lt h1
      rw [← Option.some.inj h2] at h3
      simp only at h3
      omega
    · exact G.inj _ _ _ _ _ _ _ _ h1 h2 h3
  simp only [step, ask, hb, Option.bind_some, hdead]
  cases hw : lastWrite A.writes i row col with
  | none =>
    have : d = [] := by
      rw [List.eq_nil_iff_forall_not_mem]
      intro x hx
      obtain ⟨h1, h2⟩ := (hd x).mp hx
      obtain ⟨w, h3, -⟩ := ((reach_sheets G.reach i).cells x).mp h1
      simp only [Cell.key, stamp, Prod.mk.injEq] at h2
      rw [h2.1, h2.2, hw] at h3
      cases h3
    subst this
    refine ⟨⟨b, Styles.newCell s.styles q, s.formats⟩, by simp, hr, e1 ▸ G1, ?_, hinj, e1 ▸ S1, G.formats, G.few, G.codes⟩
    intro i1 row1 col1 d1 h1
    rw [lastWrite_append] at h1
    split at h1
    · rw [← Option.some.inj h1]; exact hnew
    · have := G.lt h1
      simp only
      rw [hcells _ (by omega)]
      exact G.live _ _ _ _ h1
  | some w =>
    have hwp := lastWrite_at hw
    have : d = [stamp i w] := by
      refine eq_of_mem_iff hlen fun x => ?_
      rw [hd]
      constructor
      · rintro ⟨h1, h2⟩
        obtain ⟨w', h3, h4⟩ := ((reach_sheets G.reach i).cells x).mp h1
        simp only [Cell.key, stamp, Prod.mk.injEq] at h2
        rw [h2.1, h2.2, hw] at h3
        rw [h4, Option.some.inj h3]
      · rintro rfl
        refine ⟨((reach_sheets G.reach i).cells _).mpr ⟨w, ?_, rfl⟩, ?_⟩
        · show lastWrite _ i w.row w.col = _
          rw [hwp.1, hwp.2, hw]
        · simp [Cell.key, stamp, hwp]
    subst this
    have hwl := G.lt hw
    have hwc : ∃ l, (Styles.Spec.step s.styles.cells.length A.looks (.newCell q)).cells w.id = some l := by
      rw [hcells _ (by omega)]
      exact G.live _ _ _ _ hw
    obtain ⟨t, e2, G2⟩ := Styles.sim_destroy G1 w.id hwc
    have S2 := S1.step (a := .destroy w.id) (A := Styles.Spec.step s.styles.cells.length A.looks (.newCell q)) hwc e2
    refine ⟨⟨b, t, s.formats⟩, by simp [e1, stamp, e2], hr, G2, ?_, hinj, S2, G.formats, G.few, G.codes⟩
    intro i1 row1 col1 d1 h1
    rw [lastWrite_append] at h1
    split at h1
    · rw [← Option.some.inj h1]
      simp only [upd]
      rw [if_neg (by omega)]
      exact hnew
    · rename_i hne
      have := G.lt h1
      simp only [upd]
      rw [if_neg (fun h => hne ?_), hcells _ (by omega)]
      · exact G.live _ _ _ _ h1
      · have := G.inj _ _ _ _ _ _ _ _ hw h1 h.symm
        exact ⟨this.1, this.2.1, this.2.2⟩

theorem font_known {s : State} {A : Asked} (G : Good s A) {c : Nat} {l : Styles.Spec.Look} (h : A.looks.cells c = some l) : ∃ f, fontOf A.looks l = some f := by
  obtain ⟨q, e, -, -, -, h4⟩ := G.styles.cell h
  have := h4.font
  unfold fontOf
  cases hf : l.font with
  | own f => exact ⟨f, rfl⟩
  | shared p =>
    rw [hf] at this
    exact this.2.2

/-- A call about styles. -/
theorem sim_style {s : State} {A : Asked} (G : Good s A) (a : Action) (ok : Ok s A (.style a)) (hmany : s.styles.fonts.length < 65535) :
    ∃ t, step s (.style a) = some t ∧ Good t (ask s A (.style a)) := by
  obtain ⟨t, e, G1⟩ := Styles.sim G.styles a ok.1 hmany
  refine ⟨{ s with styles := t }, by simp [step, e], G.reach, G1, ?_, G.inj, G.short.step ok.1 e, G.formats, G.few, G.codes⟩
  intro i row col d hw
  have hlt := G.lt hw
  obtain ⟨l, hl⟩ := G.live i row col d hw
  have ha := ok.1
  have hkeep : ∀ (c : Nat) (v : Option Styles.Spec.Look), (c = d.id → ∃ l, v = some l) → ∃ l, upd A.looks.cells c v d.id = some l := by
    intro c v hv
    unfold upd
    split
    · rename_i h; exact hv h.symm
    · exact ⟨l, hl⟩
  show ∃ l, (Styles.Spec.step (Styles.handle s.styles a) A.looks a).cells d.id = some l
  cases a with
  | newFont n => exact ⟨l, hl⟩
  | stockFont n => exact ⟨l, hl⟩
  | copyFont p => exact ⟨l, hl⟩
  | copyXf q => exact ⟨l, hl⟩
  | font p o => exact ⟨l, hl⟩
  | newXf => exact ⟨l, hl⟩
  | xf q o => exact ⟨l, hl⟩
  | newCell q =>
    cases q
    · exact hkeep _ _ (fun _ => ⟨_, rfl⟩)
    · exact hkeep _ _ (fun _ => ha.1)
  | destroy c => exact hkeep _ _ (fun h => absurd h.symm (ok.2 c rfl i row col d hw))
  | setXf c q => exact hkeep _ _ (fun _ => ha.2.1)
  | adopt c q ops => exact hkeep _ _ (fun h => ⟨_, by rw [h, hl]; rfl⟩)
  | cell c o => exact hkeep _ _ (fun h => ⟨_, by rw [h, hl]; rfl⟩)
  | cellFont c o =>
    refine hkeep _ _ (fun h => ?_)
    obtain ⟨f, hf⟩ := font_known G hl
    exact ⟨_, by rw [h, hl, Option.bind_some, Styles.Spec.onFontCall, hf]; rfl⟩

theorem sim {s : State} {A : Asked} (G : Good s A) (c : Call) (ok : Ok s A c) (hmany : s.styles.fonts.length < 65535) :
    ∃ t, step s c = some t ∧ Good t (ask s A c) := by
  cases c with
  | put i row col v q => exact sim_put G i row col v q ok hmany
  | style a => exact sim_style G a ok hmany
  | format code =>
    refine ⟨_, rfl, G.reach, G.styles, G.live, G.inj, G.short, ?_, ?_, ?_⟩
    · show NumFmt.add s.formats code = (A.codes ++ [code]).foldl _ _
      rw [List.foldl_append, ← G.formats]
      rfl
    · show (A.codes ++ [code]).length ≤ _
      have := ok.1
      rw [List.length_append, List.length_singleton]
      omega
    · intro c hc
      rcases List.mem_append.mp hc with hc | hc
      · exact G.codes c hc
      · rw [List.mem_singleton.mp hc]; exact ok.2

/-! ### Programs -/

/-- What a program asked for; new objects have the handles they really got. -/
def asked (s : State) (A : Asked) : List Call → Asked
  | [] => A
  | c :: r => match step s c with
    | none => A
    | some t => asked t (ask s A c) r

/-- The conditions along a program, and no more fonts than numbers for them. -/
def Fine (s : State) (A : Asked) : List Call → Prop
  | [] => True
  | c :: r => Ok s A c ∧ s.styles.fonts.length < 65535 ∧ ∀ t, step s c = some t → Fine t (ask s A c) r

theorem sim_all {s : State} {A : Asked} (G : Good s A) (calls : List Call) (hf : Fine s A calls) :
    ∃ t, steps s calls = some t ∧ Good t (asked s A calls) := by
  induction calls generalizing s A with
  | nil => exact ⟨s, rfl, G⟩
  | cons c r ih =>
    obtain ⟨h1, h2, h3⟩ := hf
    obtain ⟨t, t1, t2⟩ := sim G c h1 h2
    obtain ⟨u, u1, u2⟩ := ih t2 (h3 t t1)
    refine ⟨u, by rw [steps, t1, Option.bind_some, u1], ?_⟩
    rw [asked, t1]
    exact u2

/-- Nothing was asked for yet. -/
def nothing : Asked := ⟨[], Styles.Spec.start, []⟩

theorem init_good : ∃ s, init = some s ∧ Good s nothing := by
  obtain ⟨s, h1, h2⟩ := Styles.init_good
  refine ⟨{ styles := s }, by simp [init, h1], .start, h2, ?_, ?_, ?_, rfl, by simp [nothing], by simp [nothing]⟩
  · intro i row col d h; simp [nothing, lastWrite] at h
  · intro i row col d _ _ _ _ h; simp [nothing, lastWrite] at h
  · have : Styles.init.map (fun s => (Styles.fv s).all fun f => decide (f.name.length < 256)) = some true := by decide +kernel
    rw [h1] at this
    intro f hf
    have := List.all_eq_true.mp (Option.some.inj this) f hf
    simpa using this

end Xls.Look
