import Verif.Area.Spec
import Verif.Area.Count
import Verif.Range.Props
import Verif.Prog.Lemmas
import Verif.Desk.Lemmas
/-
An operation on a range does what plain calls on the cells of the rectangle do.
-/
namespace Xls.Area
open Xls.Range (Rect RangeOp Cache each keys okLoop ArgsOk Room colorOps boxTag boxOps)
open Xls.Range.Spec (rangeCalls fontCall)
open Xls.Whole Xls.Cells
open Xls.Styles (fv xv Looks seqRun)
open Xls.Styles.Spec (Look plain upd onCall onFontCall)
open Xls.Xf (Xf)

/-- The workbook with other styles. -/
def setStyles (s : Desk.State) (t : Styles.State) : Desk.State :=
  { s with prog := { s.prog with look := { s.prog.look with styles := t } } }

theorem step_styled (s : Desk.State) (a : Styles.Action) :
    Desk.step s (styled a) = (Styles.step s.prog.look.styles a).map (setStyles s) := by
  simp [Desk.step, styled, Desk.target, Desk.wbOp, Desk.place, Prog.step, Look.step, Option.map_map]
  rfl

/-- What was asked for, with another look of one cell. -/
def setLook (A : Prog.Asked) (c : Nat) (l : Look) : Prog.Asked :=
  { A with look := { A.look with looks := { A.look.looks with cells := upd A.look.looks.cells c (some l) } } }

/-- Plain calls that make `t` of `s` and ask for `A'` when `A` was asked for. -/
structure Plain (s : Desk.State) (A : Prog.Asked) (calls : List Desk.Call) (t : Desk.State) (A' : Prog.Asked) : Prop where
  run : Desk.steps s calls = some t
  inner : Prog.steps s.prog (calls.filterMap Desk.Call.inner) = some t.prog
  fine : Prog.Fine s.prog A (calls.filterMap Desk.Call.inner)
  asked : Prog.asked s.prog A (calls.filterMap Desk.Call.inner) = A'
  good : Prog.Good t.prog A'
  wb : t.wb = s.wb

theorem Plain.nil {s : Desk.State} {A : Prog.Asked} (G : Prog.Good s.prog A) : Plain s A [] s A := ⟨rfl, rfl, trivial, rfl, G, rfl⟩

theorem Plain.cons {s t u : Desk.State} {A A' : Prog.Asked} {c : Prog.Call} {r : List Desk.Call} (h1 : Desk.step s (.on c) = some t)
    (h2 : Prog.step s.prog c = some t.prog) (h3 : Prog.Ok s.prog A c) (h4 : s.prog.look.styles.fonts.length < 65535) (h5 : t.wb = s.wb)
    (h : Plain t (Prog.ask s.prog A c) r u A') : Plain s A (.on c :: r) u A' := by
  refine ⟨?_, ?_, ?_, ?_, h.good, h.wb.trans h5⟩
  · rw [Desk.steps, h1]; exact h.run
  · show Prog.steps s.prog (c :: r.filterMap Desk.Call.inner) = _
    rw [Prog.steps, h2]
    exact h.inner
  · refine ⟨h3, h4, fun t' ht => ?_⟩
    rw [h2] at ht
    obtain rfl := Option.some.inj ht
    exact h.fine
  · show Prog.asked s.prog A (c :: r.filterMap Desk.Call.inner) = _
    rw [Prog.asked, h2]
    exact h.asked

/-- One call on styles. -/
theorem Plain.style {s : Desk.State} {A : Prog.Asked} (G : Prog.Good s.prog A) {a : Styles.Action} (ha : Look.Ok s.prog.look A.look (.style a))
    (hm : s.prog.look.styles.fonts.length < 65535) {t : Styles.State} (ht : Styles.step s.prog.look.styles a = some t) {A' : Prog.Asked}
    (hA : Prog.ask s.prog A (.look (.style a)) = A') {r : List Desk.Call} {u : Desk.State} {A'' : Prog.Asked}
    (h : Prog.Good (setStyles s t).prog A' → Plain (setStyles s t) A' r u A'') : Plain s A (styled a :: r) u A'' := by
  have hp : Prog.step s.prog (.look (.style a)) = some (setStyles s t).prog := by simp [Prog.step, Look.step, ht, setStyles]
  refine Plain.cons (t := setStyles s t) (c := .look (.style a)) (by rw [← styled, step_styled, ht]; rfl) hp ⟨ha, trivial⟩ hm rfl ?_
  obtain ⟨t', h1, h2⟩ := Prog.sim_look G (.style a) ha hm
  rw [hp] at h1
  obtain rfl := Option.some.inj h1
  rw [hA]
  exact h (hA ▸ h2)

/-! ### The cell -/

theorem dead_nil {s : Look.State} {B : Look.Asked} (G : Look.Good s B) {i row col : Nat} (hw : lastWrite B.writes i row col = none) (v : Val) (n : Nat) :
    Look.dead s.book i ⟨n, row, col, v⟩ = [] := by
  obtain ⟨l, d, e, ho, hm, hd, hlen⟩ := addLoop_spec (stamp i ⟨n, row, col, v⟩) (reach_sheets G.reach i).ordered (s.book.sheets i).cells.length
  have hadd : ∃ S, (s.book.sheets i).addCell (stamp i ⟨n, row, col, v⟩) = some (S, d) := by
    unfold Sheet.addCell
    rw [e]
    exact ⟨_, rfl⟩
  obtain ⟨S, hadd⟩ := hadd
  unfold Look.dead
  rw [hadd]
  have : d = [] := by
    rw [List.eq_nil_iff_forall_not_mem]
    intro x hx
    obtain ⟨h1, h2⟩ := (hd x).mp hx
    obtain ⟨w, h3, -⟩ := ((reach_sheets G.reach i).cells x).mp h1
    simp only [Cell.key, stamp, Prod.mk.injEq] at h2
    rw [h2.1, h2.2, hw] at h3
    cases h3
  rw [this]
  rfl

/-- What was asked for when a place without a cell gets a blank one. -/
def withBlank (n : Nat) (A : Prog.Asked) (i : Nat) (k : Key) : Prog.Asked :=
  { A with look := { A.look with writes := A.look.writes ++ [(i, ⟨n, k.1, k.2, .blank⟩)]
                                 looks := { A.look.looks with cells := upd A.look.looks.cells n (some plain) } } }

/-- The calls that make a cell. -/
def making (A : Prog.Asked) (i : Nat) (k : Key) : List Desk.Call :=
  match lastWrite A.look.writes i k.1 k.2 with
  | some _ => []
  | none => [blankAt i k.1 k.2]

theorem found {s : Desk.State} {A : Prog.Asked} (G : Prog.Good s.prog A) (i : Nat) (hi : i < s.wb.sheets.length) (k : Key)
    (hm : s.prog.look.styles.fonts.length < 65535) :
    ∃ t c A1 l, findOrBlank s i k.1 k.2 = some (t, c) ∧ Plain s A (making A i k) t A1 ∧ A1.look.looks.cells c = some l ∧
      (∃ d, lastWrite A1.look.writes i k.1 k.2 = some d ∧ d.id = c) ∧ A1.look.looks.fonts = A.look.looks.fonts ∧ A1.acts = A.acts ∧
      (∀ i' (k' : Key), ¬ (i' = i ∧ k' = k) → lastWrite A1.look.writes i' k'.1 k'.2 = lastWrite A.look.writes i' k'.1 k'.2) ∧
      (t.prog.look.styles = s.prog.look.styles ∨ t.prog.look.styles = Styles.newCell s.prog.look.styles none) ∧
      ∀ f, askPlace i f (s.prog.look.styles.cells.length, A.look) k = (t.prog.look.styles.cells.length, (setLook A1 c (f k l)).look) := by
  obtain ⟨B, GB, ag⟩ := G.look
  have hsw := reach_sheets GB.reach i
  rw [ag.writes] at hsw
  unfold findOrBlank making askPlace
  cases hw : lastWrite A.look.writes i k.1 k.2 with
  | some d =>
    have hp := Look.lastWrite_at hw
    have hf : (s.prog.look.book.sheets i).findCell k.1 k.2 = some (stamp i d) :=
      (findCell_mem hsw.ordered _ _ _).mpr ⟨(hsw.cells _).mpr ⟨d, by show lastWrite _ i d.row d.col = _; rw [hp.1, hp.2, hw], rfl⟩, hp.1, hp.2⟩
    obtain ⟨l, hl⟩ := GB.live i k.1 k.2 d (by rw [ag.writes, hw])
    rw [ag.cells d.id (fun k' hk' => G.placed k' d.id hk' i _ _ d hw rfl)] at hl
    refine ⟨s, d.id, A, l, by rw [hf]; rfl, Plain.nil G, hl, ⟨d, hw, rfl⟩, rfl, rfl, fun _ _ _ => rfl, .inl rfl, fun f => ?_⟩
    simp only [hl, Option.map_some]
    rfl
  | none =>
    have hf : (s.prog.look.book.sheets i).findCell k.1 k.2 = none := by
      cases hf : (s.prog.look.book.sheets i).findCell k.1 k.2 with
      | none => rfl
      | some x =>
        obtain ⟨h1, h2, h3⟩ := (findCell_mem hsw.ordered _ _ _).mp hf
        obtain ⟨d, h4, -⟩ := (hsw.cells x).mp h1
        rw [h2, h3, hw] at h4
        cases h4
    have hok : Look.Ok s.prog.look A.look (.put i k.1 k.2 .blank none) := trivial
    obtain ⟨p, p1, p2⟩ := Prog.sim_look G _ hok hm
    have hA : Prog.ask s.prog A (.look (.put i k.1 k.2 .blank none)) = withBlank s.prog.look.styles.cells.length A i k := by
      simp only [Prog.ask, Look.ask, hw]
      rfl
    have hst : p.look.styles = Styles.newCell s.prog.look.styles none := by
      simp only [Prog.step, Look.step, dead_nil GB (ag.writes ▸ hw), List.foldlM_nil] at p1
      obtain ⟨q, q1, rfl⟩ := Option.map_eq_some_iff.mp p1
      obtain ⟨b, -, q2⟩ := Option.bind_eq_some_iff.mp q1
      have : some (⟨b, Styles.newCell s.prog.look.styles none, s.prog.look.formats⟩ : Look.State) = some q := q2
      rw [← Option.some.inj this]
    let t : Desk.State := { s with prog := p, used := Prog.put s.used i ((s.used i).extend k.1 k.2) }
    have hstep : Desk.step s (blankAt i k.1 k.2) = some t := by
      simp only [Desk.step, blankAt, Desk.target, Option.all_some, hi, decide_true, if_true, Desk.wbOp, Option.bind_some, p1, Option.map_some, Desk.place]
      rfl
    have hlen : t.prog.look.styles.cells.length = s.prog.look.styles.cells.length + 1 := by
      show p.look.styles.cells.length = _
      rw [hst]
      exact List.length_append
    refine ⟨t, s.prog.look.styles.cells.length, withBlank s.prog.look.styles.cells.length A i k, plain, by rw [hf]; simp only [hstep, Option.map_some],
      ?_, by simp [withBlank, upd], ⟨⟨s.prog.look.styles.cells.length, k.1, k.2, .blank⟩, by simp [withBlank, lastWrite_append], rfl⟩, rfl, rfl, ?_, .inr hst, fun f => ?_⟩
    · exact Plain.cons hstep p1 ⟨hok, trivial⟩ hm rfl (hA ▸ Plain.nil p2)
    · intro i' k' hne
      simp only [withBlank, lastWrite_append]
      rw [if_neg]
      rintro ⟨rfl, h1, h2⟩
      exact hne ⟨rfl, Prod.ext h1.symm h2.symm⟩
    · simp only [hlen, setLook, withBlank, Range.upd_upd]

/-! ### Its format -/

theorem ask_cell {s : Prog.State} {A : Prog.Asked} {c : Nat} {l : Look} (hl : A.look.looks.cells c = some l) (o : Xf.Op) :
    Prog.ask s A (.look (.style (.cell c o))) = setLook A c (onCall l o) := by
  simp only [Prog.ask, Look.ask, Styles.Spec.step, hl, Option.map_some]
  rfl

theorem ask_adopt {s : Prog.State} {A : Prog.Asked} {c : Nat} {l : Look} (hl : A.look.looks.cells c = some l) (p : Nat) (ops : List Xf.Op) :
    Prog.ask s A (.look (.style (.adopt c p ops))) = setLook A c (ops.foldl onCall l) := by
  simp only [Prog.ask, Look.ask, Styles.Spec.step, hl, Option.map_some]
  rfl

theorem ask_font {s : Prog.State} {A : Prog.Asked} (G : Prog.Good s A) {c : Nat} {l : Look} (hl : A.look.looks.cells c = some l) (o : Font.FOp) :
    Prog.ask s A (.look (.style (.cellFont c o))) = setLook A c (fontCall A.look.looks.fonts o l) := by
  obtain ⟨B, GB, ag⟩ := G.look
  obtain ⟨g, hg⟩ := Look.font_known GB (ag.cell hl).2
  rw [ag.font] at hg
  have h1 : onFontCall A.look.looks l o = some ⟨l.calls ++ [.font (some 0)], .own ⟨g.base, g.calls ++ [o]⟩⟩ := by rw [onFontCall, hg]; rfl
  have h2 : fontCall A.look.looks.fonts o l = ⟨l.calls ++ [.font (some 0)], .own ⟨g.base, g.calls ++ [o]⟩⟩ := by
    have hg' : Styles.Spec.fontOf ⟨A.look.looks.fonts, fun _ => none, fun _ => none⟩ l = some g := by
      rw [← hg]
      rfl
    rw [fontCall, onFontCall, hg']
    rfl
  simp only [Prog.ask, Look.ask, Styles.Spec.step, hl, Option.bind_some, h1, h2]
  rfl

theorem notDestroy {A : Look.Asked} {a : Styles.Action} (h : ∀ c, a ≠ .destroy c) :
    ∀ c, a = .destroy c → ∀ i row col d, lastWrite A.writes i row col = some d → d.id ≠ c := fun c e => absurd e (h c)

theorem setLook_setLook (A : Prog.Asked) (c : Nat) (a b : Look) : setLook (setLook A c a) c b = setLook A c b := by
  simp only [setLook, Range.upd_upd]

theorem setLook_self {A : Prog.Asked} {c : Nat} {l : Look} (h : A.look.looks.cells c = some l) : setLook A c l = A := by
  have : upd A.look.looks.cells c (some l) = A.look.looks.cells := by
    funext x
    unfold upd
    split
    · rename_i e; rw [e, h]
    · rfl
  unfold setLook
  rw [this]

/-- Some format functions of one cell. -/
theorem Plain.calls {s : Desk.State} {A : Prog.Asked} (G : Prog.Good s.prog A) {c : Nat} {l : Look} (hl : A.look.looks.cells c = some l)
    (ops : List Xf.Op) (ho : ∀ o ∈ ops, Range.CallOk A.look.looks.fonts o) (hm : s.prog.look.styles.fonts.length < 65535) :
    ∃ st, Range.calls s.prog.look.styles c ops = some st ∧
      Plain s A (ops.map fun o => styled (.cell c o)) (setStyles s st) (setLook A c (ops.foldl onCall l)) ∧
      st.fonts.length = s.prog.look.styles.fonts.length := by
  induction ops generalizing s A l with
  | nil =>
    refine ⟨s.prog.look.styles, rfl, ?_, rfl⟩
    rw [List.foldl_nil, setLook_self hl]
    exact Plain.nil G
  | cons o r ih =>
    obtain ⟨B, GB, ag⟩ := G.look
    have hB := (ag.cell hl).2
    obtain ⟨q, e, g1, g2, g3, g4⟩ := GB.styles.cell hB
    have hok : Styles.CallOk A.look.looks o := ho o (by simp)
    obtain ⟨t, p, y, c1, -, -, -, -, -, c7, -⟩ := Styles.cell_exact GB.styles c o l hB (by unfold Styles.CallOk; rw [ag.fonts]; exact hok) q e g1 g3 g4
    have hfl : t.fonts.length = s.prog.look.styles.fonts.length := by
      have := congrArg List.length c7
      simpa [fv] using this
    have ha : Look.Ok s.prog.look A.look (.style (.cell c o)) := ⟨⟨⟨l, hl⟩, hok⟩, notDestroy (by simp)⟩
    obtain ⟨p', p1, p2⟩ := Prog.sim_look G (.style (.cell c o)) ha hm
    have hp : Prog.step s.prog (.look (.style (.cell c o))) = some (setStyles s t).prog := by
      simp [Prog.step, Look.step, Styles.step, c1, setStyles]
    rw [hp] at p1
    obtain rfl := Option.some.inj p1
    rw [ask_cell hl] at p2
    obtain ⟨st, i1, i2, i3⟩ := ih p2 (l := onCall l o) (by simp [setLook, upd]) (fun o h => ho o (by simp [h])) (by show t.fonts.length < _; omega)
    refine ⟨st, ?_, ?_, i3.trans hfl⟩
    · rw [Range.calls, List.foldlM_cons, c1]
      exact i1
    · rw [setLook_setLook] at i2
      exact Plain.style G ha hm c1 (ask_cell hl o) fun _ => i2

/-- A font function of one cell. -/
theorem Plain.font {s : Desk.State} {A : Prog.Asked} (G : Prog.Good s.prog A) {c : Nat} {l : Look} (hl : A.look.looks.cells c = some l)
    (o : Font.FOp) (ho : Font.Spec.Valid o) (hm : s.prog.look.styles.fonts.length < 65535) :
    ∃ st, Styles.step s.prog.look.styles (.cellFont c o) = some st ∧
      Plain s A [styled (.cellFont c o)] (setStyles s st) (setLook A c (fontCall A.look.looks.fonts o l)) := by
  obtain ⟨B, GB, ag⟩ := G.look
  have ha : Look.Ok s.prog.look A.look (.style (.cellFont c o)) := ⟨⟨⟨l, hl⟩, ho⟩, notDestroy (by simp)⟩
  obtain ⟨t, t1, -⟩ := Styles.sim GB.styles (.cellFont c o) (ag.ok ha).1 hm
  exact ⟨t, t1, Plain.style G ha hm t1 (ask_font G hl o) fun h => Plain.nil h⟩

theorem prog_append (p q : Prog.State) (A : Prog.Asked) (x y : List Prog.Call) (h : Prog.steps p x = some q) (hf : Prog.Fine p A x)
    (h2 : Prog.Fine q (Prog.asked p A x) y) :
    Prog.Fine p A (x ++ y) ∧ Prog.asked p A (x ++ y) = Prog.asked q (Prog.asked p A x) y := by
  induction x generalizing p A with
  | nil =>
    obtain rfl := Option.some.inj h
    exact ⟨h2, rfl⟩
  | cons c x ih =>
    obtain ⟨f1, f2, f3⟩ := hf
    rw [Prog.steps] at h
    obtain ⟨p', e1, e2⟩ := Option.bind_eq_some_iff.mp h
    rw [Prog.asked, e1] at h2
    obtain ⟨i1, i2⟩ := ih p' _ e2 (f3 p' e1) h2
    refine ⟨⟨f1, f2, fun t ht => ?_⟩, ?_⟩
    · rw [e1] at ht
      obtain rfl := Option.some.inj ht
      exact i1
    · rw [List.cons_append, Prog.asked, e1, Prog.asked, e1]
      exact i2

theorem Plain.append {s t u : Desk.State} {A A' A'' : Prog.Asked} {l r : List Desk.Call} (h1 : Plain s A l t A') (h2 : Plain t A' r u A'') :
    Plain s A (l ++ r) u A'' := by
  obtain ⟨k1, k2⟩ := prog_append _ _ _ _ _ h1.inner h1.fine (h1.asked ▸ h2.fine)
  refine ⟨?_, ?_, ?_, ?_, h2.good, h2.wb.trans h1.wb⟩
  · rw [Desk.steps_append, h1.run]; exact h2.run
  · rw [List.filterMap_append, Desk.prog_append, h1.inner]; exact h2.inner
  · rw [List.filterMap_append]; exact k1
  · rw [List.filterMap_append, k2, h1.asked, h2.asked]

/-! ### One pass -/

/-- What is asked for after one place of the rectangle. -/
def after (i : Nat) (f : Key → Look → Look) (s : Desk.State) (A : Prog.Asked) (k : Key) : Prog.Asked :=
  { A with look := (askPlace i f (s.prog.look.styles.cells.length, A.look) k).2 }

/-- One place is done by plain calls. -/
def Pass (i : Nat) (f : Key → Look → Look) (k : Key) (s : Desk.State) (A : Prog.Asked) (t : Desk.State) : Prop :=
  (∃ acts : List Styles.Action, Plain s A (making A i k ++ acts.map styled) t (after i f s A k)) ∧
    t.prog.look.styles.cells.length = (askPlace i f (s.prog.look.styles.cells.length, A.look) k).1

theorem pass_of {i : Nat} {f : Key → Look → Look} {k : Key} {s t1 t : Desk.State} {A A1 : Prog.Asked} {c : Nat} {l : Look} {acts : List Styles.Action}
    (h1 : Plain s A (making A i k) t1 A1) (hacts : A1.acts = A.acts)
    (hask : askPlace i f (s.prog.look.styles.cells.length, A.look) k = (t1.prog.look.styles.cells.length, (setLook A1 c (f k l)).look))
    (h2 : Plain t1 A1 (acts.map styled) t (setLook A1 c (f k l))) (hlen : t.prog.look.styles.cells.length = t1.prog.look.styles.cells.length) :
    Pass i f k s A t := by
  have : after i f s A k = setLook A1 c (f k l) := by
    unfold after
    rw [hask, ← hacts]
    rfl
  exact ⟨⟨acts, this ▸ h1.append h2⟩, by rw [hlen, hask]⟩

theorem newCell_fonts {s t : Styles.State} (h : t = s ∨ t = Styles.newCell s none) : t.fonts = s.fonts := by
  rcases h with h | h <;> rw [h]
  rfl

theorem call_pass {s : Desk.State} {A : Prog.Asked} (G : Prog.Good s.prog A) (i : Nat) (hi : i < s.wb.sheets.length) (k : Key)
    (hm : s.prog.look.styles.fonts.length < 65535) (o : Xf.Op) (ho : Range.CallOk A.look.looks.fonts o) :
    ∃ t, callBody i o k.1 k.2 s = some t ∧ Pass i (fun _ l => onCall l o) k s A t := by
  obtain ⟨t, c, A1, l, h1, h2, h3, -, h5, h6, -, h8, h9⟩ := found G i hi k hm
  have hm1 : t.prog.look.styles.fonts.length < 65535 := by rw [newCell_fonts h8]; exact hm
  obtain ⟨st, s1, s2, -⟩ := Plain.calls h2.good h3 [o] (by simpa [h5] using ho) hm1
  have s3 : Styles.cellOp t.prog.look.styles c o = some st := by
    simpa [Range.calls] using s1
  refine ⟨setStyles t st, ?_, pass_of (acts := [.cell c o]) h2 h6 (h9 _) s2 (Styles.held_cellOp s3)⟩
  rw [callBody, h1, Option.bind_some, step_styled]
  show (Styles.cellOp _ _ _).map _ = _
  rw [s3]
  rfl

theorem font_pass {s : Desk.State} {A : Prog.Asked} (G : Prog.Good s.prog A) (i : Nat) (hi : i < s.wb.sheets.length) (k : Key)
    (hm : s.prog.look.styles.fonts.length < 65535) (o : Font.FOp) (ho : Font.Spec.Valid o) :
    ∃ t, fontBody i o k.1 k.2 s = some t ∧ Pass i (fun _ => fontCall A.look.looks.fonts o) k s A t := by
  obtain ⟨t, c, A1, l, h1, h2, h3, -, h5, h6, -, h8, h9⟩ := found G i hi k hm
  have hm1 : t.prog.look.styles.fonts.length < 65535 := by rw [newCell_fonts h8]; exact hm
  obtain ⟨st, s1, s2⟩ := Plain.font h2.good h3 o ho hm1
  rw [h5] at s2
  refine ⟨setStyles t st, ?_, pass_of (acts := [.cellFont c o]) h2 h6 (h9 _) s2 (Styles.held_cellFont s1)⟩
  rw [fontBody, h1, Option.bind_some, step_styled, s1]
  rfl

/-! ### Remembered formats -/

/-- Every remembered pair: a format, and what the calls make of it, which some cell that is done with uses. -/
def CacheOk (i : Nat) (tag : Nat → Nat → Xf → Nat) (ops : Nat → Nat → List Xf.Op) (rem : List Key) (st : Styles.State) (W : List (Nat × Cell Val))
    (cache : Cache) : Prop :=
  ∀ (j : Nat) tg (p : Nat), ((j, tg), p) ∈ cache → ∃ x y, (xv st)[j]? = some x ∧ (xv st)[p]? = some y ∧ (p = 15 ∨ 21 ≤ p) ∧
    (∃ k : Key, tg = tag k.1 k.2 x ∧ seqRun x (ops k.1 k.2) = some y) ∧
    ∃ (k : Key) (d : Cell Val), k ∉ rem ∧ lastWrite W i k.1 k.2 = some d ∧ st.cells[d.id]? = some (some p)

theorem blank_xv {s t : Styles.State} (h : t = s ∨ t = Styles.newCell s none) : xv t = xv s := by
  rcases h with h | h <;> rw [h]
  exact Styles.map_modify_same Styles.XEnt.xf _ (by intro a; rfl) _ _

theorem blank_cells {s t : Styles.State} (h : t = s ∨ t = Styles.newCell s none) : s.cells <+: t.cells := by
  rcases h with h | h <;> rw [h]
  · exact List.prefix_refl _
  · exact List.prefix_append _ _

theorem memo_pass (tag : Nat → Nat → Xf → Nat) (ops : Nat → Nat → List Xf.Op)
    (htag : ∀ (k k' : Key) x, tag k.1 k.2 x = tag k'.1 k'.2 x → ops k.1 k.2 = ops k'.1 k'.2)
    {s : Desk.State} {A : Prog.Asked} (G : Prog.Good s.prog A) (i : Nat) (hi : i < s.wb.sheets.length)
    (ho : ∀ (k : Key), ∀ o ∈ ops k.1 k.2, Range.CallOk A.look.looks.fonts o) (k : Key) (rem : List Key) (hk : k ∉ rem)
    (cache : Cache) (hc : CacheOk i tag ops (k :: rem) s.prog.look.styles A.look.writes cache) (hroom : Room s.prog.look.styles) :
    ∃ t cache', memoBody i tag ops k.1 k.2 (s, cache) = some (t, cache') ∧
      Pass i (fun k l => (ops k.1 k.2).foldl onCall l) k s A t ∧
      CacheOk i tag ops rem t.prog.look.styles (after i (fun k l => (ops k.1 k.2).foldl onCall l) s A k).look.writes cache' := by
  obtain ⟨t, c, A1, l, h1, h2, h3, ⟨d, hd1, hd2⟩, h5, h6, h7, h8, h9⟩ := found G i hi k hroom.1
  have hm1 : t.prog.look.styles.fonts.length < 65535 := by rw [newCell_fonts h8]; exact hroom.1
  obtain ⟨B, GB, ag⟩ := h2.good.look
  have hB := (ag.cell h3).2
  obtain ⟨q, e, g1, g2, g3, g4⟩ := GB.styles.cell hB
  have hlen : t.prog.look.styles.xfs.length = s.prog.look.styles.xfs.length := by rw [← Styles.xv_len, blank_xv h8, Styles.xv_len]
  have hcl : c < t.prog.look.styles.cells.length := (List.getElem?_eq_some_iff.mp g1).1
  have hq : q < t.prog.look.styles.xfs.length := (List.getElem?_eq_some_iff.mp g3).1
  have hidx : e.index = q := by
    rw [GB.styles.inv.index q e g3, Nat.mod_eq_of_lt]
    have := hroom.2
    omega
  have hw : (after i (fun k l => (ops k.1 k.2).foldl onCall l) s A k).look.writes = A1.look.writes := by
    unfold after
    rw [h9]
    rfl
  rw [hw]
  have old : ∀ (k' : Key) (d' : Cell Val), k' ∉ k :: rem → lastWrite A.look.writes i k'.1 k'.2 = some d' → ∀ p,
      s.prog.look.styles.cells[d'.id]? = some (some p) →
      k' ∉ rem ∧ lastWrite A1.look.writes i k'.1 k'.2 = some d' ∧ t.prog.look.styles.cells[d'.id]? = some (some p) ∧ d'.id ≠ c := by
    intro k' d' hk' hw' p hp
    simp only [List.mem_cons, not_or] at hk'
    have hw1 : lastWrite A1.look.writes i k'.1 k'.2 = some d' := by rw [h7 i k' (fun h => hk'.1 h.2), hw']
    refine ⟨hk'.2, hw1, Styles.getElem?_prefix (blank_cells h8) hp, fun he => ?_⟩
    rw [← ag.writes] at hw1 hd1
    have := GB.inj _ _ _ _ _ _ _ _ hw1 hd1 (by rw [he, hd2])
    exact hk'.1 (Prod.ext this.2.1 this.2.2)
  have hops : ∀ o ∈ ops k.1 k.2, Range.CallOk A1.look.looks.fonts o := by rw [h5]; exact ho k
  have hopsB : ∀ o ∈ ops k.1 k.2, Range.CallOk B.looks.fonts o := by rw [ag.fonts]; exact hops
  cases hlk : cache.lookup (e.index, tag k.1 k.2 e.xf) with
  | some p =>
    obtain ⟨x0, y, c1, c2, c3, ⟨k0, c4, c5⟩, k', d', z1, z2, z3⟩ := hc _ _ _ (Range.lookup_mem hlk)
    obtain ⟨o1, o2, o3, o4⟩ := old k' d' z1 z2 p z3
    rw [← blank_xv h8] at c1 c2
    rw [hidx, Styles.get_xv g3] at c1
    cases Option.some.inj c1
    obtain ⟨ep, p1, rfl⟩ := Styles.xv_get c2
    rw [← htag k k0 _ c4] at c5
    have hdead : Styles.dead ep = false := by
      have u1 := (GB.styles.inv.use p ep p1).1
      have u2 := Styles.on_pos o3
      have : ep.usage ≠ 0 := by omega
      simp [Styles.dead, this]
    have ha : Look.Ok t.prog.look A1.look (.style (.adopt c p (ops k.1 k.2))) :=
      ⟨⟨⟨l, h3⟩, hops, c3, q, e, ep, g1, g3, p1, hdead, c5⟩, notDestroy (by simp)⟩
    have look := Styles.Looks.seqRun (A := B.looks) g4 (ops k.1 k.2) hopsB c5
    obtain ⟨u, a1, -, a3, a4, -⟩ := Styles.sim_adopt GB.styles c p ⟨_, hB⟩ ep p1 c3 hdead _ look
    refine ⟨setStyles t u, cache, ?_, pass_of (acts := [.adopt c p (ops k.1 k.2)]) h2 h6 (h9 _)
      (Plain.style h2.good ha hm1 a1 (ask_adopt h3 _ _) fun h => Plain.nil h) (Styles.held_setXf a1), ?_⟩
    · have hstep : Desk.step t (styled (.setXf c p)) = some (setStyles t u) := by
        rw [step_styled]
        show (Styles.setXf _ _ _).map _ = _
        rw [a1]
        rfl
      simp only [memoBody, h1, Option.bind_some, g1, Option.join_some, g3, hlk, hstep, Option.map_some]
    · intro j tg p' hmem
      obtain ⟨x0, y, c1, c2, c3, c4, k'', d'', z1, z2, z3⟩ := hc _ _ _ hmem
      obtain ⟨o1, o2, o3, o4⟩ := old k'' d'' z1 z2 p' z3
      refine ⟨x0, y, ?_, ?_, c3, c4, k'', d'', o1, o2, ?_⟩
      · show (xv u)[j]? = _
        rw [a4, blank_xv h8, c1]
      · show (xv u)[p']? = _
        rw [a4, blank_xv h8, c2]
      · show u.cells[d''.id]? = _
        rw [a3, List.getElem?_set_ne (Ne.symm o4), o3]
  | none =>
    obtain ⟨u, r, y, a1, -, a3, a4, a5, a6, a7⟩ := Range.calls_exact GB.styles c (ops k.1 k.2) hopsB _ hB q e.xf g1 (Styles.get_xv g3)
    obtain ⟨u', b1, b2, -⟩ := Plain.calls h2.good h3 (ops k.1 k.2) hops hm1
    rw [a1] at b1
    obtain rfl := Option.some.inj b1
    have hur : u.cells[c]? = some (some r) := by rw [a3, List.getElem?_set_self hcl]
    refine ⟨setStyles t u, cache ++ [((e.index, tag k.1 k.2 e.xf), r)], ?_,
      pass_of (acts := (ops k.1 k.2).map fun o => .cell c o) h2 h6 (h9 _) (by rw [List.map_map]; exact b2) ?_, ?_⟩
    · have hur' : (setStyles t u).prog.look.styles.cells[c]? = some (some r) := hur
      simp only [memoBody, h1, Option.bind_some, g1, Option.join_some, g3, hlk, b2.run, hur', Option.map_some]
    · show u.cells.length = _
      rw [a3, List.length_set]
    · intro j tg p' hmem
      rw [List.mem_append, List.mem_singleton] at hmem
      rcases hmem with hmem | hmem
      · obtain ⟨x0, y, c1, c2, c3, c4, k'', d'', z1, z2, z3⟩ := hc _ _ _ hmem
        obtain ⟨o1, o2, o3, o4⟩ := old k'' d'' z1 z2 p' z3
        rw [← blank_xv h8] at c1 c2
        refine ⟨x0, y, Styles.getElem?_prefix a4 c1, Styles.getElem?_prefix a4 c2, c3, c4, k'', d'', o1, o2, ?_⟩
        show u.cells[d''.id]? = _
        rw [a3, List.getElem?_set_ne (Ne.symm o4), o3]
      · simp only [Prod.mk.injEq] at hmem
        obtain ⟨⟨rfl, rfl⟩, rfl⟩ := hmem
        refine ⟨e.xf, y, ?_, a5, a7, ⟨k, rfl, a6⟩, k, d, hk, hd1, by rw [hd2]; exact hur⟩
        show (xv u)[e.index]? = _
        rw [hidx]
        exact Styles.getElem?_prefix a4 (Styles.get_xv g3)

end Xls.Area
