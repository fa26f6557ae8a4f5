import Verif.Styles.Usage
/-
C52 for every program: the numbers given to fonts and formats are positions, whatever is done to them.
-/
namespace Xls.Styles
open Xls.Xf (Xf)
open Xls.Font (Font FOp)

structure Num (s : State) : Prop where
  five : 5 ≤ s.fonts.length
  fi : s.fonts.map (·.index) = (List.range s.fonts.length).map Xf.fontIndexOf
  fn : s.fontNext = (s.fonts.length + 1) % 65536
  xi : s.xfs.map (·.index) = (List.range s.xfs.length).map (· % 65536)
  xn : s.xfNext = s.xfs.length % 65536
  ptr : ∀ e ∈ s.xfs, ∀ p, e.xf.font = some p → p < s.fonts.length

theorem mem_modify {α : Type} {xs : List α} {q : Nat} {f : α → α} {e : α} (h : e ∈ xs.modify q f) : e ∈ xs ∨ ∃ d ∈ xs, e = f d := by
  induction xs generalizing q with
  | nil => simp at h
  | cons a r ih =>
    cases q with
    | zero =>
      simp only [List.modify_zero_cons, List.mem_cons] at h
      rcases h with h | h
      · exact .inr ⟨a, by simp, h⟩
      · exact .inl (by simp [h])
    | succ n =>
      simp only [List.modify_succ_cons, List.mem_cons] at h
      rcases h with h | h
      · exact .inl (by simp [h])
      · rcases ih h with h | ⟨d, hd, h⟩
        · exact .inl (by simp [h])
        · exact .inr ⟨d, by simp [hd], h⟩

theorem Num.fonts {s : State} (N : Num s) (p : Nat) (g : FEnt → FEnt) (hg : ∀ f, (g f).index = f.index) :
    Num { s with fonts := s.fonts.modify p g } :=
  ⟨by simpa using N.five, by rw [map_modify_same _ _ hg]; simpa using N.fi, by simpa using N.fn, N.xi, N.xn, by simpa using N.ptr⟩

theorem Num.xfs {s : State} (N : Num s) (q : Nat) (g : XEnt → XEnt) (hg : ∀ e, (g e).index = e.index)
    (hp : ∀ e ∈ s.xfs, ∀ p, (g e).xf.font = some p → p < s.fonts.length) : Num { s with xfs := s.xfs.modify q g } := by
  refine ⟨N.five, N.fi, N.fn, by rw [map_modify_same _ _ hg]; simpa using N.xi, by simpa using N.xn, ?_⟩
  intro e he
  rcases mem_modify he with h | ⟨d, hd, rfl⟩
  · exact N.ptr e h
  · exact hp d hd

theorem Num.cells {s : State} (N : Num s) (c : List (Option Nat)) : Num { s with cells := c } := ⟨N.1, N.2, N.3, N.4, N.5, N.6⟩

theorem Num.mark {s : State} (N : Num s) (p : Option Nat) : Num (markFont? s p) := by
  cases p with
  | none => exact N
  | some p => exact N.fonts p _ fun _ => rfl

theorem Num.unmark {s : State} (N : Num s) (p : Option Nat) : Num (unmarkFont? s p) := by
  cases p with
  | none => exact N
  | some p => exact N.fonts p _ fun _ => rfl

theorem Num.markXf {s : State} (N : Num s) (q : Nat) : Num (markXf s q) := N.xfs q _ (fun _ => rfl) N.ptr

theorem Num.unmarkXf {s t : State} (N : Num s) {q : Nat} (h : unmarkXf s q = some t) : Num t := by
  unfold Styles.unmarkXf at h
  rw [Option.map_eq_some_iff] at h
  obtain ⟨e, -, rfl⟩ := h
  have N1 := N.xfs q (fun e => { e with usage := e.usage - 1 }) (fun _ => rfl) N.ptr
  dsimp only
  split
  · exact N1.unmark _
  · exact N1

theorem Num.addFont {s : State} (N : Num s) (f : Font) : Num (addFont s f) := by
  have h5 := N.five
  refine ⟨by simp [Styles.addFont]; omega, ?_, ?_, N.xi, N.xn, ?_⟩
  · simp only [Styles.addFont, List.map_append, N.fi, List.length_append, List.range_succ, List.length_singleton, List.map_singleton]
    congr 1
    rw [N.fn, Xf.fontIndexOf, if_neg (by omega)]
  · simp only [Styles.addFont, List.length_append, List.length_singleton, N.fn]
    omega
  · intro e he p hp
    have := N.ptr e he p hp
    simp [Styles.addFont]
    omega

theorem Num.addXf {s : State} (N : Num s) (x : Xf) (hx : ∀ p, x.font = some p → p < s.fonts.length) : Num (addXf s x) := by
  refine ⟨N.five, N.fi, N.fn, ?_, ?_, ?_⟩
  · simp only [Styles.addXf, List.map_append, N.xi, List.length_append, List.range_succ, List.length_singleton, List.map_singleton]
    congr 2
    exact N.xn
  · simp only [Styles.addXf, List.length_append, List.length_singleton, N.xn]
    omega
  · intro e he
    simp only [Styles.addXf, List.mem_append, List.mem_singleton] at he
    rcases he with he | rfl
    · exact N.ptr e he
    · exact hx

theorem fonts_marked (s : State) (p : Option Nat) : (markFont? s p).fonts.length = s.fonts.length := by
  cases p <;> simp [markFont?, markFont]

@[simp] theorem flag_font (c : Bool) (f : Nat) (x : Xf) : (Xf.flagIf c f x).font = x.font := by
  cases c <;> rfl

theorem dup_font (x : Xf) : (Xf.dup x).font = x.font := by
  unfold Xf.dup
  split <;> simp [Xf.setFont, Xf.setUserFormat]

theorem Num.dup {s t : State} (N : Num s) {q : Nat} (h : dupXf s q = some t) : Num t ∧ t.fonts.length = s.fonts.length := by
  unfold dupXf at h
  rw [Option.map_eq_some_iff] at h
  obtain ⟨e, he, rfl⟩ := h
  refine ⟨(N.mark _).addXf _ ?_, by simp [Styles.addXf, fonts_marked]⟩
  intro p hp
  rw [fonts_marked]
  exact N.ptr e (List.mem_of_getElem? he) p (by rw [← dup_font]; exact hp)

/-- A setter leaves the font alone, except `SetFont`. -/
theorem run_font {o : Xf.Op} {x y : Xf} (h : o.run x = some y) : y.font = x.font ∨ ∃ f, o = .font f ∧ y.font = f := by
  cases o with
  | font f =>
    refine .inr ⟨f, rfl, ?_⟩
    simp only [Xf.Op.run, Option.some.injEq] at h
    subst h
    rfl
  | userFormat k =>
    left
    cases k <;> simp only [Xf.Op.run, Option.some.injEq] at h <;> subst h <;> simp [Xf.setUserFormat, flag_font]
  | bstyle s n =>
    left
    simp only [Xf.Op.run, Xf.setBorderStyle, Option.bind_eq_some_iff] at h
    obtain ⟨c, -, h⟩ := h
    split at h
    · rw [Option.map_eq_some_iff] at h
      obtain ⟨a, -, rfl⟩ := h
      simp [flag_font]
    · cases h; simp [flag_font]
  | format n | halign n | valign n | indent n | orient n | fg n | bg n | fill n | bcolor s n =>
    left
    simp only [Xf.Op.run, Xf.setFormat, Xf.setHAlign, Xf.setVAlign, Xf.setIndent, Xf.setOrient, Xf.setFg, Xf.setBg, Xf.setFill,
      Xf.setBorderColor, Option.map_eq_some_iff] at h
    obtain ⟨c, -, rfl⟩ := h
    simp [flag_font, Xf.setBorderColorIdx]
  | formatIndex n | fgIdx n | bgIdx n | bcolorIdx s n | locked n | hidden n | wrap n =>
    left
    simp only [Xf.Op.run, Option.some.injEq] at h
    subst h
    simp [Xf.setFormatIndex, Xf.setFgIdx, Xf.setBgIdx, Xf.setBorderColorIdx, Xf.setLocked, Xf.setHidden, Xf.setWrap, Xf.setFlag, flag_font]

/-- The fonts a call hands over exist. -/
def Has (s : State) (o : Xf.Op) : Prop := ∀ p, o = .font (some p) → p < s.fonts.length

theorem Num.setOn {s t : State} (N : Num s) {q : Nat} {o : Xf.Op} (ho : Has s o) (h : setOn s q o = some t) : Num t := by
  unfold Styles.setOn at h
  rw [Option.bind_eq_some_iff] at h
  obtain ⟨e, he, h⟩ := h
  rw [Option.map_eq_some_iff] at h
  obtain ⟨x, hx, rfl⟩ := h
  have N1 : Num { s with xfs := s.xfs.modify q fun e => { e with xf := x } } := by
    refine N.xfs q _ (fun _ => rfl) ?_
    intro _ _ p hp
    dsimp only at hp
    rcases run_font hx with h | ⟨f, rfl, h⟩
    · exact N.ptr e (List.mem_of_getElem? he) p (by rw [← h, hp])
    · exact ho p (by rw [← hp, h])
  cases o <;> first | exact N1 | exact (N1.unmark _).mark _

theorem Num.find {s t : State} (N : Num s) {i : Nat} (h : findXf s = some (i, t)) : Num t := by
  unfold findXf at h
  rw [Option.map_eq_some_iff] at h
  obtain ⟨e, he, h⟩ := h
  have hl : 0 < s.xfs.length := by have := (List.getElem?_eq_some_iff.mp he).1; omega
  split at h
  · cases h; exact N
  · split at h
    · cases h; exact N
    · cases h
      refine ⟨N.five, N.fi, N.fn, ?_, ?_, ?_⟩
      · dsimp only
        rw [List.map_take, N.xi, List.length_take, ← List.map_take, List.take_range]
      · dsimp only
        rw [N.xn, List.length_take]
        omega
      · intro e he
        exact N.ptr e (List.mem_of_mem_take he)

theorem Num.settle {s t : State} (N : Num s) {c q : Nat} (h : settle s c q = some t) : Num t := by
  unfold Styles.settle at h
  rw [Option.bind_eq_some_iff] at h
  obtain ⟨u, hu, h⟩ := h
  rw [Option.map_eq_some_iff] at h
  obtain ⟨⟨i, v⟩, hv, rfl⟩ := h
  exact (((N.unmarkXf hu).find hv).cells _).markXf _

theorem Num.cellOp {s t : State} (N : Num s) {c : Nat} {o : Xf.Op} (ho : Has s o) (h : cellOp s c o = some t) : Num t := by
  unfold Styles.cellOp at h
  simp only [Option.bind_eq_some_iff] at h
  obtain ⟨q, -, s1, h1, s2, h2, h3⟩ := h
  obtain ⟨N1, l1⟩ := N.dup h1
  refine Num.settle (N1.setOn ?_ h2) h3
  intro p hp
  rw [l1]
  exact ho p hp

theorem Num.setCellFont {s t : State} (N : Num s) {c : Nat} (h : setCellFont s c = some t) : Num t := by
  unfold Styles.setCellFont at h
  simp only [Option.bind_eq_some_iff] at h
  obtain ⟨q, -, s1, h1, e, he, s2, h2, h3⟩ := h
  obtain ⟨N1, -⟩ := N.dup h1
  refine Num.settle ?_ h3
  have new : ∀ f u, Styles.setOn (Styles.addFont s1 f) s.xfs.length (.font (some s1.fonts.length)) = some u → Num u := by
    intro f u hu
    refine (N1.addFont f).setOn ?_ hu
    intro p hp
    simp only [Xf.Op.font.injEq, Option.some.injEq] at hp
    subst hp
    simp [Styles.addFont]
  split at h2
  · rw [Option.bind_eq_some_iff] at h2
    obtain ⟨d, -, h2⟩ := h2
    exact new _ _ h2
  · rw [Option.bind_eq_some_iff] at h2
    obtain ⟨d, -, h2⟩ := h2
    split at h2
    · exact new _ _ h2
    · cases h2; exact N1

theorem Num.setFontOn {s t : State} (N : Num s) {p : Nat} {o : FOp} (h : setFontOn s p o = some t) : Num t := by
  unfold Styles.setFontOn at h
  simp only [Option.bind_eq_some_iff, Option.map_eq_some_iff] at h
  obtain ⟨f, -, v, -, rfl⟩ := h
  exact N.fonts p _ fun _ => rfl

/-- An action hands over existing fonts only. -/
def Known (s : State) : Action → Prop
  | .xf _ o => Has s o
  | .cell _ o => Has s o
  | _ => True

theorem Num.step {s t : State} (N : Num s) {a : Action} (ha : Known s a) (h : step s a = some t) : Num t := by
  cases a with
  | newFont n => simp only [Styles.step, Option.some.injEq] at h; subst h; exact N.addFont _
  | stockFont n =>
    simp only [Styles.step] at h
    split at h
    · obtain ⟨f, -, rfl⟩ := Option.map_eq_some_iff.mp h
      exact N.addFont _
    · cases h
  | copyFont p =>
    obtain ⟨f, -, rfl⟩ := Option.map_eq_some_iff.mp h
    exact N.addFont _
  | copyXf q => exact (N.dup h).1
  | font p o => exact N.setFontOn h
  | newXf =>
    simp only [Styles.step, Option.map_eq_some_iff] at h
    obtain ⟨x, hx, rfl⟩ := h
    refine N.addXf x ?_
    have : (Xf.new true true false).map (·.font) = some none := by decide
    rw [hx] at this
    intro p hp
    simp [hp] at this
  | xf q o => exact N.setOn ha h
  | newCell q => simp only [Styles.step, Option.some.injEq] at h; subst h; exact (N.cells _).markXf _
  | destroy c =>
    simp only [Styles.step, Styles.destroy, Option.bind_eq_some_iff] at h
    obtain ⟨q, -, h⟩ := h
    exact (N.cells _).unmarkXf h
  | setXf c q =>
    simp only [Styles.step, Styles.setXf, Option.bind_eq_some_iff] at h
    obtain ⟨q', -, h⟩ := h
    exact ((N.cells _).markXf _).unmarkXf h
  | adopt c q ops =>
    simp only [Styles.step, Styles.setXf, Option.bind_eq_some_iff] at h
    obtain ⟨q', -, h⟩ := h
    exact ((N.cells _).markXf _).unmarkXf h
  | cell c o => exact N.cellOp ha h
  | cellFont c o =>
    simp only [Styles.step, Styles.cellFont, Option.bind_eq_some_iff] at h
    obtain ⟨s1, h1, q, -, e, -, p, -, h⟩ := h
    exact (N.setCellFont h1).setFontOn h

/-- Along a program. -/
def AllKnown (s : State) : List Action → Prop
  | [] => True
  | a :: r => Known s a ∧ ∀ t, step s a = some t → AllKnown t r

theorem Num.steps {s t : State} (N : Num s) {acts : List Action} (ha : AllKnown s acts) (h : steps s acts = some t) : Num t := by
  induction acts generalizing s with
  | nil => cases h; exact N
  | cons a r ih =>
    simp only [Styles.steps, Option.bind_eq_some_iff] at h
    obtain ⟨u, hu, h⟩ := h
    exact ih (N.step ha.1 hu) (ha.2 u hu) h

end Xls.Styles
