import Verif.Styles.Numbers
import Verif.Styles.Sim
/-
Font names stay shorter than 256 characters when every name handed over is.
-/
namespace Xls.Styles
open Xls.Xf (Xf)
open Xls.Font (Font FOp)

def Short (s : State) : Prop := ∀ f ∈ fv s, f.name.length < 256

theorem Short.eq {s t : State} (h : Short s) (e : fv t = fv s) : Short t := by unfold Short; rw [e]; exact h

theorem fv_mark (s : State) (p : Option Nat) : fv (markFont? s p) = fv s := by
  cases p with
  | none => rfl
  | some p => exact map_modify_same FEnt.font _ (by intro a; rfl) _ _

theorem fv_unmark (s : State) (p : Option Nat) : fv (unmarkFont? s p) = fv s := by
  cases p with
  | none => rfl
  | some p => exact map_modify_same FEnt.font _ (by intro a; rfl) _ _

theorem fv_unmarkXf {s t : State} {q : Nat} (h : unmarkXf s q = some t) : fv t = fv s := by
  unfold unmarkXf at h
  rw [Option.map_eq_some_iff] at h
  obtain ⟨e, -, rfl⟩ := h
  simp only
  split
  · exact fv_unmark _ _
  · rfl

theorem fv_dup {s t : State} {q : Nat} (h : dupXf s q = some t) : fv t = fv s := by
  unfold dupXf at h
  rw [Option.map_eq_some_iff] at h
  obtain ⟨e, -, rfl⟩ := h
  exact fv_mark s e.xf.font

theorem fv_setOn {s t : State} {q : Nat} {o : Xf.Op} (h : setOn s q o = some t) : fv t = fv s := by
  unfold setOn at h
  simp only [Option.bind_eq_some_iff, Option.map_eq_some_iff] at h
  obtain ⟨e, -, x, -, rfl⟩ := h
  cases o <;> first | rfl | exact (fv_mark _ _).trans (fv_unmark _ _)

theorem fv_settle {s t : State} {c q : Nat} (h : settle s c q = some t) : fv t = fv s := by
  unfold settle at h
  simp only [Option.bind_eq_some_iff, Option.map_eq_some_iff] at h
  obtain ⟨u, hu, ⟨i, v⟩, hv, rfl⟩ := h
  have : fv v = fv u := by
    unfold findXf at hv
    rw [Option.map_eq_some_iff] at hv
    obtain ⟨e, -, hv⟩ := hv
    split at hv
    · cases hv; rfl
    · split at hv <;> cases hv <;> rfl
  exact this.trans (fv_unmarkXf hu)

theorem Short.add {s : State} (h : Short s) (f : Font) (hf : f.name.length < 256) : Short (addFont s f) := by
  intro g hg
  simp only [fv, addFont, List.map_append, List.map_cons, List.map_nil, List.mem_append, List.mem_cons, List.not_mem_nil, or_false] at hg
  rcases hg with hg | rfl
  · exact h g hg
  · exact hf

theorem Short.setCellFont {s t : State} (h : Short s) {c : Nat} (e : setCellFont s c = some t) : Short t := by
  unfold Styles.setCellFont at e
  simp only [Option.bind_eq_some_iff] at e
  obtain ⟨q, -, s1, h1, x, -, s2, h2, h3⟩ := e
  have H1 : Short s1 := h.eq (fv_dup h1)
  refine Short.eq ?_ (fv_settle h3)
  have new : ∀ (k : Nat) (f : FEnt) u, s1.fonts[k]? = some f →
      Styles.setOn (Styles.addFont s1 f.font) s.xfs.length (.font (some s1.fonts.length)) = some u → Short u := by
    intro k f u hk hu
    exact (H1.add f.font (H1 _ (List.mem_map.mpr ⟨f, List.mem_of_getElem? hk, rfl⟩))).eq (fv_setOn hu)
  split at h2
  · rw [Option.bind_eq_some_iff] at h2
    obtain ⟨d, hd, h2⟩ := h2
    exact new _ d _ hd h2
  · rw [Option.bind_eq_some_iff] at h2
    obtain ⟨d, hd, h2⟩ := h2
    split at h2
    · exact new _ d _ hd h2
    · cases h2; exact H1

theorem run_name {o : FOp} {f g : Font} (ho : Font.Spec.Valid o) (h : o.run f = some g) (hf : f.name.length < 256) : g.name.length < 256 := by
  cases o <;> simp only [FOp.run, Option.some.injEq, Option.map_eq_some_iff] at h
  case name n => subst h; exact ho
  case bold | underline | script | color => obtain ⟨v, -, rfl⟩ := h; exact hf
  case italic | strike | outline | shadow =>
    subst h
    unfold Font.setAttr
    split <;> exact hf
  all_goals subst h; exact hf

theorem Short.setFontOn {s t : State} (h : Short s) {p : Nat} {o : FOp} (ho : Font.Spec.Valid o) (e : setFontOn s p o = some t) : Short t := by
  unfold Styles.setFontOn at e
  simp only [Option.bind_eq_some_iff, Option.map_eq_some_iff] at e
  obtain ⟨f, hf, v, hv, rfl⟩ := e
  intro g hg
  obtain ⟨d, hd, rfl⟩ := List.mem_map.mp hg
  rcases mem_modify hd with hd | ⟨x, hx, rfl⟩
  · exact h _ (List.mem_map.mpr ⟨d, hd, rfl⟩)
  · exact run_name ho hv (h _ (List.mem_map.mpr ⟨f, List.mem_of_getElem? hf, rfl⟩))

theorem Short.step {s t : State} {A : Spec.State} (h : Short s) {a : Action} (ha : Ok s A a) (e : step s a = some t) : Short t := by
  cases a with
  | newFont n => simp only [Styles.step, Option.some.injEq] at e; subst e; exact h.add _ ha
  | stockFont n =>
    simp only [Styles.step, if_pos (show n < 5 from ha)] at e
    obtain ⟨f, hf, rfl⟩ := Option.map_eq_some_iff.mp e
    exact h.add _ (h _ (List.mem_map.mpr ⟨f, List.mem_of_getElem? hf, rfl⟩))
  | copyFont p =>
    obtain ⟨f, hf, rfl⟩ := Option.map_eq_some_iff.mp e
    exact h.add _ (h _ (List.mem_map.mpr ⟨f, List.mem_of_getElem? hf, rfl⟩))
  | copyXf q => exact h.eq (fv_dup e)
  | font p o => exact h.setFontOn ha.2 e
  | newXf =>
    simp only [Styles.step, Option.map_eq_some_iff] at e
    obtain ⟨x, -, rfl⟩ := e
    exact h
  | xf q o => exact h.eq (fv_setOn e)
  | newCell q => simp only [Styles.step, Option.some.injEq] at e; subst e; exact h
  | destroy c =>
    simp only [Styles.step, Styles.destroy, Option.bind_eq_some_iff] at e
    obtain ⟨q, -, e⟩ := e
    exact h.eq ((fv_unmarkXf e).trans rfl)
  | setXf c q =>
    simp only [Styles.step, Styles.setXf, Option.bind_eq_some_iff] at e
    obtain ⟨q', -, e⟩ := e
    exact h.eq ((fv_unmarkXf e).trans rfl)
  | adopt c q ops =>
    simp only [Styles.step, Styles.setXf, Option.bind_eq_some_iff] at e
    obtain ⟨q', -, e⟩ := e
    exact h.eq ((fv_unmarkXf e).trans rfl)
  | cell c o =>
    simp only [Styles.step, Styles.cellOp, Option.bind_eq_some_iff] at e
    obtain ⟨q, -, s1, h1, s2, h2, h3⟩ := e
    exact h.eq ((fv_settle h3).trans ((fv_setOn h2).trans (fv_dup h1)))
  | cellFont c o =>
    simp only [Styles.step, Styles.cellFont, Option.bind_eq_some_iff] at e
    obtain ⟨s1, h1, q, -, x, -, p, -, e⟩ := e
    exact (h.setCellFont h1).setFontOn ha.2 e

end Xls.Styles
