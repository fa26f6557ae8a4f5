import Verif.Touch.Fonts
import Verif.Free.Props
/-
C78: what an operation on a range does to the answers of all objects of a workbook.
-/
namespace Xls.Touch
open Xls.Range (Rect RangeOp)
open Xls.Range.Spec (Inside)
open Xls.Desk (names)
open Xls.Free (AllCan RangeAble)
open Xls.Mirror (Sound)

theorem sound_after {P : List Area.Call} {p0 : Prog.State} (h0 : Prog.init = some p0) (hp : Area.Possible 0 P) (hf : AllCan (Desk.start p0) Prog.nothing P)
    (hn : (names (P.flatMap Area.frame)).length ≤ 65536) {s : Desk.State} (hs : Area.steps (Desk.start p0) P = some s) : ∃ A, Sound s.prog A := by
  obtain ⟨calls, t, h⟩ := Free.goes P (Desk.stands_init p0) (Free.begin_sound h0) hp (by show 0 + _ ≤ _; omega) hf
  obtain rfl := Option.some.inj (hs.symm.trans h.run)
  exact ⟨_, h.sound h0⟩

/-- C78: on any workbook that a program made by handing over existing objects, an operation with formats on a rectangle is carried out without undefined
    behaviour.  Afterwards every place inside has a cell with the value that was there (blank where there was none), and the getters of its format answer
    what the calls make of what they answered before; all other places of all sheets, all other cells, and all formats and fonts answer as before.
    For `cellcolor` and the borders and fills of a whole block this holds as long as there are at most 65536 formats, for single format functions always. -/
theorem c78_range (P : List Area.Call) (p0 : Prog.State) (h0 : Prog.init = some p0) (hp : Area.Possible 0 P) (hf : AllCan (Desk.start p0) Prog.nothing P)
    (hn : (names (P.flatMap Area.frame)).length ≤ 65536) (s : Desk.State) (hs : Area.steps (Desk.start p0) P = some s) (i : Nat) (hi : i < s.wb.sheets.length)
    (r : Rect) (h1 : r.lastRow < 2 ^ 32 - 1) (h2 : r.lastCol < 2 ^ 32 - 1) (o : RangeOp) (ho : RangeAble s.prog.look.styles o) (hnf : ∀ p, o ≠ .font p) :
    ∃ t, Area.step s (.range i r o) = some t ∧ ((∃ c, o = .call c) ∨ t.prog.look.styles.xfs.length ≤ 65536 → Changed i r o s t) := by
  obtain ⟨A, G⟩ := sound_after h0 hp hf hn hs
  obtain ⟨t, B, t1, -, t2⟩ := range_changed G i hi r h1 h2 o ho hnf
  exact ⟨t, t1, t2⟩

/-- C78 for font functions: the font of every place inside is changed by the call, once, however many of the places share it.  Formats and values stay; a place
    outside changes only if its font object is that of a place inside, and then as the call says. -/
theorem c78_range_font (P : List Area.Call) (p0 : Prog.State) (h0 : Prog.init = some p0) (hp : Area.Possible 0 P) (hf : AllCan (Desk.start p0) Prog.nothing P)
    (hn : (names (P.flatMap Area.frame)).length ≤ 65536) (s : Desk.State) (hs : Area.steps (Desk.start p0) P = some s) (i : Nat) (hi : i < s.wb.sheets.length)
    (r : Rect) (h1 : r.lastRow < 2 ^ 32 - 1) (h2 : r.lastCol < 2 ^ 32 - 1) (o : Font.FOp) (ho : Font.Spec.Valid o) :
    ∃ t, Area.step s (.range i r (.font o)) = some t ∧ FontChanged i r o s t := by
  obtain ⟨A, G⟩ := sound_after h0 hp hf hn hs
  obtain ⟨t, B, t1, -, t2⟩ := range_fonts G i hi r h1 h2 o ho
  exact ⟨t, t1, t2⟩

/-! ### A workbook -/

/-- Two sheets; font 5 and format 21 with that font, used at (0,0) of sheet 0, which is written anew without it and then
    with it, and at (7,7); a number at (1,1) of sheet 0 and one at (0,0) of sheet 1. -/
def sample : List Area.Call :=
  [.desk (.sheet [65]), .desk (.sheet [66]), .desk (.on (.look (.style (.newFont [70])))), .desk (.on (.look (.style .newXf))),
   .desk (.on (.look (.style (.xf 21 (.font (some 5)))))), .desk (.on (.look (.put 0 0 0 (.bool true) (some 21)))), .desk (.on (.look (.put 0 0 0 .blank none))),
   .desk (.on (.look (.put 0 0 0 (.bool true) (some 21)))),
   .desk (.on (.look (.put 0 7 7 (.bool false) (some 21)))), .desk (.on (.look (.put 0 1 1 (.signed 7) none))),
   .desk (.on (.look (.put 1 0 0 (.signed 8) none)))]

/-- The rectangle of the rows and columns 0 to 2. -/
def block : Rect := ⟨0, 0, 2, 2⟩

/-- C78: the exception is real.  Bold for the rectangle (0,0) to (2,2) also makes a cell at (7,7) bold that shares its font object with the one at (0,0):
    after (0,0) was written anew the font counts too few users (see `c73_font_shown_elsewhere`), so that it is changed in place. -/
theorem c78_font_shared : ∃ (P : List Area.Call) (p0 : Prog.State) (s t : Desk.State), Prog.init = some p0 ∧ Area.Possible 0 P ∧ AllCan (Desk.start p0) Prog.nothing P ∧
    Area.steps (Desk.start p0) P = some s ∧ Area.step s (.range 0 ⟨0, 0, 2, 2⟩ (.font (.bold 0))) = some t ∧
    (placeAnswers s 0 (7, 7)).map (·.2.2.bold) = some 400 ∧ (placeAnswers t 0 (7, 7)).map (·.2.2.bold) = some 700 := by
  obtain ⟨p0, h0, -⟩ := Mirror.init_sound
  have h : (Prog.init.bind fun p => (Area.steps (Desk.start p) sample).bind fun s => (Area.step s (.range 0 ⟨0, 0, 2, 2⟩ (.font (.bold 0)))).map fun t =>
    (Free.allCanB (Desk.start p) Prog.nothing sample, (placeAnswers s 0 (7, 7)).map (·.2.2.bold), (placeAnswers t 0 (7, 7)).map (·.2.2.bold))) =
      some (true, some 400, some 700) := by decide +kernel
  rw [h0, Option.bind_some] at h
  obtain ⟨s, s1, h⟩ := Option.bind_eq_some_iff.mp h
  obtain ⟨t, t1, h⟩ := Option.map_eq_some_iff.mp h
  simp only [Prod.mk.injEq] at h
  exact ⟨sample, p0, s, t, h0, by simp [sample, Area.Possible, Desk.target], Free.allCan_of h.1, s1, t1, h.2⟩

/-- The conditions are met: borders, a colour and a fill for the block, and italics for it. -/
example : ∃ p0 s t u, Prog.init = some p0 ∧ Area.steps (Desk.start p0) sample = some s ∧ Area.step s (.range 0 block (.box ⟨1, 1, 2, 3, 4⟩)) = some t ∧
    Changed 0 block (.box ⟨1, 1, 2, 3, 4⟩) s t ∧ Area.step s (.range 0 block (.font (.italic true))) = some u ∧ FontChanged 0 block (.italic true) s u := by
  obtain ⟨p0, h0, -⟩ := Mirror.init_sound
  have h : (Prog.init.bind fun p => (Area.steps (Desk.start p) sample).bind fun s => (Area.step s (.range 0 block (.box ⟨1, 1, 2, 3, 4⟩))).map fun t =>
    (Free.allCanB (Desk.start p) Prog.nothing sample && decide (0 < s.wb.sheets.length) && decide (t.prog.look.styles.xfs.length ≤ 65536))) = some true := by decide +kernel
  rw [h0, Option.bind_some] at h
  obtain ⟨s, s1, h⟩ := Option.bind_eq_some_iff.mp h
  obtain ⟨t, t1, h⟩ := Option.map_eq_some_iff.mp h
  simp only [Bool.and_eq_true, decide_eq_true_eq] at h
  have hp : Area.Possible 0 sample := by simp [sample, Area.Possible, Desk.target]
  have hf := Free.allCan_of h.1.1
  obtain ⟨t', e1, e2⟩ := c78_range sample p0 h0 hp hf (by decide) s s1 0 h.1.2 block (by decide) (by decide) (.box ⟨1, 1, 2, 3, 4⟩)
    ⟨by decide, by decide, by decide, by decide, by decide⟩ (fun _ h => by cases h)
  obtain rfl := Option.some.inj (t1.symm.trans e1)
  obtain ⟨u, u1, u2⟩ := c78_range_font sample p0 h0 hp hf (by decide) s s1 0 h.1.2 block (by decide) (by decide) (.italic true) (by decide)
  exact ⟨p0, s, t, u, h0, s1, t1, e2 (.inr h.2), u1, u2⟩

end Xls.Touch
