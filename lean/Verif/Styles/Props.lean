import Verif.Styles.Read
import Verif.Styles.Numbers
/-
C29: formatting a cell affects that cell only; C52: the numbers in the records are the positions of the records they mean.
-/
namespace Xls.Styles
open Xls.Xf (Xf)
open Xls.Font (Font FOp)
open Spec

/-! ### The workbook as constructed -/

/-- The checks of `Good init start`, one table at a time. -/
def startOk (s : State) : Bool :=
  s.fonts.length == 5 && s.xfs.length == 21 && s.cells == [] && s.fontNext == 6 && s.xfNext == 21 &&
  s.fonts.zipIdx.all (fun e => e.1.index == Xf.fontIndexOf e.2 && decide (refs s.xfs e.2 ≤ usage s e.2)) &&
  s.xfs.zipIdx.all (fun e => e.1.index == e.2 && e.1.usage == 2 && e.1.used &&
    (match e.1.xf.font with | none => true | some p => decide (p < 5))) &&
  fv s == Font.defaults && (xv s)[15]? == some { Xf.fresh with isUser := false }

theorem init_ok : init.map startOk = some true := by decide +kernel

theorem init_good : ∃ s, init = some s ∧ Good s start := by
  have h := init_ok
  cases hi : init with
  | none => rw [hi] at h; simp at h
  | some s =>
    rw [hi] at h
    simp only [Option.map_some, Option.some.injEq, startOk, Bool.and_eq_true, beq_iff_eq, List.all_eq_true] at h
    obtain ⟨⟨⟨⟨⟨⟨⟨⟨h1, h2⟩, h3⟩, h4⟩, h5⟩, h6⟩, h7⟩, h8⟩, h9⟩ := h
    have hf : ∀ (p : Nat) (f : FEnt), s.fonts[p]? = some f → f.index = Xf.fontIndexOf p ∧ refs s.xfs p ≤ usage s p := by
      intro p f hp
      have := h6 (f, p) (by rw [List.mem_zipIdx_iff_getElem?]; exact hp)
      exact ⟨this.1, by simpa using this.2⟩
    have hx : ∀ (q : Nat) (e : XEnt), s.xfs[q]? = some e → e.index = q ∧ e.usage = 2 ∧ e.used = true ∧ ∀ p, e.xf.font = some p → p < 5 := by
      intro q e hq
      have := h7 (e, q) (by rw [List.mem_zipIdx_iff_getElem?]; exact hq)
      obtain ⟨⟨⟨a, b⟩, c⟩, d⟩ := this
      refine ⟨a, b, c, fun p hp => ?_⟩
      rw [hp] at d
      simpa using d
    refine ⟨s, rfl, ?_, ?_⟩
    · rw [h3]
      refine ⟨⟨by omega, fun p f hp => (hf p f hp).1, by rw [h1, h4]⟩, by omega, ?_, ?_, fun _ _ => rfl, ?_, ?_, by rw [h5, h2]⟩
      · intro e he p hp
        obtain ⟨q, hq, rfl⟩ := List.getElem_of_mem he
        rw [h1]
        exact (hx q _ (List.getElem?_eq_getElem hq)).2.2.2 p hp
      · intro q e hq
        obtain ⟨-, b, c, -⟩ := hx q e hq
        rw [b, c]
        refine ⟨?_, by simp⟩
        simp only [on, List.count_nil]
        split <;> omega
      · intro p hp
        exact (hf p _ (List.getElem?_eq_getElem hp)).2
      · intro q e hq
        have := (List.getElem?_eq_some_iff.mp hq).1
        rw [(hx q e hq).1, Nat.mod_eq_of_lt (by omega)]
    · refine ⟨fun i d hd => by rw [h8]; exact hd, h9, by simp [start], by simp [start], ?_, fun _ _ => rfl⟩
      rw [h3]
      simp

/-! ### Programs -/

/-- What a program asked for; the handles of new objects are the positions they really got. -/
def asked (s : State) (A : Spec.State) : List Action → Spec.State
  | [] => A
  | a :: r => match step s a with
    | none => A
    | some t => asked t (Spec.step (handle s a) A a) r

/-- The conditions `Ok` along a program, and no more fonts than numbers for them. -/
def Fine (s : State) (A : Spec.State) : List Action → Prop
  | [] => True
  | a :: r => Ok s A a ∧ s.fonts.length < 65535 ∧ ∀ t, step s a = some t → Fine t (Spec.step (handle s a) A a) r

theorem sim_all {s : State} {A : Spec.State} (G : Good s A) (acts : List Action) (hf : Fine s A acts) :
    ∃ t, steps s acts = some t ∧ Good t (asked s A acts) := by
  induction acts generalizing s A with
  | nil => exact ⟨s, rfl, G⟩
  | cons a r ih =>
    obtain ⟨h1, h2, h3⟩ := hf
    obtain ⟨t, t1, t2⟩ := sim G a h1 h2
    obtain ⟨u, u1, u2⟩ := ih t2 (h3 t t1)
    refine ⟨u, by rw [steps, t1, Option.bind_some, u1], ?_⟩
    rw [asked, t1]
    exact u2

/-- C29, for programs that do not change a format after a cell uses it and do not give a format to a cell after all cells gave
    it up: nothing undefined happens, and what a reader of the records sees of every cell is what the calls on that cell (and,
    before it, on the format it was given) ask for, in every order of calls on other cells, formats and fonts.
    Missing for the full claim (the same for every program): the two conditions, see `c29_revived_format` and
    `c29_adopted_format`. -/
theorem c29_cells_partial (acts : List Action) (s0 : State) (h0 : init = some s0) (hf : Fine s0 start acts) :
    ∃ t, steps s0 acts = some t ∧ (t.xfs.length ≤ 65536 → ∀ c l, (asked s0 start acts).cells c = some l →
      ∃ h, fontOf (asked s0 start acts) l = some h ∧ seen t c = some (wantXf l, wantFont h)) := by
  obtain ⟨s, h1, G⟩ := init_good
  rw [h0] at h1
  cases Option.some.inj h1
  obtain ⟨t, t1, t2⟩ := sim_all G acts hf
  exact ⟨t, t1, fun hx c l hl => t2.read hx c l hl⟩

/-- Does an action address the cell? -/
def touches (c : Nat) : Action → Bool
  | .destroy c' => c' == c
  | .setXf c' _ => c' == c
  | .adopt c' _ _ => c' == c
  | .cell c' _ => c' == c
  | .cellFont c' _ => c' == c
  | _ => false

/-- Does it change the font object the cell was given? -/
def changes (l : Look) : Action → Bool
  | .font p _ => l.font == .shared p
  | _ => false

theorem asked_other {s : State} {A : Spec.State} (G : Good s A) (c : Nat) (l : Look) (hl : A.cells c = some l) (acts : List Action)
    (hf : Fine s A acts) (h1 : ∀ a ∈ acts, touches c a = false) (h2 : ∀ a ∈ acts, changes l a = false) :
    (asked s A acts).cells c = some l ∧ fontOf (asked s A acts) l = fontOf A l := by
  induction acts generalizing s A with
  | nil => exact ⟨hl, rfl⟩
  | cons a r ih =>
    obtain ⟨k1, k2, k3⟩ := hf
    obtain ⟨t, t1, t2⟩ := sim G a k1 k2
    obtain ⟨q, e, c1, -⟩ := G.cell hl
    have hcl := (List.getElem?_eq_some_iff.mp c1).1
    have ht := h1 a (by simp)
    have hch := h2 a (by simp)
    have hc : (Spec.step (handle s a) A a).cells c = some l := by
      cases a with
      | newCell q => cases q <;> simp only [Spec.step, handle, upd, if_neg (show ¬ c = s.cells.length by omega), hl]
      | destroy c' =>
        have : ¬ c = c' := by simp [touches] at ht; exact fun h => ht h.symm
        simp only [Spec.step, upd, if_neg this, hl]
      | setXf c' q =>
        have : ¬ c = c' := by simp [touches] at ht; exact fun h => ht h.symm
        simp only [Spec.step, upd, if_neg this, hl]
      | adopt c' q ops =>
        have : ¬ c = c' := by simp [touches] at ht; exact fun h => ht h.symm
        simp only [Spec.step, upd, if_neg this, hl]
      | cell c' o =>
        have : ¬ c = c' := by simp [touches] at ht; exact fun h => ht h.symm
        simp only [Spec.step, upd, if_neg this, hl]
      | cellFont c' o =>
        have : ¬ c = c' := by simp [touches] at ht; exact fun h => ht h.symm
        simp only [Spec.step, upd, if_neg this, hl]
      | _ => exact hl
    have hfo : fontOf (Spec.step (handle s a) A a) l = fontOf A l := by
      unfold fontOf
      cases hlf : l.font with
      | own h => rfl
      | shared p =>
        obtain ⟨q, e, -, -, -, lk⟩ := G.cell hl
        have hmine := lk.font
        rw [hlf] at hmine
        obtain ⟨-, -, h, hm⟩ := hmine
        have := (G.mine hm).2
        cases a with
        | newFont n => simp only [Spec.step, handle, upd, if_neg (show ¬ p = s.fonts.length by omega)]
        | stockFont n => simp only [Spec.step, handle, upd, if_neg (show ¬ p = s.fonts.length by omega)]
        | copyFont n => simp only [Spec.step, handle, upd, if_neg (show ¬ p = s.fonts.length by omega)]
        | font p' o =>
          have : ¬ p = p' := by
            rintro rfl
            simp [changes, hlf] at hch
          simp only [Spec.step, upd, if_neg this]
        | newCell q => cases q <;> rfl
        | _ => rfl
    rw [asked, t1]
    obtain ⟨i1, i2⟩ := ih t2 hc (k3 t t1) (fun a h => h1 a (by simp [h])) (fun a h => h2 a (by simp [h]))
    exact ⟨i1, by rw [i2, hfo]⟩

/-- C29, the same limits: whatever is done to other cells, to formats and to fonts the cell was not given, a reader sees the
    same of the cell. -/
theorem c29_isolated_partial (pre acts : List Action) (s0 s t : State) (h0 : init = some s0) (hs : steps s0 pre = some s)
    (hf : Fine s0 start pre) (hg : Fine s (asked s0 start pre) acts) (ht : steps s acts = some t) (hx : s.xfs.length ≤ 65536)
    (hy : t.xfs.length ≤ 65536) (c : Nat) (l : Look) (hl : (asked s0 start pre).cells c = some l)
    (h1 : ∀ a ∈ acts, touches c a = false) (h2 : ∀ a ∈ acts, changes l a = false) : seen t c = seen s c ∧ seen s c ≠ none := by
  obtain ⟨s', e1, G⟩ := init_good
  rw [h0] at e1
  cases Option.some.inj e1
  obtain ⟨u, u1, u2⟩ := sim_all G pre hf
  rw [hs] at u1
  cases Option.some.inj u1
  obtain ⟨v, v1, v2⟩ := sim_all u2 acts hg
  rw [ht] at v1
  cases Option.some.inj v1
  obtain ⟨a1, a2⟩ := asked_other u2 c l hl acts hg h1 h2
  obtain ⟨h, b1, b2⟩ := u2.read hx c l hl
  obtain ⟨h', d1, d2⟩ := v2.read hy c l a1
  rw [a2, b1] at d1
  cases Option.some.inj d1
  rw [b2, d2]
  exact ⟨rfl, by simp⟩

/-! ### The conditions can be met -/

instance : DecidablePred Xf.Spec.Valid := fun o => by unfold Xf.Spec.Valid; split <;> infer_instance
instance : DecidablePred Font.Spec.Valid := fun o => by unfold Font.Spec.Valid; split <;> infer_instance

def callOkB (A : Spec.State) (o : Xf.Op) : Bool :=
  decide (Xf.Spec.Valid o) && (match o with | .font (some p) => (A.fonts p).isSome | _ => true)

/-- `Ok`, computed; never true of `adopt`, which no program calls by itself. -/
def okB (s : State) (A : Spec.State) : Action → Bool
  | .newFont n => decide (n.length < 256)
  | .stockFont n => decide (n < 5)
  | .copyFont p => (A.fonts p).isSome
  | .copyXf q => (A.formats q).isSome
  | .font p o => (A.fonts p).isSome && decide (Font.Spec.Valid o)
  | .newXf => true
  | .xf q o => (A.formats q).isSome && callOkB A o && (s.xfs[q]?).all (!·.used)
  | .newCell none => true
  | .newCell (some q) => (A.formats q).isSome && (s.xfs[q]?).all (!dead ·)
  | .destroy c => (A.cells c).isSome
  | .setXf c q => (A.cells c).isSome && (A.formats q).isSome && (s.xfs[q]?).all (!dead ·)
  | .adopt _ _ _ => false
  | .cell c o => (A.cells c).isSome && callOkB A o
  | .cellFont c o => (A.cells c).isSome && decide (Font.Spec.Valid o)

theorem callOk_of {A : Spec.State} {o : Xf.Op} (h : callOkB A o = true) : CallOk A o := by
  simp only [callOkB, Bool.and_eq_true, decide_eq_true_eq] at h
  refine ⟨h.1, ?_⟩
  rintro p rfl
  exact Option.isSome_iff_exists.mp h.2

theorem ok_of {s : State} {A : Spec.State} {a : Action} (h : okB s A a = true) : Ok s A a := by
  have nd : ∀ q : Nat, (s.xfs[q]?).all (!dead ·) = true → ∀ e, s.xfs[q]? = some e → dead e = false := by
    intro q hq e he
    rw [he] at hq
    simpa using hq
  have nu : ∀ q : Nat, (s.xfs[q]?).all (!·.used) = true → ∀ e, s.xfs[q]? = some e → e.used = false := by
    intro q hq e he
    rw [he] at hq
    simpa using hq
  cases a with
  | newCell q =>
    cases q with
    | none => trivial
    | some q =>
      simp only [okB, Bool.and_eq_true] at h
      exact ⟨Option.isSome_iff_exists.mp h.1, nd q h.2⟩
  | newFont n => simp only [okB, decide_eq_true_eq] at h; exact h
  | stockFont n => simp only [okB, decide_eq_true_eq] at h; exact h
  | adopt c q ops => cases h
  | copyFont p => exact Option.isSome_iff_exists.mp h
  | copyXf q => exact Option.isSome_iff_exists.mp h
  | newXf => trivial
  | font p o =>
    simp only [okB, Bool.and_eq_true, decide_eq_true_eq] at h
    exact ⟨Option.isSome_iff_exists.mp h.1, h.2⟩
  | xf q o =>
    simp only [okB, Bool.and_eq_true] at h
    exact ⟨Option.isSome_iff_exists.mp h.1.1, callOk_of h.1.2, nu q h.2⟩
  | destroy c => exact Option.isSome_iff_exists.mp h
  | setXf c q =>
    simp only [okB, Bool.and_eq_true] at h
    exact ⟨Option.isSome_iff_exists.mp h.1.1, Option.isSome_iff_exists.mp h.1.2, nd q h.2⟩
  | cell c o =>
    simp only [okB, Bool.and_eq_true] at h
    exact ⟨Option.isSome_iff_exists.mp h.1, callOk_of h.2⟩
  | cellFont c o =>
    simp only [okB, Bool.and_eq_true, decide_eq_true_eq] at h
    exact ⟨Option.isSome_iff_exists.mp h.1, h.2⟩

def fineB (s : State) (A : Spec.State) : List Action → Bool
  | [] => true
  | a :: r => okB s A a && decide (s.fonts.length < 65535) &&
    (match step s a with | none => true | some t => fineB t (Spec.step (handle s a) A a) r)

theorem fine_of {s : State} {A : Spec.State} {acts : List Action} (h : fineB s A acts = true) : Fine s A acts := by
  induction acts generalizing s A with
  | nil => trivial
  | cons a r ih =>
    simp only [fineB, Bool.and_eq_true, decide_eq_true_eq] at h
    refine ⟨ok_of h.1.1, h.1.2, fun t ht => ih ?_⟩
    have := h.2
    rw [ht] at this
    exact this

/-- Two fonts, a shared format, cells that share and part, a font changed later. -/
def sample : List Action :=
  [.newFont [65], .stockFont 3, .newXf, .xf 21 (.font (some 5)), .xf 21 (.fill 1), .newCell (some 21), .newCell (some 21), .newCell none,
   .cellFont 0 (.bold 0), .cell 1 (.halign 2), .cellFont 2 (.italic true), .cell 2 (.font (some 6)), .font 6 (.height 300),
   .font 5 (.underline 1), .cell 0 (.halign 2), .newXf, .xf 27 (.wrap true), .setXf 2 27, .destroy 1]

example : ∃ s0, init = some s0 ∧ Fine s0 start sample := by
  obtain ⟨s0, h0, -⟩ := init_good
  refine ⟨s0, h0, fine_of ?_⟩
  have h : (init.map fun s => fineB s start sample) = some true := by decide +kernel
  rw [h0] at h
  exact Option.some.inj h

/-- Copies of a font and of a format, both changed afterwards and given to cells. -/
def copies : List Action :=
  [.newFont [65], .font 5 (.bold 0), .copyFont 5, .font 6 (.italic true), .newXf, .xf 21 (.font (some 5)), .xf 21 (.halign 2), .copyXf 21,
   .xf 22 (.wrap true), .xf 22 (.font (some 6)), .newCell (some 21), .newCell (some 22), .font 5 (.bold 2), .copyXf 22, .setXf 0 23]

example : ∃ s0, init = some s0 ∧ Fine s0 start copies := by
  obtain ⟨s0, h0, -⟩ := init_good
  refine ⟨s0, h0, fine_of ?_⟩
  have h : (init.map fun s => fineB s start copies) = some true := by decide +kernel
  rw [h0] at h
  exact Option.some.inj h

/-! ### Where the claim fails -/

/-- What a reader sees of a cell after a program: wrap, horizontal alignment, weight, italic. -/
def glance (acts : List Action) (c : Nat) : Option (Bool × Nat × Nat × Bool) :=
  (init.bind (steps · acts)).bind fun s => (seen s c).map fun r => (r.1.wrap, r.1.halign, r.2.weight, r.2.italic)

example : glance (copies.take 13) 0 = some (false, 2, 400, false) ∧ glance (copies.take 13) 1 = some (true, 2, 700, true) ∧
    glance copies 0 = some (true, 2, 700, true) := by decide +kernel

/-- A format whose cells are all gone forgets that it uses its font.  Format 21 has the program's font 5; cell 0 gets it and is
    overwritten; cells 1 and 2 get it; making cell 1 bold makes cell 2 bold. -/
theorem c29_revived_format :
    let acts : List Action := [.newFont [65], .newXf, .xf 21 (.font (some 5)), .newCell (some 21), .destroy 0,
      .newCell (some 21), .newCell (some 21)]
    glance acts 2 = some (false, 0, 400, false) ∧ glance (acts ++ [.cellFont 1 (.bold 0)]) 2 = some (false, 0, 700, false) := by
  decide +kernel

/-- Without any cell being overwritten: cell 0 is given format 21 and centred, cell 1 is given it and made bold, cell 0 is made
    italic; a new cell with format 21 comes out italic, although neither the format nor its font was touched. -/
theorem c29_changed_format :
    let acts : List Action := [.newFont [65], .newXf, .xf 21 (.font (some 5)), .newCell (some 21), .cell 0 (.halign 2),
      .newCell (some 21), .cellFont 1 (.bold 0)]
    glance (acts ++ [.newCell (some 21)]) 2 = some (false, 0, 400, false) ∧
    glance (acts ++ [.cellFont 0 (.italic true), .newCell (some 21)]) 2 = some (false, 0, 400, true) := by
  decide +kernel

/-- A cell can end up on a format object of the program that it was never given: format 21 is centred, cell 0 is created plain
    and centred; a later change of format 21 changes cell 0. -/
theorem c29_adopted_format :
    let acts : List Action := [.newXf, .xf 21 (.halign 2), .newCell none, .cell 0 (.halign 2)]
    glance acts 0 = some (false, 2, 400, false) ∧ glance (acts ++ [.xf 21 (.wrap true)]) 0 = some (true, 2, 400, false) := by
  decide +kernel

/-! ### Numbers and positions -/

theorem init_num : ∃ s, init = some s ∧ Num s := by
  obtain ⟨s, h, G⟩ := init_good
  refine ⟨s, h, ?_⟩
  have I := G.inv
  refine ⟨I.fonts.five, ?_, I.fonts.next, ?_, I.next, I.ptr⟩
  · refine List.ext_getElem (by simp) fun i h1 h2 => ?_
    simp only [List.length_map] at h1
    simpa using I.fonts.index i _ (List.getElem?_eq_getElem h1)
  · refine List.ext_getElem (by simp) fun i h1 h2 => ?_
    simp only [List.length_map] at h1
    simpa using I.index i _ (List.getElem?_eq_getElem h1)

/-- C52: after every program whose calls hand over existing fonts (whatever else it does, also outside the conditions of C29),
    font object number `p` (the order of the FONT records) has the number that skips 4, format object number `q` (the order of
    the XF records) has the number `q`, and every font a format names exists. -/
theorem c52_numbers (acts : List Action) (s0 t : State) (h0 : init = some s0) (hk : AllKnown s0 acts) (h : steps s0 acts = some t) :
    (∀ p f, t.fonts[p]? = some f → p < 65535 → f.index = if p < 4 then p else p + 1) ∧
    (∀ q e, t.xfs[q]? = some e → q < 65536 → e.index = q) ∧
    (∀ e ∈ t.xfs, ∀ p, e.xf.font = some p → p < t.fonts.length) := by
  obtain ⟨s, h1, N⟩ := init_num
  rw [h0] at h1
  cases Option.some.inj h1
  have N := N.steps hk h
  refine ⟨?_, ?_, N.ptr⟩
  · intro p f hp hlt
    have := congrArg (·[p]?) N.fi
    simp only [List.getElem?_map, hp, List.getElem?_range (List.getElem?_eq_some_iff.mp hp).1, Option.map_some, Option.some.injEq] at this
    rw [this, Xf.font_code p hlt, Xf.Spec.fontCode]
  · intro q e hq hlt
    have := congrArg (·[q]?) N.xi
    simp only [List.getElem?_map, hq, List.getElem?_range (List.getElem?_eq_some_iff.mp hq).1, Option.map_some, Option.some.injEq] at this
    rw [this, Nat.mod_eq_of_lt hlt]

/-- A program outside the conditions of C29: a format is given to cells again after its cell went away. -/
def revived : List Action :=
  [.newFont [65], .newXf, .xf 21 (.font (some 5)), .newCell (some 21), .destroy 0, .newCell (some 21), .newCell (some 21), .cellFont 1 (.bold 0),
   .cellFont 2 (.italic true), .newFont [66], .cell 1 (.halign 2)]

example : ∃ s0 t, init = some s0 ∧ AllKnown s0 revived ∧ steps s0 revived = some t ∧ t.fonts.length = 8 ∧ t.xfs.length = 24 := by
  obtain ⟨s0, h0, N⟩ := init_num
  have h : (init.bind fun s => (steps s revived).map fun t => (t.fonts.length, t.xfs.length)) = some (8, 24) := by decide +kernel
  rw [h0, Option.bind_some, Option.map_eq_some_iff] at h
  obtain ⟨t, h1, h2⟩ := h
  refine ⟨s0, t, h0, ?_, h1, (Prod.mk.inj h2).1, (Prod.mk.inj h2).2⟩
  have five := N.five
  simp only [revived, AllKnown, Known, Has, true_and, reduceCtorEq, false_implies, implies_true, and_true, Xf.Op.font.injEq,
    Option.some.injEq, forall_eq', step]
  intro t1 e1
  rw [Option.map_eq_some_iff] at e1
  obtain ⟨x, -, rfl⟩ := e1
  simp [addFont, addXf]
  omega

end Xls.Styles
