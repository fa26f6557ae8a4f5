import Verif.Styles.Props
/-
C84: what `Usage()` of a cell format answers.

For every program, without the conditions of C29.  The calls `MarkUsed` and `UnMarkUsed` by the program itself are left out, and the counter is not
bounded (there are fewer than 2^32 cells).
-/
namespace Xls.Styles
open Xls.Xf (Xf)
open Xls.Font (Font FOp)

/-- `xf_t::Usage`, extformat.cpp 605-608. -/
def usageOf (s : State) (q : Nat) : Option Nat := (s.xfs[q]?).map (·.usage)

/-- The formats that an action hands over to cells exist. -/
def Offered (s : State) : Action → Prop
  | .newCell q => ∀ r, q = some r → r < s.xfs.length
  | .setXf _ q => q < s.xfs.length
  | .adopt _ q _ => q < s.xfs.length
  | _ => True

/-- Along a program. -/
def AllOffered (s : State) : List Action → Prop
  | [] => True
  | a :: r => Offered s a ∧ ∀ t, step s a = some t → AllOffered t r

/-! ### Proof -/

/-- The counters. -/
def us (s : State) : List Nat := s.xfs.map (·.usage)

/-- What the library itself keeps of a default format. -/
def base (q : Nat) : Nat := if q < 21 then 2 else 0

structure Count (n : Nat → Nat) (s : State) : Prop where
  many : 21 ≤ (us s).length
  use : ∀ (q u : Nat), (us s)[q]? = some u → u = n q + base q
  out : ∀ q, (us s).length ≤ q → n q = 0

theorem us_len (s : State) : (us s).length = s.xfs.length := by simp [us]

theorem Count.eq {n : Nat → Nat} {s t : State} (h : Count n s) (e : us t = us s) : Count n t :=
  ⟨by rw [e]; exact h.many, by rw [e]; exact h.use, by rw [e]; exact h.out⟩

theorem Count.snoc {n : Nat → Nat} {s t : State} (h : Count n s) (e : us t = us s ++ [0]) : Count n t := by
  have hm := h.many
  refine ⟨by rw [e, List.length_append]; omega, fun q u hq => ?_, fun q hq => ?_⟩
  · rw [e] at hq
    rcases Nat.lt_trichotomy q (us s).length with c | c | c
    · rw [List.getElem?_append_left c] at hq
      exact h.use q u hq
    · subst c
      rw [List.getElem?_concat_length] at hq
      rw [h.out _ (Nat.le_refl _), base, if_neg (by omega)]
      exact (Option.some.inj hq).symm
    · rw [List.getElem?_eq_none (by simp; omega)] at hq
      cases hq
  · rw [e, List.length_append] at hq
    exact h.out q (by omega)

theorem Count.take {n : Nat → Nat} {s t : State} (h : Count n s) {k : Nat} (e : us t = (us s).take k) (hk : 21 ≤ k) (hl : k + 1 = (us s).length) (h0 : n k = 0) :
    Count n t := by
  have el : (us t).length = k := by rw [e, List.length_take]; omega
  refine ⟨by omega, fun q u hq => ?_, fun q hq => ?_⟩
  · rw [e, List.getElem?_take] at hq
    split at hq
    · exact h.use q u hq
    · cases hq
  · by_cases c : q = k
    · rw [c, h0]
    · exact h.out q (by omega)

theorem us_modify (s t : State) (q : Nat) (f : XEnt → XEnt) (g : Nat → Nat) (hg : ∀ e, (f e).usage = g e.usage) (ht : t.xfs = s.xfs.modify q f) :
    us t = (us s).modify q g := by
  refine List.ext_getElem? fun i => ?_
  rw [us, ht, List.getElem?_map, List.getElem?_modify, List.getElem?_modify, us, List.getElem?_map]
  cases s.xfs[i]? with
  | none => rfl
  | some e => by_cases c : q = i <;> simp [c, hg]

theorem Count.mark {n : Nat → Nat} {s : State} (h : Count n s) {q : Nat} (hq : q < s.xfs.length) : Count (plus n q) (markXf s q) := by
  have e : us (markXf s q) = (us s).modify q (· + 1) := us_modify _ _ _ _ _ (fun _ => rfl) rfl
  refine ⟨by rw [e, List.length_modify]; exact h.many, fun i u hi => ?_, fun i hi => ?_⟩
  · rw [e, List.getElem?_modify] at hi
    obtain ⟨v, hv, rfl⟩ := Option.map_eq_some_iff.mp hi
    have := h.use i v hv
    unfold plus
    by_cases c : q = i
    · rw [if_pos c, if_pos c.symm, this]; omega
    · rw [if_neg c, if_neg (fun h => c h.symm), ← this]
  · rw [e, List.length_modify, us_len] at hi
    unfold plus
    rw [if_neg (by omega)]
    exact h.out i (by rw [us_len]; exact hi)

theorem us_markFont? (s : State) (o : Option Nat) : us (markFont? s o) = us s := by cases o <;> rfl
theorem us_unmarkFont? (s : State) (o : Option Nat) : us (unmarkFont? s o) = us s := by cases o <;> rfl
theorem cells_markFont? (s : State) (o : Option Nat) : (markFont? s o).cells = s.cells := by cases o <;> rfl
theorem cells_unmarkFont? (s : State) (o : Option Nat) : (unmarkFont? s o).cells = s.cells := by cases o <;> rfl

theorem Count.unmark {n : Nat → Nat} {s t : State} (h : Count n s) {q : Nat} (hq : 1 ≤ n q) (ht : unmarkXf s q = some t) :
    Count (minus n q) t ∧ t.cells = s.cells ∧ (us t).length = (us s).length := by
  obtain ⟨x, -, rfl⟩ := Option.map_eq_some_iff.mp ht
  have e1 : us { s with xfs := s.xfs.modify q fun e => { e with usage := e.usage - 1 } } = (us s).modify q (· - 1) :=
    us_modify _ _ _ _ _ (fun _ => rfl) rfl
  have key : ∀ t : State, us t = (us s).modify q (· - 1) → Count (minus n q) t := by
    intro t e
    refine ⟨by rw [e, List.length_modify]; exact h.many, fun i u hi => ?_, fun i hi => ?_⟩
    · rw [e, List.getElem?_modify] at hi
      obtain ⟨v, hv, rfl⟩ := Option.map_eq_some_iff.mp hi
      have := h.use i v hv
      unfold minus
      by_cases c : q = i
      · subst c
        rw [if_pos rfl, if_pos rfl, this]; omega
      · rw [if_neg c, if_neg (fun h => c h.symm), ← this]
    · rw [e, List.length_modify] at hi
      have := h.out i hi
      unfold minus
      split <;> omega
  simp only
  split
  · exact ⟨key _ (by rw [us_unmarkFont?, e1]), cells_unmarkFont? _ _, by rw [us_unmarkFont?, e1, List.length_modify]⟩
  · exact ⟨key _ e1, rfl, by rw [e1, List.length_modify]⟩

theorem us_setOn {s t : State} {q : Nat} {o : Xf.Op} (h : setOn s q o = some t) : us t = us s ∧ t.cells = s.cells := by
  obtain ⟨e, -, h⟩ := Option.bind_eq_some_iff.mp h
  obtain ⟨x, -, rfl⟩ := Option.map_eq_some_iff.mp h
  have e1 : us { s with xfs := s.xfs.modify q fun e => { e with xf := x } } = us s := by
    rw [us_modify s _ q (fun e => { e with xf := x }) id (fun _ => rfl) rfl, List.modify_id]
  cases o with
  | font f => exact ⟨by rw [us_markFont?, us_unmarkFont?, e1], by rw [cells_markFont?, cells_unmarkFont?]⟩
  | _ => exact ⟨e1, rfl⟩

theorem us_setFontOn {s t : State} {p : Nat} {o : FOp} (h : setFontOn s p o = some t) : us t = us s ∧ t.cells = s.cells := by
  obtain ⟨f, -, h⟩ := Option.bind_eq_some_iff.mp h
  obtain ⟨v, -, rfl⟩ := Option.map_eq_some_iff.mp h
  exact ⟨rfl, rfl⟩

theorem us_dup {s t : State} {q : Nat} (h : dupXf s q = some t) : us t = us s ++ [0] ∧ t.cells = s.cells ∧ q < s.xfs.length := by
  obtain ⟨e, he, rfl⟩ := Option.map_eq_some_iff.mp h
  refine ⟨?_, cells_markFont? _ _, (List.getElem?_eq_some_iff.mp he).1⟩
  show (_ ++ [_]).map _ = _
  rw [List.map_append]
  exact congrArg (· ++ [0]) (us_markFont? s e.xf.font)

/-- The end of a format operation, when the last format is not used by any cell. -/
theorem Count.settle {s t : State} {c q : Nat} (h : Count (on s.cells) s) (hc : s.cells[c]? = some (some q)) (hk : 21 < s.xfs.length)
    (hlast : on s.cells (s.xfs.length - 1) = 0) (ht : settle s c q = some t) : Count (on t.cells) t := by
  obtain ⟨u, hu, ht⟩ := Option.bind_eq_some_iff.mp ht
  obtain ⟨r, hr, rfl⟩ := Option.map_eq_some_iff.mp ht
  obtain ⟨H, hcells, hlen⟩ := h.unmark (on_pos hc) hu
  rw [us_len, us_len] at hlen
  have key : Count (minus (on s.cells) q) r.2 ∧ r.2.cells = u.cells ∧ r.1 < r.2.xfs.length := by
    obtain ⟨x, hx, rfl⟩ := Option.map_eq_some_iff.mp hr
    cases hf : (u.xfs.drop 21).findIdx? fun e => e.xf == x.xf with
    | none => exact ⟨H, rfl, by show u.xfs.length - 1 < u.xfs.length; omega⟩
    | some i =>
      obtain ⟨hi, -⟩ := List.findIdx?_eq_some_iff_getElem.mp hf
      rw [List.length_drop] at hi
      simp only
      by_cases hj : 21 + i = u.xfs.length - 1
      · rw [if_pos hj]
        exact ⟨H, rfl, by show 21 + i < u.xfs.length; omega⟩
      · rw [if_neg hj]
        refine ⟨H.take (k := u.xfs.length - 1) (by rw [us, us, List.map_take]) (by omega) (by rw [us_len]; omega) ?_, rfl, ?_⟩
        · unfold minus
          rw [hlen]
          split <;> omega
        · show 21 + i < (u.xfs.take (u.xfs.length - 1)).length
          rw [List.length_take]
          omega
  obtain ⟨k1, k2, k3⟩ := key
  have k4 : Count (minus (on s.cells) q) { r.2 with cells := r.2.cells.set c (some r.1) } := k1.eq rfl
  have k5 : on (r.2.cells.set c (some r.1)) = plus (minus (on s.cells) q) r.1 := by rw [k2, hcells, on_set hc]
  show Count (on (r.2.cells.set c (some r.1))) _
  rw [k5]
  exact k4.mark k3

theorem Count.newLast {s t : State} (h : Count (on s.cells) s) {q : Nat} (ht : dupXf s q = some t) :
    Count (on t.cells) t ∧ t.cells = s.cells ∧ t.xfs.length = s.xfs.length + 1 ∧ on t.cells (t.xfs.length - 1) = 0 ∧ 21 < t.xfs.length := by
  obtain ⟨e1, e2, -⟩ := us_dup ht
  have hl : t.xfs.length = s.xfs.length + 1 := by rw [← us_len, e1, List.length_append, us_len]; rfl
  have hm := h.many
  rw [us_len] at hm
  refine ⟨by rw [e2]; exact h.snoc e1, e2, hl, ?_, by omega⟩
  rw [e2, hl]
  exact h.out _ (by rw [us_len]; omega)

theorem Count.setCellFont {s t : State} {c : Nat} (h : Count (on s.cells) s) (ht : setCellFont s c = some t) : Count (on t.cells) t := by
  obtain ⟨q, hq, ht⟩ := Option.bind_eq_some_iff.mp ht
  obtain ⟨u, hu, ht⟩ := Option.bind_eq_some_iff.mp ht
  obtain ⟨x, -, ht⟩ := Option.bind_eq_some_iff.mp ht
  obtain ⟨v, hv, ht⟩ := Option.bind_eq_some_iff.mp ht
  obtain ⟨H, h1, h2, h3, h4⟩ := h.newLast hu
  have same : us v = us u ∧ v.cells = u.cells := by
    split at hv
    · obtain ⟨y, -, hv⟩ := Option.bind_eq_some_iff.mp hv
      obtain ⟨a, b⟩ := us_setOn hv; exact ⟨a.trans rfl, b.trans rfl⟩
    · obtain ⟨y, -, hv⟩ := Option.bind_eq_some_iff.mp hv
      split at hv
      · obtain ⟨a, b⟩ := us_setOn hv; exact ⟨a.trans rfl, b.trans rfl⟩
      · cases Option.some.inj hv; exact ⟨rfl, rfl⟩
  have hl : v.xfs.length = u.xfs.length := by rw [← us_len, same.1, us_len]
  refine Count.settle (c := c) (q := q) (by rw [same.2]; exact H.eq same.1) ?_ (by omega) (by rw [same.2, hl]; exact h3) ht
  rw [same.2, h1]
  exact Option.join_eq_some_iff.mp hq

theorem Count.step {s t : State} (h : Count (on s.cells) s) {a : Action} (ha : Offered s a) (ht : step s a = some t) : Count (on t.cells) t := by
  have move : ∀ c q, q < s.xfs.length → setXf s c q = some t → Count (on t.cells) t := by
    intro c q hq ht
    obtain ⟨o, ho, ht⟩ := Option.bind_eq_some_iff.mp ht
    have ho := Option.join_eq_some_iff.mp ho
    have h1 : Count (on s.cells) { s with cells := s.cells.set c (some q) } := h.eq rfl
    have hp : 1 ≤ plus (on s.cells) q o := by
      have := on_pos ho
      unfold plus
      split <;> omega
    obtain ⟨h2, h3, -⟩ := (h1.mark (q := q) hq).unmark hp ht
    rw [h3]
    show Count (on (s.cells.set c (some q))) t
    rw [on_set ho, ← plus_minus _ _ _ (on_pos ho)]
    exact h2
  cases a with
  | newFont n => cases Option.some.inj ht; exact h.eq rfl
  | stockFont n =>
    simp only [Styles.step] at ht
    split at ht
    · obtain ⟨f, -, rfl⟩ := Option.map_eq_some_iff.mp ht; exact h.eq rfl
    · cases ht
  | copyFont p => obtain ⟨f, -, rfl⟩ := Option.map_eq_some_iff.mp ht; exact h.eq rfl
  | copyXf q => exact (h.newLast ht).1
  | font p o =>
    obtain ⟨e1, e2⟩ := us_setFontOn ht
    rw [e2]
    exact h.eq e1
  | newXf =>
    simp only [Styles.step] at ht
    obtain ⟨x, -, rfl⟩ := Option.map_eq_some_iff.mp ht
    exact h.snoc (by simp [us, addXf])
  | xf q o =>
    obtain ⟨e1, e2⟩ := us_setOn ht
    rw [e2]
    exact h.eq e1
  | newCell q =>
    cases Option.some.inj ht
    have hq : q.getD 15 < s.xfs.length := by
      cases q with
      | none => have := h.many; rw [us_len] at this; show 15 < _; omega
      | some r => exact ha r rfl
    have h1 : Count (on s.cells) { s with cells := s.cells ++ [some (q.getD 15)] } := h.eq rfl
    have e : on (newCell s q).cells = plus (on s.cells) (q.getD 15) := by
      funext i
      show (s.cells ++ [some (q.getD 15)]).count (some i) = _
      rw [List.count_append]
      unfold plus on
      by_cases c : i = q.getD 15
      · subst c; simp
      · rw [if_neg c]
        have : ¬ q.getD 15 = i := fun h => c h.symm
        simp [this]
    rw [e]
    exact h1.mark (q := q.getD 15) hq
  | destroy c =>
    obtain ⟨q, hq, ht⟩ := Option.bind_eq_some_iff.mp ht
    have hq := Option.join_eq_some_iff.mp hq
    have h1 : Count (on s.cells) { s with cells := s.cells.set c none } := h.eq rfl
    obtain ⟨h2, h3, -⟩ := h1.unmark (on_pos hq) ht
    rw [h3]
    show Count (on (s.cells.set c none)) t
    rw [on_gone hq]
    exact h2
  | setXf c q => exact move c q ha ht
  | adopt c q ops => exact move c q ha ht
  | cell c o =>
    obtain ⟨q, hq, ht⟩ := Option.bind_eq_some_iff.mp ht
    obtain ⟨u, hu, ht⟩ := Option.bind_eq_some_iff.mp ht
    obtain ⟨v, hv, ht⟩ := Option.bind_eq_some_iff.mp ht
    obtain ⟨H, h1, h2, h3, h4⟩ := h.newLast hu
    have same := us_setOn hv
    have hl : v.xfs.length = u.xfs.length := by rw [← us_len, same.1, us_len]
    refine Count.settle (c := c) (q := q) (by rw [same.2]; exact H.eq same.1) ?_ (by omega) (by rw [same.2, hl]; exact h3) ht
    rw [same.2, h1]
    exact Option.join_eq_some_iff.mp hq
  | cellFont c o =>
    obtain ⟨u, hu, ht⟩ := Option.bind_eq_some_iff.mp ht
    obtain ⟨q, -, ht⟩ := Option.bind_eq_some_iff.mp ht
    obtain ⟨e, -, ht⟩ := Option.bind_eq_some_iff.mp ht
    obtain ⟨p, -, ht⟩ := Option.bind_eq_some_iff.mp ht
    have H := h.setCellFont hu
    obtain ⟨e1, e2⟩ := us_setFontOn ht
    rw [e2]
    exact H.eq e1

theorem Count.steps {s t : State} (h : Count (on s.cells) s) {acts : List Action} (ha : AllOffered s acts) (ht : steps s acts = some t) : Count (on t.cells) t := by
  induction acts generalizing s with
  | nil => cases ht; exact h
  | cons a r ih =>
    obtain ⟨u, hu, ht⟩ := Option.bind_eq_some_iff.mp ht
    exact ih (h.step ha.1 hu) (ha.2 u hu) ht

theorem init_count : ∃ s, init = some s ∧ Count (on s.cells) s := by
  have h : init.map (fun s => (us s, s.cells)) = some (List.replicate 21 2, []) := by decide +kernel
  cases hi : init with
  | none => rw [hi] at h; cases h
  | some s =>
    rw [hi] at h
    obtain ⟨h1, h2⟩ := Prod.mk.inj (Option.some.inj h)
    refine ⟨s, rfl, by rw [h1]; decide, fun q u hq => ?_, fun q _ => by rw [h2]; rfl⟩
    rw [h1, List.getElem?_replicate] at hq
    rw [h2, base]
    split at hq
    · rename_i c
      rw [if_pos c]
      exact (Option.some.inj hq).symm
    · cases hq

/-- C84: whatever the program did to fonts, formats and cells, `Usage` of a format of the program answers the number of cells (rows and columns with a
    format count as cells) that have it now; of one of the 21 built-in formats it answers two more. -/
theorem c84_usage (acts : List Action) (s0 t : State) (h0 : init = some s0) (ha : AllOffered s0 acts) (ht : steps s0 acts = some t) (q : Nat) (hq : q < t.xfs.length) :
    usageOf t q = some (t.cells.count (some q) + if q < 21 then 2 else 0) := by
  obtain ⟨s, e, H⟩ := init_count
  rw [h0] at e
  cases Option.some.inj e
  have hu : (us t)[q]? = some t.xfs[q].usage := by simp [us, hq]
  rw [usageOf, List.getElem?_eq_getElem hq, Option.map_some, (H.steps ha ht).use q _ hu]
  rfl

/-- C84: `Usage` tells whether a format is in use: it answers zero for a format of the program exactly if no cell has it. -/
theorem c84_unused (acts : List Action) (s0 t : State) (h0 : init = some s0) (ha : AllOffered s0 acts) (ht : steps s0 acts = some t) (q : Nat) (hq : q < t.xfs.length)
    (h21 : 21 ≤ q) : usageOf t q = some 0 ↔ ∀ c : Nat, t.cells[c]? ≠ some (some q) := by
  rw [c84_usage acts s0 t h0 ha ht q hq, if_neg (by omega)]
  constructor
  · intro h c hc
    have := List.count_pos_iff.mpr (List.mem_of_getElem? hc)
    have := Option.some.inj h
    omega
  · intro h
    rw [List.count_eq_zero.mpr]
    intro hm
    obtain ⟨c, hc⟩ := List.getElem?_of_mem hm
    exact h c hc

/-- The same is not true of fonts: a format that all its cells gave up takes its mark off the font and does not set it again when it is given to another
    cell: the font counts as unused though a cell shows it. -/
theorem c84_font_wrong : ∃ acts t, (init.bind (steps · acts)) = some t ∧ usage t 5 = 0 ∧ t.cells = [none, some 21] ∧ (t.xfs[21]?).bind (·.xf.font) = some 5 := by
  refine ⟨[.newFont [65], .newXf, .xf 21 (.font (some 5)), .newCell (some 21), .destroy 0, .newCell (some 21)], _, rfl, ?_, ?_, ?_⟩ <;> decide +kernel

/-- Cells that share a format, part and come together again. -/
def tallySample : List Action :=
  [.newXf, .xf 21 (.halign 2), .newCell (some 21), .newCell (some 21), .newCell none, .cell 0 (.wrap true), .copyXf 21, .setXf 1 23, .cell 2 (.halign 2), .destroy 0]

def offeredB (s : State) : List Action → Bool
  | [] => true
  | a :: r => (match a with
      | .newCell (some q) => decide (q < s.xfs.length)
      | .setXf _ q => decide (q < s.xfs.length)
      | .adopt _ q _ => decide (q < s.xfs.length)
      | _ => true) && (match step s a with | none => true | some t => offeredB t r)

theorem offered_of {s : State} {acts : List Action} (h : offeredB s acts = true) : AllOffered s acts := by
  induction acts generalizing s with
  | nil => trivial
  | cons a r ih =>
    simp only [offeredB, Bool.and_eq_true] at h
    refine ⟨?_, fun t ht => ih (by have := h.2; rw [ht] at this; exact this)⟩
    cases a with
    | newCell q =>
      rintro p rfl
      exact of_decide_eq_true h.1
    | setXf c q => show q < _; exact of_decide_eq_true h.1
    | adopt c q ops => show q < _; exact of_decide_eq_true h.1
    | _ => trivial

example : (init.map fun s => offeredB s tallySample) = some true ∧
    (init.bind (steps · tallySample)).map (fun t => (t.xfs.length, [15, 21, 22, 23].map (usageOf t), t.cells)) =
      some (24, [some 2, some 1, some 0, some 1], [none, some 23, some 21]) := by decide +kernel

end Xls.Styles
