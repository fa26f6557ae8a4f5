import Verif.Xf.Mode
import Verif.Ask.Model
import Verif.Styles.Model
/-
C80: formats that are compared and copied.
-/
namespace Xls.Xf
open Xls.Xf.Spec Xls.Ask

/-! ### Model -/

/-- The loop of `xf_t::operator==` over the sides, extformat.cpp 895-900. -/
def sameSides (x y : Xf) : List Side → Bool
  | [] => true
  | s :: r =>
    if x.bstyle.get s != y.bstyle.get s then false
    else if x.bcolor.get s != y.bcolor.get s then false
    else sameSides x y r

/-- `xf_t::operator==`, extformat.cpp 859-906. -/
def same (x y : Xf) : Bool :=
  if x.formatIndex != y.formatIndex then false
  else if x.font != y.font then false
  else if x.format != y.format then false
  else if x.halign != y.halign then false
  else if x.valign != y.valign then false
  else if x.indent != y.indent then false
  else if x.orient != y.orient then false
  else if x.fill != y.fill then false
  else if x.fg != y.fg then false
  else if x.bg != y.bg then false
  else if x.locked != y.locked then false
  else if x.hidden != y.hidden then false
  else if x.wrap != y.wrap then false
  else if x.isCell != y.isCell then false
  else if x.isUser != y.isUser then false
  else if !sameSides x y [.bottom, .top, .left, .right, .diagonals] then false
  else x.flags == y.flags

/-- A user format (`workbook::xformat`, workbook.cpp 203-208) after calls. -/
def made (cs : List ModeCall) : Option Xf := (new true true false).bind fun x => runModes x cs

/-! ### Specification -/

namespace Spec

/-- What the public getters of a format tell: all of C64's without the flags (`GetFlags` is private, extformat.h 548), and `GetFont` and `IsCell`. -/
structure Public where
  report : FormatReport
  font : Option Nat
  isCell : Bool

def tells (x : Xf) : Public := ⟨{ askFormat x with flags := 0 }, x.font, x.isCell⟩

end Spec

/-! ### Proof -/

theorem same_iff (x y : Xf) : same x y = true ↔ x = y := by
  obtain ⟨x1, x2, x3, x4, x5, x6, x7, x8, x9, x10, x11, x12, x13, x14, x15, ⟨p1, p2, p3, p4, p5⟩, ⟨q1, q2, q3, q4, q5⟩, x18⟩ := x
  obtain ⟨y1, y2, y3, y4, y5, y6, y7, y8, y9, y10, y11, y12, y13, y14, y15, ⟨r1, r2, r3, r4, r5⟩, ⟨s1, s2, s3, s4, s5⟩, y18⟩ := y
  simp only [same, sameSides, Five.get, Xf.mk.injEq, Five.mk.injEq, bne_iff_ne, ne_eq, ite_not, Bool.not_eq_true', Bool.if_false_right, Bool.and_eq_true,
    Bool.not_eq_eq_eq_not, Bool.not_not, Bool.and_true, decide_eq_true_eq, beq_iff_eq, Bool.decide_and, Bool.not_true]
  grind

theorem made_some (cs : List ModeCall) (hv : ∀ o, .set o ∈ cs → Valid o) : ∃ x, made cs = some x ∧ After cs x := by
  obtain ⟨x, hx, H⟩ := after_all cs [] fresh after_new hv
  rw [List.nil_append] at H
  exact ⟨x, by rw [made, new_user, Option.bind_some, hx], H⟩

/-- A chosen user format gives the number. -/
theorem format_ptr (ops : List Op) : ∀ (n : Nat) (f : Option Nat), (∀ o ∈ ops, Valid o) → (∀ k, f = some k → n = 164 + k ∧ k < 65372) →
    ∀ k, last pickFormatPtr f ops = some k → last pickFormat n ops = 164 + k ∧ k < 65372 := by
  induction ops with
  | nil => exact fun n f _ h => h
  | cons o r ih =>
    intro n f hv h
    simp only [last, List.foldl_cons] at ih ⊢
    refine ih _ _ (fun o h => hv o (List.mem_cons_of_mem _ h)) ?_
    have ho := hv o (List.mem_cons_self ..)
    cases o with
    | userFormat k =>
      cases k with
      | none => exact h
      | some k =>
        intro j hj
        simp only [pickFormatPtr, Option.getD_some, Option.some.injEq] at hj
        subst hj
        exact ⟨rfl, ho⟩
    | formatIndex i => intro j hj; cases hj
    | format i => intro j hj; cases hj
    | _ => exact h

theorem made_format {cs : List ModeCall} (hv : ∀ o, .set o ∈ cs → Valid o) {x : Xf} (H : After cs x) :
    x.font = last pickFontPtr none (setters cs) ∧ x.format = last pickFormatPtr none (setters cs) ∧ x.isUser = true ∧
      ∀ k, x.format = some k → x.formatIndex = formatIndexOf k := by
  have e1 : x.font = (track fresh (setters cs)).font := (congrArg Xf.font H.bare : (bare x).font = (bare (track fresh (setters cs))).font)
  have e2 : x.format = (track fresh (setters cs)).format := (congrArg Xf.format H.bare : (bare x).format = (bare (track fresh (setters cs))).format)
  have e3 : x.formatIndex = (track fresh (setters cs)).formatIndex := (congrArg Xf.formatIndex H.bare : (bare x).formatIndex = (bare (track fresh (setters cs))).formatIndex)
  have e4 : x.isUser = (track fresh (setters cs)).isUser := (congrArg Xf.isUser H.bare : (bare x).isUser = (bare (track fresh (setters cs))).isUser)
  refine ⟨e1, e2, e4, fun k hk => ?_⟩
  have := format_ptr (setters cs) 0 none (setters_valid hv) (fun k h => by cases h) k (e2.symm.trans hk)
  rw [user_code k this.2, e3]
  exact this.1

theorem user_pos {k : Nat} (h : k < 65372) : formatIndexOf k ≠ 0 := by rw [user_code k h]; omega

/-- The copy, attribute by attribute. -/
theorem dup_made {cs : List ModeCall} (hv : ∀ o, .set o ∈ cs → Valid o) {x : Xf} (H : After cs x) :
    dup x = { x with isCell := true, flags := (x.flags ||| if x.font = none then 0 else 8) ||| if x.format = none then 0 else 4 } := by
  obtain ⟨h1, h2, h3, h4⟩ := made_format hv H
  have h5 : ∀ k, x.format = some k → formatIndexOf k ≠ 0 := fun k hk =>
    user_pos (format_ptr (setters cs) 0 none (setters_valid hv) (fun k h => by cases h) k (h2.symm.trans hk)).2
  clear h1 h2 H
  obtain ⟨x1, x2, x3, x4, x5, x6, x7, x8, x9, x10, x11, x12, x13, x14, x15, x16, x17, x18⟩ := x
  simp only at h3 h4 h5
  subst h3
  cases x3 with
  | none => cases x2 <;> simp [dup, setFont, flagIf, setFlag, atrFont]
  | some k =>
    have e4 := h4 k rfl
    have e5 := h5 k rfl
    subst e4
    cases x2 <;> simp [dup, setFont, setUserFormat, flagIf, setFlag, atrFont, atrNum, e5]

/-- C80, comparing: formats that compare equal tell the same whatever is asked, and have the same record. -/
theorem c80_equal (x y : Xf) (h : same x y = true) : tells x = tells y ∧ record x = record y := by
  rw [(same_iff x y).mp h]
  exact ⟨rfl, rfl⟩

theorem flags_bit (ops : List Op) (f k : Nat) :
    (ops.foldl (fun f o => f ||| flagOf o) f).testBit k = (f.testBit k || ops.any fun o => (flagOf o).testBit k) := by
  induction ops generalizing f with
  | nil => simp
  | cons o r ih => rw [List.foldl_cons, ih, Nat.testBit_or, List.any_cons, Bool.or_assoc]

theorem flagOf_bit (o : Op) (k : Nat) : (flagOf o).testBit k =
    if k = 2 then setsFormat o else if k = 3 then setsFont o else if k = 4 then setsAlign o else if k = 5 then setsBorder o
    else if k = 6 then setsPattern o else if k = 7 then setsProtect o else false := by
  by_cases h : k < 8
  · have hb : ∀ k, (flagOf o).testBit k = (bits (flagOf o) k 1 == 1) := fun k => (bits_test _ k).symm
    have : k = 0 ∨ k = 1 ∨ k = 2 ∨ k = 3 ∨ k = 4 ∨ k = 5 ∨ k = 6 ∨ k = 7 := by omega
    rcases this with rfl | rfl | rfl | rfl | rfl | rfl | rfl | rfl
    · rcases flagOf_cases o with h | h | h | h | h | h | h <;> rw [h] <;> rfl
    · rcases flagOf_cases o with h | h | h | h | h | h | h <;> rw [h] <;> rfl
    · rw [hb, flag_num]; rfl
    · rw [hb, flag_font]; rfl
    · rw [hb, flag_alc]; rfl
    · rw [hb, flag_bdr]; rfl
    · rw [hb, flag_pat]; rfl
    · rw [hb, flag_prot]; rfl
  · repeat rw [if_neg (by omega)]
    refine Nat.testBit_lt_two_pow (Nat.lt_of_lt_of_le ?_ (Nat.pow_le_pow_right (by decide) (Nat.le_of_not_lt h)))
    rcases flagOf_cases o with h | h | h | h | h | h | h <;> rw [h] <;> decide

theorem flags_asks (a b : List Op) : (track fresh a).flags = (track fresh b).flags ↔ asks a = asks b := by
  show a.foldl (fun f o => f ||| flagOf o) 0 = b.foldl (fun f o => f ||| flagOf o) 0 ↔ _
  simp only [asks, List.cons.injEq, and_true]
  constructor
  · intro h
    have hb : ∀ k, (a.any fun o => (flagOf o).testBit k) = b.any fun o => (flagOf o).testBit k := by
      intro k
      have := congrArg (·.testBit k) h
      simpa [flags_bit] using this
    have e2 := hb 2
    have e3 := hb 3
    have e4 := hb 4
    have e5 := hb 5
    have e6 := hb 6
    have e7 := hb 7
    simp only [flagOf_bit] at e2 e3 e4 e5 e6 e7
    exact ⟨e2, e3, e4, e5, e6, e7⟩
  · rintro ⟨e2, e3, e4, e5, e6, e7⟩
    refine Nat.eq_of_testBit_eq fun k => ?_
    simp only [flags_bit, flagOf_bit]
    by_cases h2 : k = 2
    · subst h2; simpa using e2
    by_cases h3 : k = 3
    · subst h3; simpa using e3
    by_cases h4 : k = 4
    · subst h4; simpa using e4
    by_cases h5 : k = 5
    · subst h5; simpa using e5
    by_cases h6 : k = 6
    · subst h6; simpa using e6
    by_cases h7 : k = 7
    · subst h7; simpa using e7
    simp only [if_neg h2, if_neg h3, if_neg h4, if_neg h5, if_neg h6, if_neg h7]
    rw [List.any_eq_false.mpr (fun _ _ => by simp), List.any_eq_false.mpr (fun _ _ => by simp)]

/-- Without `SetFormatIndex` the number says which user format was chosen. -/
theorem format_num (ops : List Op) : ∀ (n : Nat) (f : Option Nat), (∀ i, .formatIndex i ∉ ops) → (f = if n < 164 then none else some (n - 164)) →
    last pickFormatPtr f ops = if last pickFormat n ops < 164 then none else some (last pickFormat n ops - 164) := by
  induction ops with
  | nil => exact fun n f _ h => h
  | cons o r ih =>
    intro n f hn h
    simp only [last, List.foldl_cons] at ih ⊢
    refine ih _ _ (fun i h => hn i (List.mem_cons_of_mem _ h)) ?_
    cases o with
    | userFormat k =>
      cases k with
      | none => exact h
      | some k =>
        show some k = if 164 + k < 164 then none else some (164 + k - 164)
        rw [if_neg (by omega), Nat.add_sub_cancel_left]
    | formatIndex i => exact absurd (List.mem_cons_self ..) (hn i)
    | format i =>
      show none = if formatCode i < 164 then none else some (formatCode i - 164)
      rw [if_pos (by unfold formatCode; split <;> (try split) <;> omega)]
    | _ => exact h

theorem made_sets (ops : List Op) (hv : ∀ o ∈ ops, Valid o) : made (ops.map .set) = some (track fresh ops) := by
  have : ∀ (l : List Op) (x : Xf), runModes x (l.map .set) = runAll x l := by
    intro l
    induction l with
    | nil => exact fun x => rfl
    | cons o r ih =>
      intro x
      rw [List.map_cons, runModes, runAll]
      exact congrArg _ (funext fun y => ih y)
  rw [made, new_user, Option.bind_some, this]
  exact runAll_track fresh rfl ops hv

/-- C80, the other direction: formats made with setters compare equal if they tell the same, and of no group of attributes was asked for in one but not the
    other.  Missing for the full claim: formats whose number was given by `SetFormatIndex`, `c80_by_number`. -/
theorem c80_tell_partial (a b : List Op) (ha : ∀ o ∈ a, Valid o) (hb : ∀ o ∈ b, Valid o)
    (na : ∀ i, .formatIndex i ∉ a) (nb : ∀ i, .formatIndex i ∉ b) :
    ∃ x y, made (a.map .set) = some x ∧ made (b.map .set) = some y ∧ (same x y = true ↔ tells x = tells y ∧ asks a = asks b) := by
  refine ⟨_, _, made_sets a ha, made_sets b hb, ?_⟩
  rw [same_iff, ← flags_asks]
  constructor
  · intro h
    rw [h]
    exact ⟨rfl, rfl⟩
  · rintro ⟨h, hf⟩
    have ea : (track fresh a).format = _ := format_num a 0 none na rfl
    have eb : (track fresh b).format = _ := format_num b 0 none nb rfl
    have ei : (track fresh a).formatIndex = (track fresh b).formatIndex := congrArg (fun t => t.report.formatIndex) h
    have ef : (track fresh a).format = (track fresh b).format := by
      rw [ea, eb]
      show (if (track fresh a).formatIndex < 164 then none else some ((track fresh a).formatIndex - 164)) = _
      rw [ei]
      rfl
    have eu : (track fresh a).isUser = (track fresh b).isUser := rfl
    generalize track fresh a = x at h hf ei ef eu
    generalize track fresh b = y at h hf ei ef eu
    obtain ⟨x1, x2, x3, x4, x5, x6, x7, x8, x9, x10, x11, x12, x13, x14, x15, ⟨p1, p2, p3, p4, p5⟩, ⟨q1, q2, q3, q4, q5⟩, x18⟩ := x
    obtain ⟨y1, y2, y3, y4, y5, y6, y7, y8, y9, y10, y11, y12, y13, y14, y15, ⟨r1, r2, r3, r4, r5⟩, ⟨s1, s2, s3, s4, s5⟩, y18⟩ := y
    simp only [tells, askFormat, Public.mk.injEq, FormatReport.mk.injEq] at h hf ei ef eu
    obtain ⟨⟨-, -, -, rfl, rfl, rfl, rfl, rfl, rfl, rfl, rfl, rfl, rfl, h1, h2, -⟩, rfl, rfl⟩ := h
    subst hf ei ef eu
    have t := fun s => congrFun h1 s
    have u := fun s => congrFun h2 s
    have t1 := t .bottom; have t2 := t .top; have t3 := t .left; have t4 := t .right; have t5 := t .diagonals
    have u1 := u .bottom; have u2 := u .top; have u3 := u .left; have u4 := u .right; have u5 := u .diagonals
    simp only [Five.get] at t1 t2 t3 t4 t5 u1 u2 u3 u4 u5
    subst t1 t2 t3 t4 t5 u1 u2 u3 u4 u5
    rfl

/-- Two formats that tell the same and are written alike, but do not compare equal: one chose the first user format, the other its number. -/
theorem c80_by_number : ∃ x y, made [.set (.userFormat (some 0))] = some x ∧ made [.set (.formatIndex 164)] = some y ∧
    tells x = tells y ∧ record x = record y ∧ same x y = false :=
  ⟨_, _, rfl, rfl, rfl, rfl, rfl⟩

/-- C80, copying: a copy tells what its original tells, but for `IsCell`: it is a cell format, even if the original is a style. -/
theorem c80_copy_tells (cs : List ModeCall) (hv : ∀ o, .set o ∈ cs → Valid o) :
    ∃ x, made cs = some x ∧ tells (dup x) = { tells x with isCell := true } := by
  obtain ⟨x, hx, H⟩ := made_some cs hv
  refine ⟨x, hx, ?_⟩
  rw [dup_made hv H]
  rfl

theorem or8 (f : Nat) : f ||| 8 = f ↔ (bits f 3 1 == 1) = true := by
  rw [bits_test]
  constructor
  · intro h
    rw [← h, Nat.testBit_or]
    exact Bool.or_true _
  · intro h
    refine Nat.eq_of_testBit_eq fun k => ?_
    rw [Nat.testBit_or]
    by_cases hk : k = 3
    · subst hk; rw [h]; rfl
    · rw [show (8 : Nat) = 2 ^ 3 from rfl, Nat.testBit_two_pow_of_ne (Ne.symm hk), Bool.or_false]

theorem or4 (f : Nat) : f ||| 4 = f ↔ (bits f 2 1 == 1) = true := by
  rw [bits_test]
  constructor
  · intro h
    rw [← h, Nat.testBit_or]
    exact Bool.or_true _
  · intro h
    refine Nat.eq_of_testBit_eq fun k => ?_
    rw [Nat.testBit_or]
    by_cases hk : k = 2
    · subst hk; rw [h]; rfl
    · rw [show (4 : Nat) = 2 ^ 2 from rfl, Nat.testBit_two_pow_of_ne (Ne.symm hk), Bool.or_false]

theorem or_both (f a b : Nat) : (f ||| a) ||| b = f ↔ f ||| a = f ∧ f ||| b = f := by
  constructor
  · intro h
    have hk : ∀ k, ((f.testBit k || a.testBit k) || b.testBit k) = f.testBit k := fun k => by
      have := congrArg (·.testBit k) h
      simpa using this
    refine ⟨Nat.eq_of_testBit_eq fun k => ?_, Nat.eq_of_testBit_eq fun k => ?_⟩ <;> rw [Nat.testBit_or] <;> have := hk k <;> revert this <;>
      cases f.testBit k <;> cases a.testBit k <;> cases b.testBit k <;> simp
  · rintro ⟨h1, h2⟩
    rw [h1, h2]

/-- C80, copying: the copy compares equal to the original exactly if that is a cell format, and its font and its user format, if it has them, were given to it as
    a cell format. -/
theorem c80_copy_equal (cs : List ModeCall) (hv : ∀ o, .set o ∈ cs → Valid o) :
    ∃ x, made cs = some x ∧ (same (dup x) x = true ↔ cellMode cs = true ∧
      (last pickFontPtr none (setters cs) = none ∨ group setsFont cs = true) ∧
      (last pickFormatPtr none (setters cs) = none ∨ group setsFormat cs = true)) := by
  obtain ⟨x, hx, H⟩ := made_some cs hv
  refine ⟨x, hx, ?_⟩
  obtain ⟨h1, h2, h3, -⟩ := made_format hv H
  have e1 : group setsFormat cs = (bits x.flags 2 1 == 1) := by rw [group, H.flag (2, setsFormat) (by simp [groups])]
  have e2 : group setsFont cs = (bits x.flags 3 1 == 1) := by rw [group, H.flag (3, setsFont) (by simp [groups])]
  rw [same_iff, dup_made hv H, e1, e2, ← h1, ← h2, ← H.cell]
  have : ({ x with isCell := true, flags := (x.flags ||| if x.font = none then 0 else 8) ||| if x.format = none then 0 else 4 } : Xf) = x ↔
      x.isCell = true ∧ (x.flags ||| if x.font = none then 0 else 8) ||| (if x.format = none then 0 else 4) = x.flags := by
    obtain ⟨x1, x2, x3, x4, x5, x6, x7, x8, x9, x10, x11, x12, x13, x14, x15, x16, x17, x18⟩ := x
    simp only [Xf.mk.injEq, true_and, and_true]
    constructor
    · rintro ⟨rfl, h⟩; exact ⟨rfl, h⟩
    · rintro ⟨rfl, h⟩; exact ⟨rfl, h⟩
  rw [this, or_both]
  cases x.font <;> cases x.format <;> simp [or4, or8]

/-- A format that was never made a style is equal to its copies, which are written as it is. -/
theorem c80_copy (ops : List Op) (hv : ∀ o ∈ ops, Valid o) :
    ∃ x, made (ops.map .set) = some x ∧ same (dup x) x = true ∧ record (dup x) = record x := by
  have hv' : ∀ o, .set o ∈ ops.map ModeCall.set → Valid o := fun o h => by
    simp only [List.mem_map, ModeCall.set.injEq, exists_eq_right] at h
    exact hv o h
  obtain ⟨x, hx, h⟩ := c80_copy_equal (ops.map .set) hv'
  have hs : setters (ops.map ModeCall.set) = ops := by
    have : ∀ l : List Op, setters (l.map ModeCall.set) = l := by
      intro l
      induction l with
      | nil => rfl
      | cons o r ih => exact congrArg (List.cons o) ih
    exact this ops
  have hg : ∀ q, group q (ops.map ModeCall.set) = ops.any q := fun q => by
    rw [group, foldl_sets _ q rfl]
    cases ops.any q <;> rfl
  have hc : cellMode (ops.map .set) = true := by
    have : ∀ (l : List Op) (c : Bool), (l.map ModeCall.set).foldl modeStep c = c := by
      intro l
      induction l with
      | nil => exact fun _ => rfl
      | cons o r ih => exact fun c => ih c
    exact this ops true
  have hp : ∀ (pick : Op → Option (Option Nat)) (q : Op → Bool), (∀ o k, pick o = some (some k) → q o = true) → ∀ (l : List Op) (d : Option Nat),
      (last pick d l = none ∨ d ≠ none) ∨ l.any q = true := by
    intro pick q hq l
    induction l with
    | nil => intro d; cases d <;> simp [last]
    | cons o r ih =>
      intro d
      simp only [last, List.foldl_cons, List.any_cons] at ih ⊢
      cases ho : pick o with
      | none =>
        rw [Option.getD_none]
        rcases ih d with h | h
        · exact .inl h
        · exact .inr (by rw [h, Bool.or_true])
      | some v =>
        cases v with
        | none =>
          rw [Option.getD_some]
          rcases ih none with h | h
          · exact .inl (.inl (h.resolve_right (by simp)))
          · exact .inr (by rw [h, Bool.or_true])
        | some k => exact .inr (by rw [hq o k ho, Bool.true_or])
  have e : same (dup x) x = true := by
    rw [h, hc, hs, hg, hg]
    refine ⟨rfl, ?_, ?_⟩
    · rcases hp pickFontPtr setsFont (fun o k h => by cases o <;> simp_all [pickFontPtr, setsFont]) ops none with h | h
      · exact .inl (h.resolve_right (by simp))
      · exact .inr h
    · refine (hp pickFormatPtr setsFormat (fun o k h => ?_) ops none).imp (fun h => h.resolve_right (by simp)) id
      cases o with
      | userFormat j => cases j <;> simp_all [pickFormatPtr, setsFormat]
      | _ => simp [pickFormatPtr] at h
  exact ⟨x, hx, e, (c80_equal _ _ e).2⟩

/-- The comparison in `findXF`, by which cells share formats, is this one. -/
theorem same_beq (x y : Xf) : (x == y) = same x y := by
  rw [Bool.eq_iff_iff, beq_iff_eq, same_iff]

/-! ### In a workbook -/

open Styles in
/-- Calls on one format object of a workbook, extformat.cpp 631-1094. -/
def setsOn (s : State) (q : Nat) : List Op → Option State
  | [] => some s
  | o :: r => (setOn s q o).bind fun s => setsOn s q r

open Styles in
theorem mark_xfs (s : State) (f : Option Nat) : (markFont? s f).xfs = s.xfs := by cases f <;> rfl
open Styles in
theorem unmark_xfs (s : State) (f : Option Nat) : (unmarkFont? s f).xfs = s.xfs := by cases f <;> rfl

open Styles in
theorem setOn_other {s t : State} {q : Nat} {o : Op} (h : setOn s q o = some t) (p : Nat) (hp : p ≠ q) : t.xfs[p]? = s.xfs[p]? := by
  unfold setOn at h
  obtain ⟨e, he, h⟩ := Option.bind_eq_some_iff.1 h
  obtain ⟨x, hx, h⟩ := Option.map_eq_some_iff.1 h
  subst h
  have : ∀ (s1 : State), s1.xfs = s.xfs.modify q (fun e => { e with xf := x }) → s1.xfs[p]? = s.xfs[p]? := by
    intro s1 h1
    rw [h1, List.getElem?_modify]
    simp only [if_neg (Ne.symm hp)]
    cases s.xfs[p]? <;> rfl
  cases o <;> refine this _ ?_ <;> first | rfl | (rw [mark_xfs, unmark_xfs])

open Styles in
theorem setsOn_other {q p : Nat} (hp : p ≠ q) : ∀ (ops : List Op) {s t : State}, setsOn s q ops = some t → t.xfs[p]? = s.xfs[p]? := by
  intro ops
  induction ops with
  | nil => intro s t h; cases h; rfl
  | cons o r ih =>
    intro s t h
    obtain ⟨u, hu, h⟩ := Option.bind_eq_some_iff.1 h
    rw [ih h, setOn_other hu p hp]

open Styles in
/-- C80, in a workbook: `xfDup` leaves all formats as they are and adds the copy as the last one; whatever is then called on the copy leaves the original as it
    is, and whatever is called on the original leaves the copy. -/
theorem c80_separate (s t : State) (q : Nat) (h : dupXf s q = some t) :
    (∃ e c, s.xfs[q]? = some e ∧ t.xfs = s.xfs ++ [c] ∧ c.xf = dup e.xf) ∧
    (∀ ops u, setsOn t s.xfs.length ops = some u → ∀ p, p ≠ s.xfs.length → u.xfs[p]? = s.xfs[p]?) ∧
    (∀ ops u, setsOn t q ops = some u → u.xfs[s.xfs.length]? = t.xfs[s.xfs.length]?) := by
  unfold dupXf at h
  obtain ⟨e, he, h⟩ := Option.map_eq_some_iff.1 h
  have hq : q < s.xfs.length := by
    rcases Nat.lt_or_ge q s.xfs.length with h | h
    · exact h
    · rw [List.getElem?_eq_none h] at he; cases he
  have ht : t.xfs = s.xfs ++ [⟨dup e.xf, (markFont? s e.xf.font).xfNext, 0, false⟩] := by
    rw [← h]
    show (markFont? s e.xf.font).xfs ++ _ = _
    rw [mark_xfs]
  refine ⟨⟨e, _, he, ht, rfl⟩, fun ops u hu p hp => ?_, fun ops u hu => ?_⟩
  · rw [setsOn_other hp ops hu, ht]
    by_cases hl : p < s.xfs.length
    · rw [List.getElem?_append_left hl]
    · rw [List.getElem?_eq_none (by simp; omega), List.getElem?_eq_none (by omega)]
  · exact setsOn_other (by omega) ops hu

/-! ### Samples -/

/-- Two histories with the same outcome. -/
example : ∃ x y, made [.set (.wrap true), .set (.halign 1), .set (.halign 2)] = some x ∧ made [.set (.halign 2), .set (.wrap true)] = some y ∧ same x y = true :=
  ⟨_, _, rfl, rfl, rfl⟩

/-- The same answers, but one has the flag of its alignment set. -/
example : ∃ x y, made [.set (.wrap true), .set (.wrap false)] = some x ∧ made [] = some y ∧ tells x = tells y ∧ same x y = false :=
  ⟨_, _, rfl, rfl, rfl, rfl⟩

/-- The copy of a style is a cell format; a font given to a style makes the copy differ even after the style is a cell format again. -/
example : ∃ x y, made [.set (.font (some 5)), .mode false] = some x ∧ same (dup x) x = false ∧
    made [.mode false, .set (.font (some 5)), .mode true] = some y ∧ same (dup y) y = false :=
  ⟨_, _, rfl, rfl, rfl, rfl⟩

open Styles in
/-- A workbook with one format. -/
example : ∃ s t u, (do let s ← Styles.init; step s .newXf) = some s ∧ dupXf s 21 = some t ∧ setsOn t 22 [.wrap true] = some u ∧
    (u.xfs[21]?.map fun e => e.xf.wrap) = some false ∧ (u.xfs[22]?.map fun e => e.xf.wrap) = some true := by
  exact ⟨_, _, _, rfl, rfl, rfl, rfl, rfl⟩

end Xls.Xf
