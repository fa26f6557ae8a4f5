import Verif.Mem.Finish
/-
C75: a program that uses pointers it got from the library, and no cell or comment that it replaced, never makes the library follow a
pointer to a deleted object, and deleting the workbook deletes every object there ever was once.
-/
namespace Xls.Mem

/-- No call, and no save, follows a pointer to a deleted object or deletes an object twice. -/
theorem c75_safe {p : List Call} (h : Good p) : (run p).isSome = true := by
  obtain ⟨s, h1, _⟩ := run_ok h
  simp [h1]

/-- Deleting the workbook follows no such pointer either; afterwards every object that was ever made (sheets, what belongs to a sheet, fonts,
    number formats, formats, styles, entries of the list of sheets, document properties) has been deleted exactly once. -/
theorem c75_released {p : List Call} (h : Good p) : ∃ s s', run p = some s ∧ finish s = some s' ∧ Gone s'.sheets.pool ∧ Gone s'.things ∧
    Gone s'.fonts.pool ∧ Gone s'.formats.pool ∧ Gone s'.xfs.pool ∧ Gone s'.styles.pool ∧ Gone s'.bounds.pool ∧ Gone s'.items.pool := by
  obtain ⟨s, h1, h2, _⟩ := run_ok h
  obtain ⟨s', h3, h4⟩ := finish_ok h2
  exact ⟨s, s', h1, h3, h4⟩

/-- The pointer to a cell or comment is good as long as nothing else is written to its place: whatever other calls there are in between. -/
theorem c75_current {p : List Call} {i : Nat} (h : Good p) (hi : Current p i) :
    ∃ s n t, run p = some s ∧ s.res[i]? = some (.thing n) ∧ s.things.live n = some t := by
  obtain ⟨s, h1, _, r⟩ := run_ok h
  have hi' := hi
  obtain ⟨c, pl, h3, h4, _⟩ := hi'
  obtain ⟨n, sh, h5, _, _, h6, _⟩ := r.cell i c pl h3 h4
  obtain ⟨t, ht, _⟩ := h6 hi
  exact ⟨s, n, t, h1, h5, ht⟩

/-- It is deleted, once, when something is written there. -/
theorem c75_replaced {p : List Call} {i : Nat} (h : Good p) (hi : Replaced p i) :
    ∃ s n, run p = some s ∧ s.res[i]? = some (.thing n) ∧ s.things.live n = none ∧ s.things.log.count n = 1 := by
  obtain ⟨s, h1, h2, r⟩ := run_ok h
  have hi' := hi
  obtain ⟨c, pl, j, d, h3, h4, _⟩ := hi'
  obtain ⟨n, sh, h5, hlt, _, _, h6⟩ := r.cell i c pl h3 h4
  refine ⟨s, n, h1, h5, h6 hi, ?_⟩
  rw [h2.things.nodup.count, if_pos ((h2.things.log n).2 ⟨hlt, h6 hi⟩)]

/-- Two calls that give the cell (or comment) at the same place return the same object. -/
theorem c75_same {p : List Call} {i j : Nat} {c d : Call} {pl : Bool × Nat × (Nat × Nat)} (h : Good p) (hi : Current p i) (hj : Current p j)
    (hc : p[i]? = some c) (hd : p[j]? = some d) (hpc : c.place = some pl) (hpd : d.place = some pl) :
    ∃ s n, run p = some s ∧ s.res[i]? = some (.thing n) ∧ s.res[j]? = some (.thing n) := by
  obtain ⟨s, h1, h2, r⟩ := run_ok h
  obtain ⟨n, sh, a1, _, a2, a3, _⟩ := r.cell i c pl hc hpc
  obtain ⟨m, sh', b1, _, b2, b3, _⟩ := r.cell j d pl hd hpd
  obtain ⟨t, ht, t1, t2, t3⟩ := a3 hi
  obtain ⟨u, hu, u1, u2, u3⟩ := b3 hj
  rw [a2] at b2
  simp only [Option.some.injEq, Val.sheet.injEq] at b2
  have := h2.uniq n m t u ht hu (by rw [t1]; cases pl.1 <;> simp [kindOf, Kind.keyed]) (by rw [t1, u1]) (by rw [t2, u2, b2]) (by rw [t3, u3])
  subst this
  exact ⟨s, n, h1, a1, b1⟩

/-- The library does not protect against a pointer to a cell that was replaced: the cell is gone, and any call on it is undefined. -/
theorem c75_dangling {p : List Call} {i : Nat} (h : Good p) (hi : Replaced p i) (a : Act) : run (p ++ [.act i a]) = none := by
  obtain ⟨s, n, h1, h2, h3, _⟩ := c75_replaced h hi
  unfold run at *
  rw [List.foldlM_append, h1]
  show (List.foldlM step s [Call.act i a]) = none
  rw [List.foldlM_cons]
  show (step s (.act i a)).bind _ = none
  simp only [step]
  rw [show s.thing? i = some n by simp [St.thing?, h2], Option.bind_some]
  unfold St.act
  rw [h3]
  rfl

/-- Nor against the number of a font that is not there. -/
theorem c75_font_number {p : List Call} {n : Nat} (hn : 5 ≤ n) : run (p ++ [.fontNo n]) = none := by
  unfold run
  rw [List.foldlM_append]
  cases e : List.foldlM step start p with
  | none => rfl
  | some s =>
    show (List.foldlM step s [Call.fontNo n]) = none
    rw [List.foldlM_cons]
    show (step s (.fontNo n)).bind _ = none
    simp only [step]
    rw [if_neg (by omega)]
    rfl

/-! A program with two sheets: a long text with a format of its own is written, found again and replaced, a range is coloured, rows, columns and
comments are there, a property is set twice, and it is saved in between. -/

def sample : List Call :=
  [.sheet, .font, .format, .xformat (some 1) (some 2), .cell 0 (2, 3) (some 3) true none, .find 0 (2, 3), .act 4 (.own true 7), .act 5 (.change (some 1) (some none) 0),
    .sheet, .stack 8, .push 9, .cell 8 (2, 3) none false (some 9), .validate 0 (some 9) none, .range 0, .over 13 [((2, 3), .same 0), ((2, 4), .own false 0)], .save,
    .cell 0 (2, 3) none false none, .note 0 (2, 3) none, .note 0 (2, 3) (some 3), .rowheight 0 5 (some 3), .rowheight 0 5 none, .colwidth 8 1 (some 3),
    .link 8 11, .property 5, .property 5, .setFont 3 none, .find 0 (2, 4), .act 26 .look, .act 16 (.take 3), .act 16 (.change none none 0), .fontNo 4, .save]

/-- Deciding whether a call may be made. -/
def atB (p : List Call) (w : What) (i : Nat) : Bool := (p[i]?.bind Call.gives) == some w

theorem atB_iff {p : List Call} {w : What} {i : Nat} : atB p w i = true ↔ At p w i := by
  unfold atB At
  cases p[i]? <;> simp

def currentB (p : List Call) (i : Nat) : Bool :=
  match p[i]?.bind Call.place with
  | none => false
  | some pl => (p.drop (i + 1)).all fun d => d.writes != some pl

theorem current_of {p : List Call} {i : Nat} (h : currentB p i = true) : Current p i := by
  unfold currentB at h
  cases e : p[i]? with
  | none => rw [e] at h; simp at h
  | some c =>
    rw [e, Option.bind_some] at h
    cases e' : c.place with
    | none => rw [e'] at h; simp at h
    | some pl =>
      rw [e'] at h
      simp only [List.all_eq_true] at h
      refine ⟨c, pl, e, e', fun j d hj hd hw => ?_⟩
      have := h d (List.mem_of_getElem? (i := j - (i + 1)) (by rw [List.getElem?_drop, show i + 1 + (j - (i + 1)) = j by omega]; exact hd))
      simp [hw] at this

def Act.fineB (p : List Call) : Act → Bool
  | .change f g _ => f.all (atB p .font) && g.join.all (atB p .format)
  | .take x => atB p .xf x
  | _ => true

theorem Act.fine_of {p : List Call} {a : Act} (h : a.fineB p = true) : a.Fine p := by
  cases a with
  | change f g n =>
    simp only [Act.fineB, Bool.and_eq_true, Option.all_eq_true] at h
    exact ⟨fun k hk => atB_iff.1 (h.1 k hk), fun k hk => atB_iff.1 (h.2 k hk)⟩
  | take x => exact atB_iff.1 h
  | _ => trivial

def fineB (p : List Call) : Call → Bool
  | .fontNo n => n < 5
  | .xformat f g => f.all (atB p .font) && g.all (atB p .format)
  | .setFont x f => atB p .xf x && f.all (atB p .font)
  | .setFormat x f => atB p .xf x && f.all (atB p .format)
  | .onXf x => atB p .xf x
  | .onFont f => atB p .font f
  | .cell sh _ x _ st => atB p .sheet sh && (x.all (atB p .xf) && st.all (atB p .stack))
  | .find sh _ | .merge sh | .range sh | .stack sh => atB p .sheet sh
  | .note sh _ x | .colwidth sh _ x | .rowheight sh _ x => atB p .sheet sh && x.all (atB p .xf)
  | .push st => atB p .stack st
  | .validate sh c1 c2 => atB p .sheet sh && (c1.all (atB p .stack) && c2.all (atB p .stack))
  | .link sh c => atB p .sheet sh && currentB p c
  | .act c a => currentB p c && a.fineB p
  | .over r l => atB p .range r && l.all fun q => q.2.fineB p
  | .sheet | .font | .format | .property _ | .save => true

theorem fine_of {p : List Call} {c : Call} (h : fineB p c = true) : Fine p c := by
  have o : ∀ {w : What} {x : Option Nat}, x.all (atB p w) = true → ∀ k ∈ x, At p w k := fun h k hk => atB_iff.1 ((Option.all_eq_true _ _).1 h k hk)
  cases c <;> simp only [fineB, Bool.and_eq_true, decide_eq_true_eq] at h
  case fontNo => exact h
  case xformat => exact ⟨o h.1, o h.2⟩
  case setFont => exact ⟨atB_iff.1 h.1, o h.2⟩
  case setFormat => exact ⟨atB_iff.1 h.1, o h.2⟩
  case onXf => exact atB_iff.1 h
  case onFont => exact atB_iff.1 h
  case cell => exact ⟨atB_iff.1 h.1, o h.2.1, o h.2.2⟩
  case find => exact atB_iff.1 h
  case merge => exact atB_iff.1 h
  case range => exact atB_iff.1 h
  case stack => exact atB_iff.1 h
  case note => exact ⟨atB_iff.1 h.1, o h.2⟩
  case colwidth => exact ⟨atB_iff.1 h.1, o h.2⟩
  case rowheight => exact ⟨atB_iff.1 h.1, o h.2⟩
  case push => exact atB_iff.1 h
  case validate => exact ⟨atB_iff.1 h.1, o h.2.1, o h.2.2⟩
  case link => exact ⟨atB_iff.1 h.1, current_of h.2⟩
  case act => exact ⟨current_of h.1, Act.fine_of h.2⟩
  case over =>
    refine ⟨atB_iff.1 h.1, fun q hq => Act.fine_of ?_⟩
    exact List.all_eq_true.1 h.2 q hq
  all_goals trivial

theorem good_of (p : List Call) : ∀ (q : List Call), Good q → (List.range p.length).all (fun i => (p[i]?.map (fineB (q ++ p.take i))).getD true) = true → Good (q ++ p) := by
  induction p with
  | nil => intro q h _; simpa using h
  | cons a r ih =>
    intro q h hb
    rw [List.all_eq_true] at hb
    have h0 := hb 0 (by simp)
    simp at h0
    have := ih (q ++ [a]) (.snoc h (fine_of h0)) (by
      rw [List.all_eq_true]
      intro i hi
      have := hb (i + 1) (by simp at hi ⊢; omega)
      simpa using this)
    simpa using this

theorem sample_good : Good sample := good_of sample [] .nil (by decide)

example : (run sample).isSome = true := c75_safe sample_good
example : Current sample 16 ∧ Current sample 18 ∧ Current sample 26 := ⟨current_of (by decide), current_of (by decide), current_of (by decide)⟩
/-- The first cell and the one found there were replaced by call 16. -/
example : Replaced sample 4 ∧ Replaced sample 5 := ⟨⟨_, _, 16, _, rfl, rfl, by decide, rfl, rfl⟩, ⟨_, _, 16, _, rfl, rfl, by decide, rfl, rfl⟩⟩
example : run (sample ++ [.act 5 .look]) = none := c75_dangling sample_good ⟨_, _, 16, _, rfl, rfl, by decide, rfl, rfl⟩ _
/-- Thirteen objects belong to the sheets, three of them replaced before the end; a property was replaced; and the last format made, which was equal
    to one there already, was deleted at once. -/
example : ((run sample).map fun s => (s.things.objs.length, s.things.log, s.items.pool.log, s.xfs.pool.log)) = some (13, [0, 7, 9], [6], [25]) := by decide
example : ((run sample).bind finish).map (fun s => (s.things.log, s.items.pool.log, s.xfs.pool.log.length, s.xfs.pool.objs.length)) =
    some ([0, 7, 9, 5, 6, 8, 10, 4, 3, 2, 11, 1, 12], [6, 0, 1, 2, 3, 4, 5, 7], 26, 26) := by decide

end Xls.Mem
