import Verif.Rows.Blocks
/-
The records of the row blocks do not depend on where in the stream they are written, nor on how the stream
position advances over cells and DBCELL records.
-/
namespace Xls.Rows
open Xls.Cells

variable {α : Type}

/-- As `Exec`, with the advance of the stream position per record given by `adv`. -/
inductive ExecG (size : Cell α → Nat) (heights : List RowHeight) (adv : Ev α → Nat) :
    Nat → St α → List (Ev α) → Nat → St α → Prop
  | refl (off : Nat) (s : St α) : ExecG size heights adv off s [] off s
  | again {off s s' evs off' s''} : pass size heights off s = .again s' → ExecG size heights adv off s' evs off' s'' →
      ExecG size heights adv off s evs off' s''
  | ret {off s s' e evs off' s''} : pass size heights off s = .ret (some e) s' →
      ExecG size heights adv (off + adv e) s' evs off' s'' → ExecG size heights adv off s (e :: evs) off' s''

/-- The same distance from the first row of the block. -/
def SameDist (s : St α) (off f offT : Nat) : Prop :=
  (s.phase = .rows ∨ s.phase = .firstCell) → offT - f = off - s.firstRowOff ∧ f ≤ offT ∧ s.firstRowOff ≤ off

theorem pass_again_shift {size : Cell α → Nat} {heights : List RowHeight} {off offT f : Nat} {s s' : St α}
    (h : pass size heights off s = .again s') (hd : SameDist s off f offT) :
    ∃ f', pass size heights offT { s with firstRowOff := f } = .again { s' with firstRowOff := f' } ∧
      SameDist s' off f' offT := by
  obtain ⟨phase, cur, start, hts, rowCounter, cellCounter, dbOff, fro, offs⟩ := s
  cases phase
  · simp only [pass, Pass.again.injEq] at h
    subst h
    exact ⟨f, rfl, by intro h; rcases h with h | h <;> simp at h⟩
  · simp only [pass] at h ⊢
    by_cases hc : cur ≠ []
    · rw [if_pos hc, Pass.again.injEq] at h
      subst h
      rw [if_pos hc]
      exact ⟨offT, rfl, fun _ => ⟨by simp, Nat.le_refl _, Nat.le_refl _⟩⟩
    · rw [if_neg hc, Pass.again.injEq] at h
      subst h
      rw [if_neg hc]
      exact ⟨f, rfl, by intro h; rcases h with h | h <;> simp at h⟩
  · cases cur <;> simp [pass] at h
  · cases start <;> simp [pass] at h
  · simp only [pass] at h ⊢
    by_cases hc : cellCounter = 0
    · rw [if_pos hc, Pass.again.injEq] at h
      subst h
      rw [if_pos hc]
      exact ⟨f, rfl, by intro h; rcases h with h | h <;> simp at h⟩
    · rw [if_neg hc] at h
      cases start <;> simp at h
  · simp [pass] at h
  · simp [pass] at h

theorem pass_ret_shift {size : Cell α → Nat} {heights : List RowHeight} {off offT f : Nat} {s s' : St α}
    {e : Ev α} (h : pass size heights off s = .ret (some e) s') (hd : SameDist s off f offT) (adv : Ev α → Nat)
    (hadv : ∀ n a b t, adv (.row n a b t) = 20) :
    pass size heights offT { s with firstRowOff := f } = .ret (some e) { s' with firstRowOff := f } ∧
      SameDist s' (off + e.size size) f (offT + adv e) := by
  obtain ⟨phase, cur, start, hts, rowCounter, cellCounter, dbOff, fro, offs⟩ := s
  cases phase
  · simp [pass] at h
  · simp only [pass] at h
    by_cases hc : cur ≠ []
    · rw [if_pos hc] at h; simp at h
    · rw [if_neg hc] at h; simp at h
  · cases cur with
    | nil => simp [pass] at h
    | cons c r =>
      have hd' := hd (Or.inl rfl)
      simp only [pass, Pass.ret.injEq, Option.some.injEq] at h ⊢
      obtain ⟨h1, h2⟩ := h
      subst h1
      subst h2
      refine ⟨⟨rfl, ?_⟩, ?_⟩
      · split <;> rfl
      · rw [hadv]
        simp only [Ev.size]
        have hf : ∀ p : Prop, [Decidable p] → ∀ a b : St α, a.firstRowOff = fro → b.firstRowOff = fro →
            (if p then a else b).firstRowOff = fro := by
          intro p _ a b ha hb; split <;> assumption
        intro _
        rw [hf _ _ _ rfl rfl]
        simp only at hd'
        omega
  · cases start with
    | nil => simp [pass] at h
    | cons c r =>
      have hd' := (hd (Or.inr rfl)).1
      simp only [pass, Pass.ret.injEq, Option.some.injEq] at h ⊢
      obtain ⟨h1, h2⟩ := h
      subst h1
      subst h2
      simp only at hd'
      refine ⟨⟨rfl, ?_⟩, ?_⟩
      · rw [hd']; split <;> rfl
      · intro hp
        split at hp <;> rcases hp with hp | hp <;> simp at hp
  · simp only [pass] at h ⊢
    by_cases hc : cellCounter = 0
    · rw [if_pos hc] at h; simp at h
    · rw [if_neg hc] at h ⊢
      cases start with
      | nil => simp at h
      | cons c r =>
        simp only [Pass.ret.injEq, Option.some.injEq] at h ⊢
        obtain ⟨h1, h2⟩ := h
        subst h1
        subst h2
        exact ⟨⟨rfl, rfl⟩, by intro h; rcases h with h | h <;> simp at h⟩
  · simp only [pass, Pass.ret.injEq, Option.some.injEq] at h ⊢
    obtain ⟨h1, h2⟩ := h
    subst h1
    subst h2
    refine ⟨⟨rfl, rfl⟩, ?_⟩
    intro hp
    simp only at hp
    split at hp <;> rcases hp with hp | hp <;> simp at hp
  · simp [pass] at h

/-- A run at one place of the stream is a run at any other. -/
theorem Exec.shift {size : Cell α → Nat} {heights : List RowHeight} {off off' : Nat} {s s' : St α} {evs : List (Ev α)}
    (h : Exec size heights off s evs off' s') (adv : Ev α → Nat) (hadv : ∀ n a b t, adv (.row n a b t) = 20) :
    ∀ f offT, SameDist s off f offT → ∃ f' offT', ExecG size heights adv offT { s with firstRowOff := f } evs offT'
      { s' with firstRowOff := f' } ∧ offT' = offT + (evs.map adv).sum := by
  induction h with
  | refl off s => intro f offT _; exact ⟨f, offT, .refl _ _, by simp⟩
  | again hp _ ih =>
    intro f offT hd
    obtain ⟨f1, p1, d1⟩ := pass_again_shift hp hd
    obtain ⟨f', offT', h', e'⟩ := ih f1 offT d1
    exact ⟨f', offT', .again p1 h', e'⟩
  | ret hp _ ih =>
    intro f offT hd
    obtain ⟨p1, d1⟩ := pass_ret_shift hp hd adv hadv
    obtain ⟨f', offT', h', e'⟩ := ih f _ d1
    exact ⟨f', offT', .ret p1 h', by rw [e']; simp; omega⟩

/-- The row blocks as a whole, wherever they are. -/
theorem blocks_execG (size : Cell α → Nat) (heights : List RowHeight) (adv : Ev α → Nat)
    (hadv : ∀ n a b t, adv (.row n a b t) = 20) (cells : List (Cell α)) (old : St α) (off : Nat) (bs : List (Block α))
    (hlt : cells.length < 2 ^ 32) (hb : blocks cells heights = some bs) :
    ∃ s', ExecG size heights adv off (enter cells old) (bs.flatMap (Block.evs size))
        (off + ((bs.flatMap (Block.evs size)).map adv).sum) s' ∧ s'.phase = .finish := by
  have hp : pass size heights off (enter cells old) =
      .again { enter cells old with phase := .firstRow, rowCounter := 0, hts := heights } := rfl
  obtain ⟨s1, off1, e1, p1⟩ := blocks_run size heights bs
    { enter cells old with phase := .firstRow, rowCounter := 0, hts := heights } off rfl rfl hlt hb
  obtain ⟨f', o', h, e⟩ := (Exec.again hp e1).shift adv hadv old.firstRowOff off
    (by intro h; rcases h with h | h <;> simp [enter] at h)
  exact ⟨{ s1 with firstRowOff := f' }, e ▸ h, p1⟩

/-- A run into undefined behaviour passes through states up to the one where it happens. -/
theorem run_ub_exec {size : Cell α → Nat} {heights : List RowHeight} (fuel : Nat) : ∀ {off : Nat} {s : St α},
    run size heights fuel off s = .ub →
    ∃ evs off' s', Exec size heights off s evs off' s' ∧ pass size heights off' s' = .ub := by
  induction fuel with
  | zero => intro off s h; simp [run] at h
  | succ fuel ih =>
    intro off s h
    rw [run] at h
    cases hp : pass size heights off s with
    | ub => exact ⟨[], off, s, .refl _ _, hp⟩
    | again s1 =>
      rw [hp] at h
      obtain ⟨evs, off', s', h1, h2⟩ := ih h
      exact ⟨evs, off', s', .again hp h1, h2⟩
    | ret o s1 =>
      rw [hp] at h
      cases o with
      | none => simp at h
      | some e =>
        simp only at h
        have hr : run size heights fuel (off + e.size size) s1 = .ub := by
          cases hr : run size heights fuel (off + e.size size) s1 with
          | ub => rfl
          | done a b => rw [hr] at h; simp [Outcome.push] at h
          | fuelOut => rw [hr] at h; simp [Outcome.push] at h
        obtain ⟨evs, off', s', h1, h2⟩ := ih hr
        exact ⟨e :: evs, off', s', .ret hp h1, h2⟩

theorem pass_ub_shift {size : Cell α → Nat} {heights : List RowHeight} {off offT f : Nat} {s : St α}
    (h : pass size heights off s = .ub) : pass size heights offT { s with firstRowOff := f } = .ub := by
  obtain ⟨phase, cur, start, hts, rowCounter, cellCounter, dbOff, fro, offs⟩ := s
  cases phase
  · simp [pass] at h
  · simp only [pass] at h
    by_cases hc : cur ≠ []
    · rw [if_pos hc] at h; simp at h
    · rw [if_neg hc] at h; simp at h
  · cases cur with
    | nil => rfl
    | cons c r => simp [pass] at h
  · cases start with
    | nil => rfl
    | cons c r => simp [pass] at h
  · simp only [pass] at h ⊢
    by_cases hc : cellCounter = 0
    · rw [if_pos hc] at h; simp at h
    · rw [if_neg hc] at h ⊢
      cases start with
      | nil => rfl
      | cons c r => simp at h
  · simp [pass] at h
  · simp [pass] at h

/-- Row blocks that stall do so wherever they are. -/
theorem stall_execG (size : Cell α → Nat) (heights : List RowHeight) (adv : Ev α → Nat)
    (hadv : ∀ n a b t, adv (.row n a b t) = 20) (cells : List (Cell α)) (old : St α) (off : Nat)
    (hlt : cells.length < 2 ^ 32) (hb : blocks cells heights = none) :
    ∃ evs off' s', ExecG size heights adv off (enter cells old) evs off' s' ∧ pass size heights off' s' = .ub := by
  have hp : pass size heights off (enter cells old) =
      .again { enter cells old with phase := .firstRow, rowCounter := 0, hts := heights } := rfl
  obtain ⟨n, hn⟩ := blocks_ub size heights cells heights
    { enter cells old with phase := .firstRow, rowCounter := 0, hts := heights } off rfl rfl hlt rfl rfl hb
  obtain ⟨evs, off1, s1, h1, h2⟩ := run_ub_exec _ (hn 0)
  obtain ⟨f', o', h, e⟩ := (Exec.again hp h1).shift adv hadv old.firstRowOff off
    (by intro h; rcases h with h | h <;> simp [enter] at h)
  exact ⟨evs, o', _, h, pass_ub_shift h2⟩

end Xls.Rows
