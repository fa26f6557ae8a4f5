import Verif.Store.Sim
import Verif.Save.File
/-
C34: streaming the records out never frees a record that is still needed.
C54: saving never reads freed memory.
-/
namespace Xls.Store
open Xls.Biff Xls.Book

variable {γ σ : Type} {grow : Nat → Nat} {c : Nat} {gnext : γ → Src γ} {snext : σ → Nat → Nat → Src σ}

theorem Patchable.sub {us vs : List U} (h : Patchable (us ++ vs)) : Patchable us where
  once := by
    have := h.once
    rw [List.filterMap_append] at this
    exact (List.nodup_append.mp this).1
  level w hw ht v hv := h.level w (List.mem_append_left _ hw) ht v (List.mem_append_left _ hv)
  room w hw ht := h.room w (List.mem_append_left _ hw) ht

/-- The record level runs to its end; so does the memory level, unless the vector grows at a CONTINUE record. -/
theorem sim_run : ∀ (fuel : Nat) (us vs : List U) (s s' : Book.St γ σ) (m : St γ σ), Sim grow c gnext us s m →
    Book.run gnext snext fuel s = .done vs s' → Patchable (us ++ vs) → (∀ (i : Nat) (v : U), vs[i]? = some v → IsContinue v →
      us.length + i < capAt grow c (us.length + i)) →
    ∃ m', run grow gnext snext fuel m = .done m' ∧ Kept grow c (us ++ vs) s'.bpos [] m'.mem := by
  intro fuel
  induction fuel with
  | zero => intro us vs s s' m _ h; simp [Book.run] at h
  | succ fuel ih =>
    intro us vs s s' m hsim h hp hc
    have hstep := sim_step (snext := snext) hsim
    rw [Book.run] at h
    cases hpass : Book.pass gnext snext s with
    | ub => rw [hpass] at h; simp at h
    | again s1 =>
      rw [hpass] at h hstep
      obtain ⟨m1, e1, h1⟩ := hstep hp.sub
      obtain ⟨m', e2, h2⟩ := ih us vs s1 s' m1 h1 h hp hc
      exact ⟨m', by rw [run, e1]; exact e2, h2⟩
    | ret o s1 =>
      cases o with
      | none =>
        rw [hpass] at h hstep
        simp only [Book.Outcome.done.injEq] at h
        obtain ⟨rfl, rfl⟩ := h
        obtain ⟨m1, e1, e2, h1⟩ := hstep
        exact ⟨m1, by rw [run, e1], by simpa using h1⟩
      | some v =>
        rw [hpass] at h hstep
        simp only at h hstep
        cases hr : Book.run gnext snext fuel s1 with
        | ub => rw [hr] at h; simp [Outcome.push] at h
        | fuelOut => rw [hr] at h; simp [Outcome.push] at h
        | done ws s2 =>
          rw [hr] at h
          simp only [Outcome.push, Book.Outcome.done.injEq] at h
          obtain ⟨rfl, rfl⟩ := h
          have hp' : Patchable (us ++ [v] ++ ws) := by simpa using hp
          have hf := hstep hp'.sub
          rw [if_neg] at hf
          · obtain ⟨id, m1, mem2, e1, e2, h1⟩ := hf
            obtain ⟨m', e3, h2⟩ := ih (us ++ [v]) ws s1 _ _ h1 hr hp' (by
              intro i w hi hw
              have := hc (i + 1) w (by simpa using hi) hw
              simp only [List.length_append, List.length_singleton]
              rw [show us.length + 1 + i = us.length + (i + 1) by omega]
              exact this)
            refine ⟨m', ?_, by simpa using h2⟩
            rw [run, e1]
            simp only [e2]
            exact e3
          · rintro ⟨a, b, d⟩
            apply d
            refine hc 0 v rfl ?_
            -- what is handed out in the CONTINUE state, after the first, is a CONTINUE record
            simp only [Book.pass, a] at hpass
            cases hd : s.data with
            | none => simp [hd] at hpass
            | some u =>
              simp only [hd, if_neg b] at hpass
              have hcr : ∀ k n, IsContinue (continueRec u k n) := by
                intro k n
                simp only [IsContinue, continueRec, enc, List.append_assoc]
                rw [List.take_append_of_le_length (by simp [leN_length]), List.take_of_length_le (by simp [leN_length])]
              split at hpass
              · simp only [Book.Pass.ret.injEq, Option.some.injEq] at hpass
                rw [← hpass.1]; exact hcr _ _
              · split at hpass
                · simp only [Book.Pass.ret.injEq, Option.some.injEq] at hpass
                  rw [← hpass.1]; exact hcr _ _
                · simp at hpass

/-- At the start. -/
theorem sim_start {g : γ} {sheets : List σ} {s : Book.St γ σ} (hs : Book.start g sheets s) (hl : Listed gnext g sheets.length []) :
    Sim grow c gnext [] { s with cur := 0, offset := 0, writeLen := 0 } (St.start g sheets c) := by
  obtain ⟨h1, h2, h3, h4⟩ := hs
  refine .plain .init h1 rfl ⟨h2.symm, h3.symm, rfl, rfl, rfl⟩ ⟨h4, ?_⟩ (by intro id u i hu; simp at hu) (by simp only [h4]; exact inv_init grow c)
  intro vs g' ht i hi
  simp only [h2, h3] at ht hi
  obtain ⟨u, hu, hut⟩ := hl vs g' ht i hi
  simp only [List.map_nil, List.nil_append] at hu ⊢
  exact List.mem_map.mpr ⟨u, hu, hut⟩

theorem start_run {g : γ} {sheets : List σ} {s s' : Book.St γ σ} {us : List U} {fuel : Nat} (hs : Book.start g sheets s)
    (h : Book.run gnext snext fuel s = .done us s') :
    Book.run gnext snext fuel { s with cur := 0, offset := 0, writeLen := 0 } = .done us s' := by
  cases fuel with
  | zero => simp [Book.run] at h
  | succ f =>
    rw [Book.run] at h ⊢
    simp only [Book.pass, hs.1] at h ⊢
    exact h

theorem continue_is (u : U) (k n : Nat) : IsContinue (continueRec u k n) := by
  simp only [IsContinue, continueRec, enc, List.append_assoc]
  rw [List.take_append_of_le_length (by simp [leN_length]), List.take_of_length_le (by simp [leN_length])]

theorem clip_is (u : U) (h : IsContinue (Book.clip u)) : u.oversize = true → IsContinue u := by
  intro ho
  obtain ⟨h4, _⟩ := clip_entry u ho
  simp only [IsContinue, Book.clip] at h ⊢
  rw [← h, List.append_assoc, List.take_take, List.take_append_of_le_length (by simp [maxRec]; omega), List.take_take]
  simp [maxRec]

/-- No source hands out CONTINUE records of its own. -/
structure NoContinue (gnext : γ → Src γ) (snext : σ → Nat → Nat → Src σ) : Prop where
  g : ∀ g u g', gnext g = .unit u g' → ¬IsContinue u
  s : ∀ x o l u x', snext x o l = .unit u x' → ¬IsContinue u

/-- What waits to be split is not a CONTINUE record. -/
def Waits (s : Book.St γ σ) : Prop :=
  s.phase = .cont → s.contIdx = 0 → ∀ u, s.data = some u → u.oversize = true ∧ ¬IsContinue u

theorem handle_waits (u : U) (s : Book.St γ σ) (hu : ¬IsContinue u) (hp : s.phase ≠ .cont) :
    match Book.handle u s with
    | .ub => True
    | .again s1 => Waits s1
    | .ret none s1 => Waits s1
    | .ret (some v) s1 => Waits s1 ∧ ¬IsContinue v := by
  unfold Book.handle
  cases ho : u.oversize with
  | true =>
    rw [if_pos rfl]
    intro _ _ v hv
    simp only [Option.some.injEq] at hv
    subst hv
    exact ⟨ho, hu⟩
  | false =>
    rw [if_neg (by simp)]
    exact ⟨fun h => absurd h hp, hu⟩

theorem waits_step (hn : NoContinue gnext snext) {s : Book.St γ σ} (h : Waits s) :
    match Book.pass gnext snext s with
    | .ub => True
    | .again s1 => Waits s1
    | .ret none s1 => Waits s1
    | .ret (some v) s1 => Waits s1 ∧ (IsContinue v → s.phase = .cont ∧ s.contIdx ≠ 0) := by
  have hh : ∀ (u : U) (t : Book.St γ σ), ¬IsContinue u → t.phase ≠ .cont → match Book.handle u t with
    | .ub => True
    | .again s1 => Waits s1
    | .ret none s1 => Waits s1
    | .ret (some v) s1 => Waits s1 ∧ (IsContinue v → s.phase = .cont ∧ s.contIdx ≠ 0) := by
    intro u t hu ht
    have := handle_waits u t hu ht
    revert this
    split
    · exact id
    · exact id
    · exact id
    · exact fun h => ⟨h.1, fun hv => absurd hv h.2⟩
  unfold Book.pass
  cases hp : s.phase with
  | init => intro h'; cases h'
  | globals =>
    simp only
    cases hg : gnext s.g with
    | ub => trivial
    | again g => intro h'; simp only [hp] at h'; cases h'
    | fin g => intro h'; cases h'
    | unit u g => rw [← hp]; exact hh u _ (hn.g _ _ _ hg) (by simp [hp])
  | sheets =>
    simp only
    cases hx : s.sheets[s.cur]? with
    | none => trivial
    | some sh =>
      simp only
      cases hg : snext sh s.offset s.writeLen with
      | ub => trivial
      | again g => intro h'; simp only [hp] at h'; cases h'
      | fin g =>
        simp only
        by_cases hlast : s.cur + 1 < s.sheets.length % 65536
        · rw [if_pos hlast]; intro h'; simp only [hp] at h'; cases h'
        · rw [if_neg hlast]; intro h'; cases h'
      | unit u g => rw [← hp]; exact hh u _ (hn.s _ _ _ _ _ hg) (by simp [hp])
  | finish => intro h'; cases h'
  | cont =>
    simp only
    cases hd : s.data with
    | none => trivial
    | some u =>
      simp only
      by_cases hc : s.contIdx = 0
      · simp only [if_pos hc]
        obtain ⟨ho, hu⟩ := h hp hc u hd
        refine ⟨fun _ h0 => by simp at h0, fun hv => absurd (clip_is u hv ho) hu⟩
      · simp only [if_neg hc]
        by_cases hm : s.realSize / maxRec > s.contIdx
        · rw [if_pos hm]
          exact ⟨fun _ h0 => by simp at h0, fun _ => ⟨trivial, hc⟩⟩
        · rw [if_neg hm]
          by_cases hz : s.realSize - s.contIdx * maxRec ≠ 0
          · rw [if_pos hz]
            exact ⟨fun _ _ v hv => by simp at hv, fun _ => ⟨trivial, hc⟩⟩
          · rw [if_neg hz]
            exact fun _ _ v hv => by simp at hv

/-- If the vector is full when some CONTINUE record is made, freed memory is read. -/
theorem sim_ub (hn : NoContinue gnext snext) : ∀ (fuel : Nat) (us vs : List U) (s s' : Book.St γ σ) (m : St γ σ), Sim grow c gnext us s m → Waits s →
    Book.run gnext snext fuel s = .done vs s' → Patchable (us ++ vs) → (∃ (i : Nat) (v : U), vs[i]? = some v ∧ IsContinue v ∧
      ¬us.length + i < capAt grow c (us.length + i)) →
    run grow gnext snext fuel m = .ub := by
  intro fuel
  induction fuel with
  | zero => intro us vs s s' m _ _ h; simp [Book.run] at h
  | succ fuel ih =>
    intro us vs s s' m hsim hw h hp hc
    have hstep := sim_step (snext := snext) hsim
    have hwait := waits_step hn hw
    rw [Book.run] at h
    cases hpass : Book.pass gnext snext s with
    | ub => rw [hpass] at h; simp at h
    | again s1 =>
      rw [hpass] at h hstep hwait
      obtain ⟨m1, e1, h1⟩ := hstep hp.sub
      rw [run, e1]
      exact ih us vs s1 s' m1 h1 hwait h hp hc
    | ret o s1 =>
      cases o with
      | none =>
        rw [hpass] at h
        simp only [Book.Outcome.done.injEq] at h
        obtain ⟨rfl, rfl⟩ := h
        obtain ⟨i, v, hi, _⟩ := hc
        simp at hi
      | some v =>
        rw [hpass] at h hstep hwait
        simp only at h hstep hwait
        cases hr : Book.run gnext snext fuel s1 with
        | ub => rw [hr] at h; simp [Outcome.push] at h
        | fuelOut => rw [hr] at h; simp [Outcome.push] at h
        | done ws s2 =>
          rw [hr] at h
          simp only [Outcome.push, Book.Outcome.done.injEq] at h
          obtain ⟨rfl, rfl⟩ := h
          have hp' : Patchable (us ++ [v] ++ ws) := by simpa using hp
          have hf := hstep hp'.sub
          by_cases hbad : s.phase = .cont ∧ s.contIdx ≠ 0 ∧ ¬us.length < capAt grow c us.length
          · rw [if_pos hbad] at hf
            rw [run, hf]
          · rw [if_neg hbad] at hf
            obtain ⟨id, m1, mem2, e1, e2, h1⟩ := hf
            rw [run, e1]
            simp only [e2]
            refine ih (us ++ [v]) ws s1 _ _ h1 hwait.1 hr hp' ?_
            obtain ⟨i, w, hi, hw, hx⟩ := hc
            cases i with
            | zero =>
              simp only [List.getElem?_cons_zero, Option.some.injEq] at hi
              subst hi
              obtain ⟨a, b⟩ := hwait.2 hw
              exact absurd ⟨a, b, hx⟩ hbad
            | succ i =>
              refine ⟨i, w, by simpa using hi, hw, ?_⟩
              simp only [List.length_append, List.length_singleton]
              rw [show us.length + 1 + i = us.length + (i + 1) by omega]
              exact hx

/-! ### C34 and C54 for every source of records -/

/-- C34: whatever the globals and the sheets hand out, in whatever order and with whatever back-patching levels, if the dump ends on
    the level of records, every sheet has its BOUNDSHEET record, and the vector of slots does not grow while a CONTINUE record is made, then the
    dump ends on the level of memory as well: no record was used after it was deleted, none deleted twice; the slots
    hold the stream in order, with the positions in it; the BOUNDSHEET records still exist at the end; and the
    destructor deletes every object once and leaves the slots as they are.  (Missing: the case where the vector does
    grow, which is false, `c54_dangling`.) -/
theorem c34_kept_partial (g : γ) (sheets : List σ) (s s' : Book.St γ σ) (us : List U) (fuel : Nat) (hs : Book.start g sheets s)
    (h : Book.run gnext snext fuel s = .done us s') (hl : Listed gnext g sheets.length []) (hp : Patchable us) (hc : Calm grow c us)
    (hlv : ∀ u ∈ us, u.level ≤ everyone) :
    ∃ m bs, run grow gnext snext fuel (St.start g sheets c) = .done m ∧ stream us s'.bpos = some bs ∧
      m.mem.contents = bs.map some ∧ m.mem.total = bs.length ∧
      (∀ (i : Nat) (u : U), us[i]? = some u → u.tag ≠ none → ∃ e, m.mem.get i = some e) ∧
      ∃ m1, m.mem.close = some m1 ∧ (∀ i, m1.get i = none) ∧ m1.contents = bs.map some := by
  obtain ⟨m, e, hk⟩ := sim_run (snext := snext) fuel [] us _ s' _ (sim_start (grow := grow) (c := c) hs hl) (start_run hs h) hp (by
    intro i v hi hv
    simpa using hc i v hi hv)
  simp only [List.nil_append] at hk
  obtain ⟨bs, h1, h2, h3⟩ := kept_contents hk
  obtain ⟨m1, a1, a2, a3, _⟩ := close_ok hk hlv
  exact ⟨m, bs, e, h1, h2, h3, hk.tagged, m1, a1, a2, a3.trans h2⟩

/-- C54, exactly: if no source hands out CONTINUE records of its own, saving reads freed memory if and only if the vector of slots
    grows while a CONTINUE record is made. -/
theorem c54_dangling (g : γ) (sheets : List σ) (s s' : Book.St γ σ) (us : List U) (fuel : Nat) (hs : Book.start g sheets s)
    (h : Book.run gnext snext fuel s = .done us s') (hl : Listed gnext g sheets.length []) (hp : Patchable us) (hn : NoContinue gnext snext)
    (hlv : ∀ u ∈ us, u.level ≤ everyone) :
    run grow gnext snext fuel (St.start g sheets c) = .ub ↔ ¬Calm grow c us := by
  constructor
  · intro hu hc
    obtain ⟨m, bs, e, _⟩ := c34_kept_partial (c := c) (grow := grow) g sheets s s' us fuel hs h hl hp hc hlv
    rw [hu] at e
    cases e
  · intro hc
    refine sim_ub hn fuel [] us _ s' _ (sim_start (grow := grow) (c := c) hs hl) ?_ (start_run hs h) hp ?_
    · intro h'
      rw [show ({ s with cur := 0, offset := 0, writeLen := 0 } : Book.St γ σ).phase = s.phase from rfl, hs.1] at h'
      cases h'
    · simp only [Calm] at hc
      obtain ⟨i, hc⟩ := Classical.not_forall.mp hc
      obtain ⟨v, hc⟩ := Classical.not_forall.mp hc
      obtain ⟨h1, hc⟩ := Classical.not_imp.mp hc
      obtain ⟨h2, hc⟩ := Classical.not_imp.mp hc
      exact ⟨i, v, h1, h2, by simpa using hc⟩

theorem capAt_within (grow : Nat → Nat) (c : Nat) : ∀ n, n ≤ c → capAt grow c n = c := by
  intro n
  induction n with
  | zero => intro _; rfl
  | succ n ih => intro h; rw [capAt, ih (by omega), if_pos (by omega)]

/-- With room for all records from the start the vector never grows. -/
theorem calm_room {us : List U} (h : us.length ≤ c) : Calm grow c us := by
  intro i v hi _
  have := (List.getElem?_eq_some_iff.mp hi).1
  rw [capAt_within grow c i (by omega)]
  omega

/-- A CONTINUE record at the very place where the room ends. -/
theorem not_calm {us : List U} {v : U} (h : us[c]? = some v) (hv : IsContinue v) : ¬Calm grow c us := by
  intro hc
  have := hc c v h hv
  rw [capAt_within grow c c (Nat.le_refl _)] at this
  omega

end Xls.Store
