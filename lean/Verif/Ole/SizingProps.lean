import Verif.Ole.Sizing
/-
C08: the sizing loop stops, and its answer is the smallest one that works.
-/
namespace Xls.Ole

/-- Specification: the number of extra (XBAT) sectors needed to list `n` allocation sectors when the
    header lists 109 and each extra sector 127. -/
def XbatFor (n x : Nat) : Prop := n ≤ 109 + 127 * x ∧ ∀ y, n ≤ 109 + 127 * y → x ≤ y

/-- Specification: `n` allocation sectors of 128 entries and `x` extra sectors are enough for a file
    of `d` data sectors plus themselves plus one directory sector. -/
def Enough (d n x : Nat) : Prop := d + n + x + 1 ≤ 128 * n

/-- Ceiling form of the XBAT count. -/
def ms (n : Nat) : Nat := (n - 109 + 126) / 127

theorem xbatFor_ms (n : Nat) : XbatFor n (ms n) := by
  constructor
  · unfold ms; omega
  · intro y hy; unfold ms; omega

theorem xbatFor_unique {n x y : Nat} (h : XbatFor n x) (h' : XbatFor n y) : x = y :=
  Nat.le_antisymm (h.2 y h'.1) (h'.2 x h.1)

theorem ms_mono {a b : Nat} (h : a ≤ b) : ms a ≤ ms b := by unfold ms; omega

/-- The next guess. -/
def nxt (d n : Nat) : Nat := (ms n + d + n + 1 + 127) / 128

theorem nxt_mono (d : Nat) {a b : Nat} (h : a ≤ b) : nxt d a ≤ nxt d b := by
  have := ms_mono h
  unfold nxt; omega

/-- State after a pass whose guess was `n`. -/
def stOf (d n : Nat) : BatSt :=
  { num := n, needed := nxt d n, msat := ms n, entries := ms n + d + n + 1, cap := 109 + 127 * ms n }

theorem step_eq (d : Nat) (s : BatSt) (h : s.needed ≤ 109 → s.msat = 0) :
    batStep d s = stOf d s.needed := by
  have hm : (batStep d s).msat = ms s.needed := by
    show (if s.needed > 109 then (if (s.needed - 109) % 127 ≠ 0 then (s.needed - 109) / 127 + 1
      else (s.needed - 109) / 127) else s.msat) = (s.needed - 109 + 126) / 127
    by_cases h1 : s.needed > 109
    · rw [if_pos h1]
      by_cases h2 : (s.needed - 109) % 127 ≠ 0
      · rw [if_pos h2]; omega
      · rw [if_neg h2]; omega
    · rw [if_neg h1, h (by omega)]; omega
  have he : (batStep d s).entries = ms s.needed + d + s.needed + 1 := by
    rw [← hm]; rfl
  have hn : (batStep d s).needed = nxt d s.needed := by
    have : (batStep d s).needed = (if (batStep d s).entries % 128 ≠ 0 then
      (batStep d s).entries / 128 + 1 else (batStep d s).entries / 128) := rfl
    rw [this, he]
    unfold nxt
    by_cases h2 : (ms s.needed + d + s.needed + 1) % 128 ≠ 0
    · rw [if_pos h2]; omega
    · rw [if_neg h2]; omega
  have hc : (batStep d s).cap = 109 + 127 * ms s.needed := by rw [← hm]; rfl
  have hnum : (batStep d s).num = s.needed := rfl
  generalize batStep d s = t at *
  cases t
  simp only [stOf]
  simp_all

theorem goOn_stOf (d n : Nat) : batGoOn (stOf d n) = true ↔ n ≠ nxt d n := by
  have : n ≤ 109 + 127 * ms n := (xbatFor_ms n).1
  have h2 : ¬ (n > 109 + 127 * ms n) := by omega
  simp [batGoOn, stOf, h2]

/-- From a guess that is too small the loop climbs to the least fixed point. -/
theorem loop_spec (d : Nat) (top : Nat) (htop : nxt d top ≤ top) :
    ∀ f n, n ≤ nxt d n → n ≤ top → top ≤ n + f →
      ∃ r, batLoop d f (stOf d n) = some (stOf d r) ∧ nxt d r = r ∧ n ≤ r ∧
        ∀ m, nxt d m ≤ m → n ≤ m → r ≤ m := by
  intro f
  induction f with
  | zero =>
    intro n h1 h2 h3
    have he : n = top := by omega
    subst he
    have hfix : nxt d n = n := by omega
    refine ⟨n, ?_, hfix, Nat.le_refl _, fun m _ h => h⟩
    have : batGoOn (stOf d n) = false := by
      rw [Bool.eq_false_iff]; intro hc; exact (goOn_stOf d n).mp hc hfix.symm
    simp [batLoop, this]
  | succ f ih =>
    intro n h1 h2 h3
    by_cases hfix : nxt d n = n
    · refine ⟨n, ?_, hfix, Nat.le_refl _, fun m _ h => h⟩
      have : batGoOn (stOf d n) = false := by
        rw [Bool.eq_false_iff]; intro hc; exact (goOn_stOf d n).mp hc hfix.symm
      simp [batLoop, this]
    · have hlt : n < nxt d n := by omega
      obtain ⟨r, e, hr, hnr, hmin⟩ := ih (nxt d n) (nxt_mono d h1)
        (Nat.le_trans (nxt_mono d h2) htop) (by omega)
      have hgo : batGoOn (stOf d n) = true := (goOn_stOf d n).mpr (Ne.symm hfix)
      refine ⟨r, ?_, hr, by omega, fun m hm hnm => hmin m hm (Nat.le_trans (nxt_mono d hnm) hm)⟩
      rw [batLoop, if_pos hgo, step_eq]
      · exact e
      · simp only [stOf]
        intro hle
        have : n ≤ 109 := by omega
        unfold ms; omega

/-- Fuel does not matter once it suffices. -/
theorem batLoop_mono {d f : Nat} {s r : BatSt} (h : batLoop d f s = some r) :
    ∀ g, f ≤ g → batLoop d g s = some r := by
  induction f generalizing s with
  | zero =>
    intro g _
    simp only [batLoop] at h
    split at h
    · simp at h
    · rename_i hn
      rw [← h]
      cases g <;> simp [batLoop, hn]
  | succ f ih =>
    intro g hg
    obtain ⟨g, rfl⟩ : ∃ g', g = g' + 1 := ⟨g - 1, by omega⟩
    simp only [batLoop] at h ⊢
    split
    · rename_i hn
      rw [if_pos hn] at h
      exact ih h g (by omega)
    · rename_i hn
      rwa [if_neg hn] at h

/-- The loop as run by the program, described through the least workable sector count. -/
theorem batLoop_init (d : Nat) :
    ∃ r, batLoop d (d + 4) (batInit d) = some (stOf d r) ∧ nxt d r = r ∧
      ∀ m, nxt d m ≤ m → r ≤ m := by
  have h0 : batGoOn (batInit d) = true := by simp [batGoOn, batInit]
  let n0 := d / 128 + d / 128 / 128
  have hn0 : n0 ≤ nxt d n0 := by
    have : 127 * n0 ≤ d := by omega
    unfold nxt; omega
  have htop : nxt d (d + 2) ≤ d + 2 := by unfold nxt ms; omega
  obtain ⟨r, e, hr, _, hmin⟩ := loop_spec d (d + 2) htop (d + 3) n0 hn0 (by omega) (by omega)
  refine ⟨r, ?_, hr, fun m hm => hmin m hm ?_⟩
  · rw [show d + 4 = (d + 3) + 1 from rfl, batLoop, if_pos h0, step_eq]
    · exact e
    · intro _; rfl
  · have : 127 * n0 ≤ d := by omega
    unfold nxt at hm
    omega

theorem nxt_le_iff (d n : Nat) : nxt d n ≤ n ↔ Enough d n (ms n) := by
  unfold nxt Enough; omega

/-- C08 (termination): the loop stops for every amount of data, after at most `d + 4` passes. -/
theorem c08_terminates (d : Nat) : ∃ b, getBATCount d = some b ∧
    ∀ fuel, d + 4 ≤ fuel → (batLoop d fuel (batInit d)).map batFinish = some b := by
  obtain ⟨r, e, _, _⟩ := batLoop_init d
  exact ⟨batFinish (stOf d r), by simp [getBATCount, e], fun f hf => by
    simp [batLoop_mono e f hf]⟩

/-- C08 (answer): with the reported counts everything fits — the extra sectors are exactly as many
    as needed to list the allocation sectors, and the allocation sectors have an entry for every
    sector of the file; and no smaller number of allocation sectors would do. -/
theorem c08_minimal (d : Nat) (b : Blocks) (h : getBATCount d = some b) :
    XbatFor b.batCount b.msatCount ∧ Enough d b.batCount b.msatCount ∧
    (∀ n x, XbatFor n x → Enough d n x → b.batCount ≤ n) ∧
    b.batEntries = d + b.batCount + b.msatCount + 1 := by
  obtain ⟨r, e, hr, hmin⟩ := batLoop_init d
  have hb : batFinish (stOf d r) = b := by simpa [getBATCount, e] using h
  have hcount : b.batCount = r := by rw [← hb]; unfold batFinish; split <;> rfl
  have hms : b.msatCount = ms r := by
    rw [← hb]; unfold batFinish
    split
    · rfl
    · rename_i hle
      simp only [stOf, headerSat] at hle ⊢
      unfold ms; omega
  have hent : b.batEntries = ms r + d + r + 1 := by rw [← hb]; unfold batFinish; split <;> rfl
  rw [hcount, hms, hent]
  refine ⟨xbatFor_ms r, (nxt_le_iff d r).mp (by omega), fun n x hx hen => ?_, by omega⟩
  rw [xbatFor_unique hx (xbatFor_ms n)] at hen
  exact hmin n ((nxt_le_iff d n).mpr hen)

/-- C08 (layout): header slots and extra-sector slots are filled exactly. -/
theorem c08_slots (d : Nat) (b : Blocks) (h : getBATCount d = some b) :
    b.headerBatCount + b.extraBatCount = b.batCount ∧
    b.headerBatCount + b.headerFill = 109 ∧
    b.extraBatCount + b.extraFill = 127 * b.msatCount ∧
    (0 < b.extraBatCount → b.headerBatCount = 109) ∧ 0 < b.batCount ∧ b.extraFill < 127 := by
  have h1 := c08_minimal d b h
  obtain ⟨⟨hx1, hx2⟩, hen, _, _⟩ := h1
  obtain ⟨r, e, hr, hmin⟩ := batLoop_init d
  have hb : batFinish (stOf d r) = b := by simpa [getBATCount, e] using h
  unfold Enough at hen
  have hx0 : b.batCount ≤ 109 → b.msatCount = 0 := fun hle => by
    have := hx2 0 (by omega); omega
  have hx3 : 109 < b.batCount → b.batCount + 126 < 109 + 127 * b.msatCount + 127 := fun hlt => by
    omega
  have hx4 : 0 < b.msatCount → 109 + 127 * (b.msatCount - 1) < b.batCount := fun hp => by
    by_cases hc : b.batCount ≤ 109 + 127 * (b.msatCount - 1)
    · have := hx2 _ hc; omega
    · omega
  by_cases hr : r > 109
  · have hb' : b = ⟨ms r + d + r + 1, r, ms r, 109, r - 109, 0,
        if (r - 109) % 127 ≠ 0 then 127 - (r - 109) % 127 else 0⟩ := by
      rw [← hb]
      exact if_pos hr
    subst hb'
    simp only at hx0 hx1 hx2 hx3 hx4 hen ⊢
    have hp := hx4 (by omega)
    refine ⟨by omega, trivial, ?_, fun _ => trivial, by omega, ?_⟩
    · split <;> omega
    · split <;> omega
  · have hb' : b = ⟨ms r + d + r + 1, r, 0, r, 0, 109 - r, 0⟩ := by
      rw [← hb]
      exact if_neg hr
    subst hb'
    simp only at hen ⊢
    exact ⟨rfl, by omega, trivial, fun h => absurd h (by omega), by omega, by omega⟩

/-- A plain workbook (no extra sectors), one with exactly 109 allocation sectors, and a huge one. -/
example : getBATCount 24 = some ⟨26, 1, 0, 1, 0, 108, 0⟩ := by decide
example : (getBATCount 13842).map (·.batCount) = some 109 := by decide +kernel
example : (getBATCount 13843).map (fun b => (b.batCount, b.msatCount)) = some (110, 1) := by
  decide +kernel

end Xls.Ole
