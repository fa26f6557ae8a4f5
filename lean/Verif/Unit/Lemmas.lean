import Verif.Unit.Model
/-
Helper lemmas about the unit buffer.
-/
namespace Xls.Unit

/-- The buffer is in a sane state and its used part is `bs`. -/
structure Holds (s : Store) (bs : Bytes) : Prop where
  alloc : s.mem.length = s.getSize
  size : s.dataSize = bs.length
  fits : bs.length ≤ s.mem.length
  used : s.mem.take bs.length = bs.map some

theorem mapM_map_some (bs : Bytes) : (bs.map some).mapM id = some bs := by
  induction bs with
  | nil => rfl
  | cons b r ih => simp [List.mapM_cons, ih]

theorem Holds.contents {s : Store} {bs : Bytes} (h : Holds s bs) : s.contents = some bs := by
  unfold Store.contents
  rw [h.size, if_pos h.fits, h.used, mapM_map_some]

theorem prepare_holds (n : Nat) : Holds (prepare n) [] := by
  unfold prepare
  split
  · exact ⟨by simp [Store.getSize], rfl, by simp, by simp⟩
  · exact ⟨by simp [Store.getSize], rfl, by simp, by simp⟩

theorem prepare_room (n : Nat) : n ≤ (prepare n).mem.length := by
  unfold prepare; split <;> simp_all

theorem regrow_length (m : Mem) (keep n : Nat) (h : keep ≤ m.length) : (regrow m keep n).length = n := by
  simp [regrow]; omega

theorem regrow_take (m : Mem) (keep n k : Nat) (h : k ≤ keep) (hn : k ≤ n) (hm : keep ≤ m.length) :
    (regrow m keep n).take k = m.take k := by
  unfold regrow
  rw [List.take_append_of_le_length (by simp; omega), List.take_take]
  congr 1
  omega

theorem Holds.resize {s : Store} {bs : Bytes} (h : Holds s bs) (n : Nat) (hn : bs.length ≤ n) :
    ∃ s', s.resize n = some s' ∧ Holds s' bs ∧ n ≤ s'.mem.length := by
  obtain ⟨ha, hs, hf, hu⟩ := h
  unfold Store.resize
  cases hv : s.varying with
  | false =>
    rw [if_pos rfl]
    by_cases h1 : n > fixedWidth
    · rw [if_pos h1, if_pos (by omega)]
      have hlen : (regrow s.mem s.dataSize n).length = n := regrow_length _ _ _ (by omega)
      refine ⟨_, rfl, ⟨by simp [Store.getSize], hs, by simp [hlen, hn], ?_⟩, by simp [hlen]⟩
      show (regrow s.mem s.dataSize n).take bs.length = _
      rw [regrow_take _ _ _ _ (by omega) hn (by omega), hu]
    · rw [if_neg h1]
      refine ⟨s, rfl, ⟨ha, hs, hf, hu⟩, ?_⟩
      rw [ha]; simp [Store.getSize, hv]; omega
  | true =>
    rw [if_neg (by simp)]
    by_cases h1 : n ≠ s.mem.length
    · rw [if_pos h1]
      have hlen : (regrow s.mem s.mem.length n).length = n := regrow_length _ _ _ (by omega)
      refine ⟨_, rfl, ⟨by simp [Store.getSize], hs, by simp [hlen, hn], ?_⟩, by simp [hlen]⟩
      show (regrow s.mem s.mem.length n).take bs.length = _
      rw [regrow_take _ _ _ _ hf hn (Nat.le_refl _), hu]
    · rw [if_neg h1]
      refine ⟨s, rfl, ⟨ha, hs, hf, hu⟩, ?_⟩
      omega

theorem pokeSeq_eq (m : Mem) (i : Nat) (bs : Bytes) (h : i + bs.length ≤ m.length) :
    pokeSeq m i bs = some (m.take i ++ bs.map some ++ m.drop (i + bs.length)) := by
  induction bs generalizing m i with
  | nil => simp [pokeSeq]
  | cons b r ih =>
    simp only [List.length_cons] at h
    simp only [pokeSeq, poke]
    rw [if_pos (by omega)]
    simp only [Option.bind_some]
    rw [ih _ _ (by simp; omega)]
    have h1 : (m.set i (some b)).take (i + 1) = m.take i ++ [some b] := by
      rw [List.take_set, List.take_add_one, List.getElem?_eq_getElem (by omega)]
      simp only [Option.toList_some]
      rw [List.set_append_right _ _ (by simp; omega)]
      have : i - (List.take i m).length = 0 := by simp; omega
      rw [this]; rfl
    have h2 : (m.set i (some b)).drop (i + 1 + r.length) = m.drop (i + (r.length + 1)) := by
      rw [List.drop_set_of_lt (by omega)]
      congr 1
      omega
    rw [h1, h2]
    simp

theorem holds_withMem {s : Store} (ha : s.mem.length = s.getSize) (m : Mem)
    (hl : m.length = s.mem.length) (bs' : Bytes) (n : Nat) (hn : n % 2 ^ 29 = bs'.length)
    (hf : bs'.length ≤ m.length) (hu : m.take bs'.length = bs'.map some) :
    Holds ({ s with mem := m }.setDataSize n) bs' := by
  obtain ⟨v, mem, ds⟩ := s
  refine ⟨?_, hn, hf, hu⟩
  cases v with
  | false =>
    have h1 : mem.length = fixedWidth := ha
    have h2 : m.length = mem.length := hl
    show m.length = fixedWidth
    omega
  | true => rfl

theorem Holds.add {s : Store} {bs new : Bytes} (h : Holds s bs)
    (hroom : bs.length + new.length ≤ s.mem.length) (h29 : bs.length + new.length < 2 ^ 29) :
    ∃ m, pokeSeq s.mem s.dataSize new = some m ∧
      Holds ({ s with mem := m }.setDataSize (s.dataSize + new.length)) (bs ++ new) := by
  obtain ⟨ha, hs, hf, hu⟩ := h
  refine ⟨_, pokeSeq_eq _ _ _ (by omega), ?_⟩
  apply holds_withMem ha
  · simp; omega
  · rw [hs, Nat.mod_eq_of_lt h29, List.length_append]
  · simp; omega
  · rw [hs, hu, List.take_append_of_le_length (by simp), List.take_of_length_le (by simp)]
    simp

theorem addRoomed_holds {s : Store} {bs new : Bytes} {room : Nat} (h : Holds s bs)
    (hroom : new.length ≤ room) (h29 : bs.length + new.length < 2 ^ 29) :
    ∃ s', addRoomed s room new = some (some s') ∧ Holds s' (bs ++ new) := by
  unfold addRoomed
  by_cases hc : s.getSize - s.dataSize < room
  · rw [if_pos hc]
    obtain ⟨s1, h1, h2, h3⟩ := h.resize (room + s.dataSize) (by rw [h.size]; omega)
    rw [h1]
    obtain ⟨m, hm, hm2⟩ := h2.add (new := new) (by have := h.size; omega) h29
    exact ⟨_, by simp [hm], hm2⟩
  · rw [if_neg hc]
    have := h.alloc
    have := h.size
    have := h.fits
    obtain ⟨m, hm, hm2⟩ := h.add (new := new) (by omega) h29
    exact ⟨_, by simp [hm], hm2⟩

theorem addValue8_holds {s : Store} {bs : Bytes} (v : UInt8) (h : Holds s bs)
    (h29 : bs.length + 1 < 2 ^ 29) :
    ∃ s', addValue8 (some s) v = some (some s') ∧ Holds s' (bs ++ [v]) := by
  have hp : ∀ t : Store, (poke t.mem t.dataSize v) = pokeSeq t.mem t.dataSize [v] := by
    intro t; simp only [pokeSeq]; cases poke t.mem t.dataSize v <;> rfl
  unfold addValue8
  simp only [Option.bind_some, hp]
  by_cases hc : s.dataSize ≥ s.getSize
  · rw [if_pos hc]
    obtain ⟨s1, h1, h2, h3⟩ := h.resize (s.dataSize + 1) (by rw [h.size]; omega)
    rw [h1]
    obtain ⟨m, hm, hm2⟩ := h2.add (new := [v]) (by have := h.size; simp; omega) h29
    exact ⟨_, by simp [hm], hm2⟩
  · rw [if_neg hc]
    have := h.alloc
    have := h.size
    obtain ⟨m, hm, hm2⟩ := h.add (new := [v]) (by simp; omega) h29
    exact ⟨_, by simp [hm], hm2⟩

end Xls.Unit
