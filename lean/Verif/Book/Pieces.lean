import Verif.Book.Lemmas
namespace Xls.Book
open Xls.Biff

theorem chunks_flatten {α : Type} {n : Nat} (hn : 0 < n) (l : List α) : (chunks n l).flatten = l := by
  induction h : l.length using Nat.strongRecOn generalizing l with
  | ind m ih =>
    by_cases hl : l = []
    · subst hl; rw [chunks_nil]; rfl
    · have hpos : 0 < l.length := List.length_pos_iff.mpr hl
      rw [chunks_cons hn hl, List.flatten_cons, ih (l.drop n).length (by simp; omega) _ rfl]
      exact List.take_append_drop n l

theorem chunks_mem {α : Type} {n : Nat} (hn : 0 < n) (l : List α) :
    ∀ c ∈ chunks n l, 0 < c.length ∧ c.length ≤ n := by
  induction h : l.length using Nat.strongRecOn generalizing l with
  | ind m ih =>
    by_cases hl : l = []
    · subst hl; rw [chunks_nil]; simp
    · have hpos : 0 < l.length := List.length_pos_iff.mpr hl
      rw [chunks_cons hn hl]
      intro c hc
      rcases List.mem_cons.mp hc with e | hc
      · subst e; rw [List.length_take]; omega
      · exact ih (l.drop n).length (by simp; omega) _ rfl c hc

theorem chunks_dropLast {α : Type} {n : Nat} (hn : 0 < n) (l : List α) :
    ∀ c ∈ (chunks n l).dropLast, c.length = n := by
  induction h : l.length using Nat.strongRecOn generalizing l with
  | ind m ih =>
    by_cases hl : l = []
    · subst hl; rw [chunks_nil]; simp
    · have hpos : 0 < l.length := List.length_pos_iff.mpr hl
      rw [chunks_cons hn hl]
      by_cases hd : l.drop n = []
      · rw [hd, chunks_nil]; simp
      · have hlen : n < l.length := by
          have := List.length_pos_iff.mpr hd
          rw [List.length_drop] at this; omega
        have hne : chunks n (l.drop n) ≠ [] := by rw [chunks_cons hn hd]; simp
        rw [List.dropLast_cons_of_ne_nil hne]
        intro c hc
        rcases List.mem_cons.mp hc with e | hc
        · subst e; rw [List.length_take]; omega
        · exact ih (l.drop n).length (by simp; omega) _ rfl c hc

theorem chunks_length {α : Type} {n : Nat} (hn : 0 < n) (l : List α) :
    (chunks n l).length = (l.length + (n - 1)) / n := by
  induction h : l.length using Nat.strongRecOn generalizing l with
  | ind m ih =>
    by_cases hl : l = []
    · subst hl; rw [chunks_nil]; simp at h; subst h
      rw [Nat.zero_add, Nat.div_eq_of_lt (by omega)]; rfl
    · have hpos : 0 < l.length := List.length_pos_iff.mpr hl
      rw [chunks_cons hn hl, List.length_cons, ih (l.drop n).length (by simp; omega) _ rfl, List.length_drop, h]
      by_cases hle : n ≤ m
      · rw [show m + (n - 1) = (m - n + (n - 1)) + n by omega, Nat.add_div_right _ hn]
      · rw [show m - n = 0 by omega, Nat.zero_add, Nat.div_eq_of_lt (by omega),
          show m + (n - 1) = (m - 1) + n by omega, Nat.add_div_right _ hn, Nat.div_eq_of_lt (by omega)]

/-- A unit that is a record: its bytes are a type, a length field and the payload. -/
theorem clip_data {u : U} {t x : Nat} {p : Bytes} (hu : u.data = leN 2 t ++ leN 2 x ++ p)
    (hp : p.length > maxRec) : (clip u).data = enc (t, p.take maxRec) := by
  have h1 : u.data.take 2 = leN 2 t := by
    rw [hu, List.append_assoc, List.take_left' (by simp)]
  have h2 : u.data.drop 4 = p := by
    rw [hu, List.drop_left' (by simp)]
  simp only [clip, h1, h2, enc, List.length_take, Nat.min_eq_left (Nat.le_of_lt hp)]
  rw [List.take_append]
  simp [maxRec, List.take_of_length_le]

theorem pieces_written {u : U} {t x : Nat} {p : Bytes} (hu : u.data = leN 2 t ++ leN 2 x ++ p)
    (hp : p.length > maxRec) (hc : u.cont = false) :
    ∃ rs, WrittenAs t p rs ∧ (pieces u).map (·.data) = rs.map enc := by
  have h2 : u.data.drop 4 = p := by
    rw [hu, List.drop_left' (by simp)]
  have hps : u.paySize = p.length := by
    rw [← h2, List.length_drop]; rfl
  have ho : u.oversize = true := by simp [U.oversize, hc, hps, hp]
  have hm : 0 < maxRec := by decide
  refine ⟨(t, p.take maxRec) :: (chunks maxRec (p.drop maxRec)).map (fun c => (0x3C, c)), ?_, ?_⟩
  · refine ⟨p.take maxRec, chunks maxRec (p.drop maxRec), rfl, ?_, ?_, chunks_mem hm _, ?_, fun _ => ⟨?_, chunks_dropLast hm _⟩⟩
    · rw [chunks_flatten hm, List.take_append_drop]
    · rw [List.length_take]; exact Nat.min_le_left _ _
    · intro h; exact absurd hp (by simp [maxRec]; omega)
    · rw [List.length_take]; exact Nat.min_eq_left (Nat.le_of_lt hp)
  · rw [pieces, if_pos ho, h2]
    simp [clip_data hu hp, contUnit, Function.comp_def]

theorem pieces_small {u : U} (h : u.cont = true ∨ u.paySize ≤ maxRec) : pieces u = [u] := by
  have : u.oversize = false := by
    rcases h with h | h
    · simp [U.oversize, h]
    · simp [U.oversize]; omega
  simp [pieces, this]

theorem pieces_arith (P : Nat) (h : P > maxRec) :
    maxRec + 4 + (P - maxRec + 4 * ((P - maxRec + (maxRec - 1)) / maxRec)) =
      P + 4 + 4 * (P / maxRec - 1) + (if P % maxRec ≠ 0 then 4 else 0) := by
  simp only [show maxRec = 8224 from rfl] at *
  by_cases hz : P % 8224 = 0
  · rw [if_neg (by simp [hz])]; omega
  · rw [if_pos hz]; omega

/-- The real length of what a unit becomes. -/
theorem pieces_length {u : U} (h4 : 4 ≤ u.data.length) :
    ((pieces u).flatMap (·.data)).length =
      cost u + (if u.oversize ∧ u.paySize % maxRec ≠ 0 then 4 else 0) := by
  by_cases ho : u.oversize
  · have hgt : u.paySize > maxRec := by
      simp only [U.oversize, Bool.and_eq_true, decide_eq_true_eq] at ho
      exact ho.2
    have hm : 0 < maxRec := by decide
    have hlen : ∀ (l : List Bytes), (l.flatMap (fun c => enc (0x3C, c))).length = l.flatten.length + 4 * l.length := by
      intro l
      induction l with
      | nil => rfl
      | cons c l ih =>
        have he : (enc (0x3C, c)).length = c.length + 4 := by simp [enc]; omega
        rw [List.flatMap_cons, List.length_append, ih, List.flatten_cons, List.length_append, he, List.length_cons]
        omega
    have hcl : (clip u).data.length = maxRec + 4 := by
      simp only [clip, List.length_take, List.length_append, leN_length, List.length_drop]
      simp only [U.paySize] at hgt
      omega
    rw [pieces, if_pos ho, List.flatMap_cons, List.length_append, List.flatMap_map, hcl]
    have e1 := hlen (chunks maxRec ((u.data.drop 4).drop maxRec))
    rw [chunks_flatten hm, chunks_length hm] at e1
    have e2 : ((u.data.drop 4).drop maxRec).length = u.paySize - maxRec := by
      simp only [List.length_drop, U.paySize]
    rw [e2] at e1
    have e3 : ((chunks maxRec ((u.data.drop 4).drop maxRec)).flatMap fun a => (contUnit u a).data).length = _ := e1
    rw [e3]
    have hd : u.data.length = u.paySize + 4 := by simp only [U.paySize]; omega
    simp only [cost, ho, if_true, true_and, hd]
    exact pieces_arith u.paySize hgt
  · rw [pieces, if_neg ho]
    simp [cost, ho]

end Xls.Book
