import Verif.Ole.Layout2
/-
Helper lemmas: what the strict reader sees in the image.
-/
namespace Xls.Ole
open Xls.Cfb

/-! ### Sectors -/

theorem sector_at (H A C Z : Bytes) (i : Nat) (hH : H.length = 512) (hA : A.length = 512 * i)
    (hC : C.length = 512) : sector (H ++ (A ++ (C ++ Z))) i = some C := by
  have hd : (H ++ (A ++ (C ++ Z))).drop (512 * (i + 1)) = C ++ Z := by
    rw [show 512 * (i + 1) = (H ++ A).length by simp [hH, hA]; omega, ← List.append_assoc,
      List.drop_left]
  simp only [sector, hd]
  rw [List.take_append_of_le_length (by omega), List.take_of_length_le (by omega), if_pos hC]

theorem sectors_range (H A C Z : Bytes) (a n : Nat) (hH : H.length = 512) (hA : A.length = 512 * a)
    (hC : C.length = 512 * n) :
    ∃ cs, (List.range' a n).mapM (sector (H ++ (A ++ (C ++ Z)))) = some cs ∧ cs.flatten = C ∧
      ∀ c ∈ cs, c.length = 512 := by
  induction n generalizing A C a with
  | zero =>
    have : C = [] := List.length_eq_zero_iff.mp (by omega)
    exact ⟨[], rfl, by simp [this], by simp⟩
  | succ n ih =>
    have h1 : C = C.take 512 ++ C.drop 512 := (List.take_append_drop _ _).symm
    have hl : (C.take 512).length = 512 := by simp; omega
    have hs : sector (H ++ (A ++ (C ++ Z))) a = some (C.take 512) := by
      conv => lhs; rw [h1, List.append_assoc]
      exact sector_at H A _ _ a hH hA hl
    obtain ⟨cs, e, hf, hall⟩ := ih (A ++ C.take 512) (C.drop 512) (a + 1)
      (by simp [hA, hl]; omega) (by simp; omega)
    have hF : H ++ (A ++ C.take 512 ++ (C.drop 512 ++ Z)) = H ++ (A ++ (C ++ Z)) := by
      conv => rhs; rw [h1]
      simp only [List.append_assoc]
    rw [hF] at e
    refine ⟨C.take 512 :: cs, ?_, ?_, ?_⟩
    · simp [List.range'_succ, hs, e]
    · simp [hf]
    · intro c hc
      rcases List.mem_cons.mp hc with rfl | hc
      · exact hl
      · exact hall c hc

theorem flatMap_words (cs : List Bytes) (h : ∀ c ∈ cs, c.length = 512) :
    cs.flatMap words = words cs.flatten := by
  induction cs with
  | nil => rfl
  | cons c r ih =>
    rw [List.flatMap_cons, List.flatten_cons, words_append _ _ (by rw [h c (by simp)]),
      ih (fun x hx => h x (by simp [hx]))]

/-! ### The table of allocation sectors -/

theorem extraWords_run (extra r n i sid mid : Nat) (h : ∀ t < r, (i + t) % 127 ≠ 0) :
    extraWords extra (r + n) i sid mid =
      List.range' sid r ++ extraWords extra n (i + r) (sid + r) mid := by
  induction r generalizing i sid with
  | zero => simp
  | succ r ih =>
    have h0 : ¬ i % perMsat = 0 := by simpa [perMsat] using h 0 (by omega)
    rw [show r + 1 + n = (r + n) + 1 by omega, extraWords, if_neg h0,
      ih (i + 1) (sid + 1) (fun t ht => by
        have := h (t + 1) (by omega)
        rwa [show i + 1 + t = i + (t + 1) by omega]), List.range'_succ]
    simp [Nat.add_assoc, Nat.add_comm 1 r]

/-- The extra table: blocks of 127 ids, each followed by the link to the next block. -/
def weave (m : Nat) : Nat → Nat → List Nat → List Nat
  | 0, _, _ => []
  | n + 1, j, E => (E.take 127 ++ [if j + 1 < m then j + 1 else endOfChain]) ++ weave m n (j + 1) (E.drop 127)

theorem weave_length (m n j : Nat) (E : List Nat) (h : E.length = 127 * n) :
    (weave m n j E).length = 128 * n := by
  induction n generalizing j E with
  | zero => rfl
  | succ n ih =>
    simp only [weave, List.length_append, List.length_take, List.length_cons, List.length_nil,
      ih (j + 1) (E.drop 127) (by simp; omega)]
    omega

theorem extra_weave (extra m n j sid rem fill : Nat) (hm : m = j + n) (hrem : rem + fill = 127 * n)
    (hfill : fill < 127) (hex : extra = 127 * j + rem) :
    extraWords extra rem (127 * j + 1) sid (j + 1) ++
      (if fill ≠ 0 then List.replicate fill freeSect ++ [endOfChain] else []) =
    weave m n j (List.range' sid rem ++ List.replicate fill freeSect) := by
  induction n generalizing j sid rem with
  | zero =>
    have h1 : rem = 0 := by omega
    have h2 : fill = 0 := by omega
    subst h1; subst h2
    rfl
  | succ n ih =>
    by_cases hfull : 127 ≤ rem
    · obtain ⟨r, rfl⟩ : ∃ r, rem = 126 + (1 + r) := ⟨rem - 127, by omega⟩
      rw [extraWords_run extra 126 (1 + r) (127 * j + 1) sid (j + 1) (by intro t ht; omega)]
      rw [show 1 + r = r + 1 by omega, extraWords]
      have hi : (127 * j + 1 + 126) % perMsat = 0 := by simp only [perMsat]; omega
      rw [if_pos hi]
      have hE : List.range' sid (126 + (r + 1)) ++ List.replicate fill freeSect =
          (List.range' sid 127) ++ (List.range' (sid + 127) r ++ List.replicate fill freeSect) := by
        rw [show 126 + (r + 1) = 127 + r by omega, ← List.append_assoc,
          List.range'_append_1]
      have htake : ((List.range' sid 127) ++
          (List.range' (sid + 127) r ++ List.replicate fill freeSect)).take 127 = List.range' sid 127 := by
        rw [List.take_append_of_le_length (by simp), List.take_of_length_le (by simp)]
      have hdrop : ((List.range' sid 127) ++
          (List.range' (sid + 127) r ++ List.replicate fill freeSect)).drop 127 =
          List.range' (sid + 127) r ++ List.replicate fill freeSect := by
        exact List.drop_left' (by simp)
      have h127 : List.range' sid 127 = List.range' sid 126 ++ [sid + 126] := by
        rw [show (127 : Nat) = 126 + 1 from rfl, List.range'_concat, Nat.one_mul]
      rw [hE, weave, htake, hdrop]
      by_cases hlast : 127 * j + 1 + 126 = extra
      · rw [if_pos hlast]
        have hr : r = 0 := by omega
        have hf : fill = 0 := by omega
        have hn : n = 0 := by omega
        subst hr; subst hf; subst hn
        rw [if_neg (by omega : ¬ j + 1 < m), h127]
        simp [extraWords, weave]
      · rw [if_neg hlast]
        have hn : 0 < n := by omega
        rw [if_pos (by omega : j + 1 < m), h127]
        have := ih (j + 1) (sid + 127) r (by omega) (by omega) (by omega)
        rw [← this]
        simp [show 127 * (j + 1) + 1 = 127 * j + 1 + 126 + 1 by omega, Nat.add_assoc]
    · have hn : n = 0 := by omega
      subst hn
      have hf : fill ≠ 0 := by omega
      have hrun := extraWords_run extra rem 0 (127 * j + 1) sid (j + 1) (by intro t ht; omega)
      rw [Nat.add_zero] at hrun
      rw [hrun, if_pos hf, weave, weave, if_neg (by omega : ¬ j + 1 < m),
        List.take_of_length_le (by simp; omega)]
      simp [extraWords]

/-- The ids listed by the extra table, unused slots included. -/
def extraIds (b : Blocks) (d : Nat) : List Nat :=
  List.range' (b.msatCount + d + b.headerBatCount) b.extraBatCount ++
    List.replicate b.extraFill freeSect

theorem xWords_weave (d : Nat) (b : Blocks) (h : getBATCount d = some b) :
    xWords b d = weave b.msatCount b.msatCount 0 (extraIds b d) := by
  obtain ⟨_, _, h3, _, _, h6⟩ := c08_slots d b h
  exact extra_weave b.extraBatCount b.msatCount b.msatCount 0 _ b.extraBatCount b.extraFill
    (by omega) h3 h6 (by omega)

/-- Reading a woven table back. -/
theorem difat_weave (F H A Z : Bytes) (m n j : Nat) (E : List Nat) (hF : F = H ++ (A ++ (w32 (weave m n j E) ++ Z)))
    (hH : H.length = 512) (hA : A.length = 512 * j) (hE : E.length = 127 * n) (hm : m = j + n)
    (hlt : ∀ x ∈ E, x < 2 ^ 32) (hm32 : m < 2 ^ 31) :
    difat F n (if n = 0 then endOfChain else j) = some E := by
  induction n generalizing j E A with
  | zero =>
    have : E = [] := List.length_eq_zero_iff.mp (by omega)
    simp [difat, this]
  | succ n ih =>
    rw [if_neg (by omega)]
    rw [weave] at hF
    have hbl : (E.take 127 ++ [if j + 1 < m then j + 1 else endOfChain]).length = 128 := by
      simp; omega
    have hs : sector F j = some (w32 (E.take 127 ++ [if j + 1 < m then j + 1 else endOfChain])) := by
      rw [hF, w32_append _ (weave _ _ _ _), List.append_assoc]
      exact sector_at H A _ _ j hH hA (by rw [w32_length, hbl])
    have hw : words (w32 (E.take 127 ++ [if j + 1 < m then j + 1 else endOfChain])) =
        E.take 127 ++ [if j + 1 < m then j + 1 else endOfChain] := by
      apply words_w32
      intro x hx
      rcases List.mem_append.mp hx with hx | hx
      · exact hlt x (List.mem_of_mem_take hx)
      · rw [List.mem_singleton.mp hx]
        split
        · omega
        · decide
    have h127 : (E.take 127 ++ [if j + 1 < m then j + 1 else endOfChain])[127]? =
        some (if j + 1 < m then j + 1 else endOfChain) := by
      rw [List.getElem?_append_right (by simp; omega)]
      have : 127 - (E.take 127).length = 0 := by simp; omega
      rw [this]; rfl
    have htake : (E.take 127 ++ [if j + 1 < m then j + 1 else endOfChain]).take 127 = E.take 127 := by
      rw [List.take_append_of_le_length (by simp; omega), List.take_take]
      rfl
    have hnext : (if j + 1 < m then j + 1 else endOfChain) = if n = 0 then endOfChain else j + 1 := by
      by_cases hn : n = 0
      · rw [if_neg (by omega), if_pos hn]
      · rw [if_pos (by omega), if_neg hn]
    have := ih (A ++ w32 (E.take 127 ++ [if j + 1 < m then j + 1 else endOfChain])) (j + 1)
      (E.drop 127) (by rw [hF]; simp) (by simp only [List.length_append, w32_length, hbl, hA]; omega)
      (by simp; omega) (by omega) (fun x hx => hlt x (List.mem_of_mem_drop hx))
    rw [← hnext] at this
    simp only [difat, hs, Option.bind_some, hw, h127, htake, this, Option.map_some,
      List.take_append_drop]

/-- The ids of the sectors holding a woven table. -/
theorem difatIds_weave (F H A Z : Bytes) (m n j : Nat) (E : List Nat) (hF : F = H ++ (A ++ (w32 (weave m n j E) ++ Z)))
    (hH : H.length = 512) (hA : A.length = 512 * j) (hE : E.length = 127 * n) (hm : m = j + n)
    (hlt : ∀ x ∈ E, x < 2 ^ 32) (hm32 : m < 2 ^ 31) :
    difatIds F n (if n = 0 then endOfChain else j) = some (List.range' j n) := by
  induction n generalizing j E A with
  | zero =>
    simp [difatIds]
  | succ n ih =>
    rw [if_neg (by omega)]
    rw [weave] at hF
    have hbl : (E.take 127 ++ [if j + 1 < m then j + 1 else endOfChain]).length = 128 := by
      simp; omega
    have hs : sector F j = some (w32 (E.take 127 ++ [if j + 1 < m then j + 1 else endOfChain])) := by
      rw [hF, w32_append _ (weave _ _ _ _), List.append_assoc]
      exact sector_at H A _ _ j hH hA (by rw [w32_length, hbl])
    have hw : words (w32 (E.take 127 ++ [if j + 1 < m then j + 1 else endOfChain])) =
        E.take 127 ++ [if j + 1 < m then j + 1 else endOfChain] := by
      apply words_w32
      intro x hx
      rcases List.mem_append.mp hx with hx | hx
      · exact hlt x (List.mem_of_mem_take hx)
      · rw [List.mem_singleton.mp hx]
        split
        · omega
        · decide
    have h127 : (E.take 127 ++ [if j + 1 < m then j + 1 else endOfChain])[127]? =
        some (if j + 1 < m then j + 1 else endOfChain) := by
      rw [List.getElem?_append_right (by simp; omega)]
      have : 127 - (E.take 127).length = 0 := by simp; omega
      rw [this]; rfl
    have hnext : (if j + 1 < m then j + 1 else endOfChain) = if n = 0 then endOfChain else j + 1 := by
      by_cases hn : n = 0
      · rw [if_neg (by omega), if_pos hn]
      · rw [if_pos (by omega), if_neg hn]
    have := ih (A ++ w32 (E.take 127 ++ [if j + 1 < m then j + 1 else endOfChain])) (j + 1)
      (E.drop 127) (by rw [hF]; simp) (by simp only [List.length_append, w32_length, hbl, hA]; omega)
      (by simp; omega) (by omega) (fun x hx => hlt x (List.mem_of_mem_drop hx))
    rw [← hnext] at this
    simp only [difatIds, hs, Option.bind_some, hw, h127, this, Option.map_some, List.range'_succ]

/-! ### Chains -/

theorem chain_run (fat : List Nat) (a n fuel : Nat) (hn : 0 < n) (ha : a + n ≤ 2 ^ 31)
    (hmid : ∀ t, t + 1 < n → fat[a + t]? = some (a + t + 1))
    (hend : fat[a + (n - 1)]? = some endOfChain) (hf : n < fuel) :
    chain fat fuel a = some (List.range' a n) := by
  induction n generalizing a fuel with
  | zero => omega
  | succ n ih =>
    obtain ⟨fuel, rfl⟩ : ∃ f, fuel = f + 1 := ⟨fuel - 1, by omega⟩
    have hne : a ≠ endOfChain := by unfold endOfChain; omega
    simp only [chain, if_neg hne]
    by_cases h0 : n = 0
    · subst h0
      obtain ⟨fuel, rfl⟩ : ∃ f, fuel = f + 1 := ⟨fuel - 1, by omega⟩
      simp only [Nat.add_sub_cancel, Nat.add_zero] at hend
      simp [hend, chain]
    · have h1 := hmid 0 (by omega)
      rw [Nat.add_zero] at h1
      rw [h1, Option.bind_some, ih (a + 1) fuel (by omega) (by omega)
        (fun t ht => by
          have := hmid (t + 1) (by omega)
          rw [show a + 1 + t = a + (t + 1) by omega, this])
        (by rw [← hend]; congr 1; omega) (by omega)]
      simp [List.range'_succ]

theorem chainWords_get (i n : Nat) (hn : 0 < n) :
    (∀ t, t + 1 < n → (chainWords i n)[t]? = some (i + t + 1)) ∧
    (chainWords i n)[n - 1]? = some endOfChain := by
  constructor
  · intro t ht
    unfold chainWords
    rw [List.getElem?_append_left (by simp; omega), List.getElem?_map, List.getElem?_range (by omega)]
    rfl
  · unfold chainWords
    rw [List.getElem?_append_right (by simp)]
    simp

/-- Inside a table `P ++ chainWords P.length n ++ S` the chain from `P.length` covers its `n`
    sectors. -/
theorem chain_in_table (P S : List Nat) (n fuel : Nat) (hn : 0 < n) (ha : P.length + n ≤ 2 ^ 31)
    (hf : n < fuel) :
    chain (P ++ (chainWords P.length n ++ S)) fuel P.length = some (List.range' P.length n) := by
  obtain ⟨h1, h2⟩ := chainWords_get P.length n hn
  have hl := chainWords_length P.length n hn
  refine chain_run _ _ n fuel hn ha ?_ ?_ hf
  · intro t ht
    rw [List.getElem?_append_right (by omega), Nat.add_sub_cancel_left,
      List.getElem?_append_left (by omega), h1 t ht]
  · rw [List.getElem?_append_right (by omega), Nat.add_sub_cancel_left,
      List.getElem?_append_left (by omega), h2]

end Xls.Ole
