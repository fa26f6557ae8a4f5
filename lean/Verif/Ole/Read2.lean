import Verif.Ole.Read
/-
Helper lemmas: allocation table, streams and directory as the strict reader sees them.
-/
namespace Xls.Ole
open Xls.Cfb

/-- The facts about a file system that the reading lemmas use. -/
structure Setup (b : Blocks) (root : Entry) (nodes : List Entry) : Prop where
  bat : getBATCount (secs nodes).sum = some b
  good : ∀ e ∈ nodes, GoodNode e
  name : ∀ e ∈ root :: nodes, (unicodeName e.name).length ≤ 0x40
  small : b.batEntries < 2 ^ 31

theorem secs_pos (nodes : List Entry) (hg : ∀ e ∈ nodes, GoodNode e) : ∀ n ∈ secs nodes, 0 < n := by
  intro n hn
  obtain ⟨e, he, rfl⟩ := List.mem_map.mp hn
  obtain ⟨_, us, hu, _, hmin, _⟩ := hg e he
  rw [hu, Option.getD_some]
  omega

theorem dataSize_flatten (us : List Bytes) : us.flatten.length = dataSize us := by
  simp [dataSize, List.length_flatten]

theorem dataBytes_length (nodes : List Entry) (hg : ∀ e ∈ nodes, GoodNode e) :
    (dataBytes nodes).length = 512 * (secs nodes).sum := by
  rw [← totalDataSize_good nodes hg]
  clear hg
  induction nodes with
  | nil => rfl
  | cons e r ih =>
    simp only [dataBytes, totalDataSize, List.flatMap_cons, List.length_append, List.map_cons,
      List.sum_cons] at ih ⊢
    rw [ih]
    congr 1
    split
    · exact dataSize_flatten _
    · rfl

theorem hdrFixed_length (b : Blocks) (d : Nat) : (hdrFixed b d).length = 76 := by
  simp [hdrFixed, oleMagic]

namespace Setup
variable {b : Blocks} {root : Entry} {nodes : List Entry} (S : Setup b root nodes)
include S

theorem hdrIds_length : (hdrIds b (secs nodes).sum).length = 109 := by
  obtain ⟨_, h2, _⟩ := c08_slots _ b S.bat
  simp [hdrIds]; omega

theorem xWords_length : (xWords b (secs nodes).sum).length = 128 * b.msatCount := by
  rw [xWords_weave _ b S.bat]
  apply weave_length
  obtain ⟨_, _, h3, _⟩ := c08_slots _ b S.bat
  simp [extraIds]; omega

theorem entries_eq : b.batEntries = (secs nodes).sum + b.batCount + b.msatCount + 1 :=
  (c08_minimal _ b S.bat).2.2.2

theorem bat_length : (batWords b (secs nodes)).length = 128 * b.batCount :=
  batWords_length _ b S.bat _ (secs_pos nodes S.good) rfl

theorem dir_length : ((root :: withStarts nodes b.msatCount).flatMap nodeBytes).length =
    128 * (nodes.length + 1) := by
  have h : ∀ es : List Entry, (∀ e ∈ es, (unicodeName e.name).length ≤ 0x40) →
      (es.flatMap nodeBytes).length = 128 * es.length := by
    intro es
    induction es with
    | nil => intro _; rfl
    | cons e r ih =>
      intro h
      simp only [List.flatMap_cons, List.length_append, List.length_cons,
        nodeBytes_length e (h e (by simp)), ih (fun x hx => h x (by simp [hx]))]
      omega
  rw [h]
  · have : (withStarts nodes b.msatCount).length = nodes.length := by
      have := congrArg List.length (withStarts_name nodes b.msatCount)
      simpa using this
    simp [this]
  · intro e he
    rcases List.mem_cons.mp he with rfl | he
    · exact S.name _ (by simp)
    · have : e.name ∈ (withStarts nodes b.msatCount).map Entry.name := List.mem_map_of_mem he
      rw [withStarts_name] at this
      obtain ⟨x, hx, hxe⟩ := List.mem_map.mp this
      rw [← hxe]
      exact S.name x (by simp [hx])

/-- The length of the whole file. -/
theorem image_length : (image b root nodes).length =
    512 * (1 + b.msatCount + (secs nodes).sum + b.batCount) + 128 * (nodes.length + 1) := by
  simp only [image, List.length_append, hdrFixed_length, w32_length, S.hdrIds_length,
    S.xWords_length, S.bat_length, dataBytes_length nodes S.good]
  have := S.dir_length
  rw [this]
  omega

/-- The header with its table. -/
def _root_.Xls.Ole.head512 (b : Blocks) (d : Nat) : Bytes := hdrFixed b d ++ w32 (hdrIds b d)

theorem head_length : (head512 b (secs nodes).sum).length = 512 := by
  simp [head512, hdrFixed_length, S.hdrIds_length]

omit S in
theorem image_eq : image b root nodes = head512 b (secs nodes).sum ++ (w32 (xWords b (secs nodes).sum) ++
    (dataBytes nodes ++ (w32 (batWords b (secs nodes)) ++
      (root :: withStarts nodes b.msatCount).flatMap nodeBytes))) := by
  simp [image, head512]

omit S in
theorem rd_batCount : rdLE 4 (image b root nodes) 0x2c = some (b.batCount % 256 ^ 4) := by
  obtain ⟨post, h⟩ : ∃ post, image b root nodes = (oleMagic ++ (leN 4 0 ++ (leN 4 0 ++ (leN 4 0 ++ (leN 4 0 ++
      (leN 2 0x3e ++ (leN 2 3 ++ (leN 2 0xFFFFFFFE ++ (leN 2 9 ++ (leN 4 6 ++ (leN 4 0 ++
      leN 4 0))))))))))) ++ (leN 4 b.batCount ++ post) := by
    apply Exists.intro
    unfold image hdrFixed
    simp only [List.append_assoc]
    rfl
  rw [h]
  exact rdLE_at' 4 _ _ _ (by simp [oleMagic])

omit S in
theorem rd_dirStart : rdLE 4 (image b root nodes) 0x30 =
    some ((b.msatCount + (secs nodes).sum + b.batCount) % 256 ^ 4) := by
  obtain ⟨post, h⟩ : ∃ post, image b root nodes = (oleMagic ++ (leN 4 0 ++ (leN 4 0 ++ (leN 4 0 ++ (leN 4 0 ++
      (leN 2 0x3e ++ (leN 2 3 ++ (leN 2 0xFFFFFFFE ++ (leN 2 9 ++ (leN 4 6 ++ (leN 4 0 ++
      (leN 4 0 ++ leN 4 b.batCount)))))))))))) ++
      (leN 4 (b.msatCount + (secs nodes).sum + b.batCount) ++ post) := by
    apply Exists.intro
    unfold image hdrFixed
    simp only [List.append_assoc]
    rfl
  rw [h]
  exact rdLE_at' 4 _ _ _ (by simp [oleMagic])

omit S in
theorem rd_xbatStart : rdLE 4 (image b root nodes) 0x44 =
    some ((if b.msatCount ≠ 0 then 0 else endOfChain) % 256 ^ 4) := by
  obtain ⟨post, h⟩ : ∃ post, image b root nodes = (oleMagic ++ (leN 4 0 ++ (leN 4 0 ++ (leN 4 0 ++ (leN 4 0 ++
      (leN 2 0x3e ++ (leN 2 3 ++ (leN 2 0xFFFFFFFE ++ (leN 2 9 ++ (leN 4 6 ++ (leN 4 0 ++
      (leN 4 0 ++ (leN 4 b.batCount ++ (leN 4 (b.msatCount + (secs nodes).sum + b.batCount) ++
      (leN 4 0 ++ (leN 4 0x1000 ++ (leN 4 endOfChain ++ leN 4 0))))))))))))))))) ++
      (leN 4 (if b.msatCount ≠ 0 then 0 else endOfChain) ++ post) := by
    apply Exists.intro
    unfold image hdrFixed
    simp only [List.append_assoc]
    rfl
  rw [h]
  exact rdLE_at' 4 _ _ _ (by simp [oleMagic])

omit S in
theorem rd_xbatCount : rdLE 4 (image b root nodes) 0x48 = some (b.msatCount % 256 ^ 4) := by
  obtain ⟨post, h⟩ : ∃ post, image b root nodes = (oleMagic ++ (leN 4 0 ++ (leN 4 0 ++ (leN 4 0 ++ (leN 4 0 ++
      (leN 2 0x3e ++ (leN 2 3 ++ (leN 2 0xFFFFFFFE ++ (leN 2 9 ++ (leN 4 6 ++ (leN 4 0 ++
      (leN 4 0 ++ (leN 4 b.batCount ++ (leN 4 (b.msatCount + (secs nodes).sum + b.batCount) ++
      (leN 4 0 ++ (leN 4 0x1000 ++ (leN 4 endOfChain ++ (leN 4 0 ++
      leN 4 (if b.msatCount ≠ 0 then 0 else endOfChain))))))))))))))))))) ++
      (leN 4 b.msatCount ++ post) := by
    apply Exists.intro
    unfold image hdrFixed
    simp only [List.append_assoc]
    rfl
  rw [h]
  exact rdLE_at' 4 _ _ _ (by simp [oleMagic])

theorem hdr_words : words (((image b root nodes).drop 0x4c).take 436) =
    hdrIds b (secs nodes).sum := by
  have hl := S.hdrIds_length
  have : (image b root nodes).drop 0x4c = w32 (hdrIds b (secs nodes).sum) ++
      (w32 (xWords b (secs nodes).sum) ++ (dataBytes nodes ++ (w32 (batWords b (secs nodes)) ++
      (root :: withStarts nodes b.msatCount).flatMap nodeBytes))) := by
    unfold image
    exact List.drop_left' (hdrFixed_length _ _)
  rw [this, List.take_append_of_le_length (by simp [hl]), List.take_of_length_le (by simp [hl])]
  apply words_w32
  intro x hx
  have he := S.entries_eq
  have hs := S.small
  obtain ⟨h1, _⟩ := c08_slots _ b S.bat
  rcases List.mem_append.mp hx with hx | hx
  · obtain ⟨i, hi, rfl⟩ := List.mem_map.mp hx
    have := List.mem_range.mp hi
    omega
  · rw [(List.mem_replicate.mp hx).2]; decide

omit S in
theorem range'_eq_map (a n : Nat) : List.range' a n = (List.range n).map (fun i => a + i) := by
  rw [List.range_eq_range', List.map_add_range']
  simp

/-- The reader finds exactly the allocation sectors. -/
theorem fatIds_eq : fatIds (image b root nodes) =
    some (List.range' (b.msatCount + (secs nodes).sum) b.batCount) := by
  have he := S.entries_eq
  have hs := S.small
  obtain ⟨h1, h2, h3, h4, h5, h6⟩ := c08_slots _ b S.bat
  have hdif : difat (image b root nodes) b.msatCount (if b.msatCount = 0 then endOfChain else 0) =
      some (extraIds b (secs nodes).sum) := by
    apply difat_weave (image b root nodes) (head512 b (secs nodes).sum) []
      (dataBytes nodes ++ (w32 (batWords b (secs nodes)) ++
      (root :: withStarts nodes b.msatCount).flatMap nodeBytes)) b.msatCount b.msatCount 0
    · rw [image_eq, xWords_weave _ b S.bat]; rfl
    · exact S.head_length
    · rfl
    · simp [extraIds]; omega
    · omega
    · intro x hx
      rcases List.mem_append.mp hx with hx | hx
      · have := List.mem_range'_1.mp hx
        omega
      · rw [(List.mem_replicate.mp hx).2]; decide
    · omega
  have hx : (if b.msatCount ≠ 0 then 0 else endOfChain) % 256 ^ 4 =
      if b.msatCount = 0 then endOfChain else 0 := by
    by_cases h0 : b.msatCount = 0
    · simp [h0, endOfChain]
    · simp [h0]
  have hbc : b.batCount % 256 ^ 4 = b.batCount := Nat.mod_eq_of_lt (by omega)
  have hmc : b.msatCount % 256 ^ 4 = b.msatCount := Nat.mod_eq_of_lt (by omega)
  have hids : hdrIds b (secs nodes).sum ++ extraIds b (secs nodes).sum =
      List.range' (b.msatCount + (secs nodes).sum) b.batCount ++
        List.replicate (b.headerFill + b.extraFill) freeSect := by
    unfold hdrIds extraIds
    rw [← range'_eq_map]
    by_cases hx0 : b.extraBatCount = 0
    · have hef : b.extraFill = 0 := by omega
      have hbh : b.batCount = b.headerBatCount := by omega
      simp [hx0, hef, hbh]
    · have hhf : b.headerFill = 0 := by have := h4 (by omega); omega
      rw [hhf, List.replicate_zero, List.append_nil, ← List.append_assoc, List.range'_append_1,
        Nat.zero_add, h1]
  simp only [fatIds, rd_batCount, rd_xbatStart, rd_xbatCount, Option.bind_some, hx, hbc, hmc, hdif,
    S.hdr_words, hids]
  have hl : (List.range' (b.msatCount + (secs nodes).sum) b.batCount).length = b.batCount := by simp
  rw [List.drop_left' hl, List.take_left' hl, if_pos]
  constructor
  · simp
  · simp

/-- The allocation table the reader assembles. -/
theorem fat_eq : fat (image b root nodes) = some (batWords b (secs nodes)) := by
  have hX := S.xWords_length
  have hD := dataBytes_length nodes S.good
  have hB := S.bat_length
  obtain ⟨cs, e, hf, hall⟩ := sectors_range (head512 b (secs nodes).sum)
    (w32 (xWords b (secs nodes).sum) ++ dataBytes nodes) (w32 (batWords b (secs nodes)))
    ((root :: withStarts nodes b.msatCount).flatMap nodeBytes)
    (b.msatCount + (secs nodes).sum) b.batCount S.head_length
    (by simp only [List.length_append, w32_length, hX, hD]; omega) (by simp [hB]; omega)
  have hF : head512 b (secs nodes).sum ++ (w32 (xWords b (secs nodes).sum) ++ dataBytes nodes ++
      (w32 (batWords b (secs nodes)) ++ (root :: withStarts nodes b.msatCount).flatMap nodeBytes)) =
      image b root nodes := by
    rw [image_eq]; simp only [List.append_assoc]
  rw [hF] at e
  simp only [fat, S.fatIds_eq, Option.bind_some, e, Option.map_some]
  rw [flatMap_words cs hall, hf, words_w32]
  intro x hx
  have he := S.entries_eq
  have hs := S.small
  have hchain : ∀ (ns : List Nat) (i : Nat), i + ns.sum < 2 ^ 31 → ∀ y ∈ depotWords ns i, y < 2 ^ 32 := by
    intro ns
    induction ns with
    | nil => intro i _ y hy; simp [depotWords] at hy
    | cons n r ih =>
      intro i hi y hy
      rw [List.sum_cons] at hi
      rcases List.mem_append.mp hy with hy | hy
      · rcases List.mem_append.mp hy with hy | hy
        · obtain ⟨t, ht, rfl⟩ := List.mem_map.mp hy
          have := List.mem_range.mp ht
          omega
        · rw [List.mem_singleton.mp hy]; decide
      · exact ih _ (by omega) y hy
  simp only [batWords, List.mem_append, List.mem_replicate, List.mem_singleton] at hx
  rcases hx with hx | hx | hx | hx | hx
  · rw [hx.2]; decide
  · exact hchain _ _ (by omega) x hx
  · rw [hx.2]; decide
  · rw [hx]; decide
  · rw [hx.2]; decide

omit S in
theorem depotWords_append (as bs : List Nat) (i : Nat) :
    depotWords (as ++ bs) i = depotWords as i ++ depotWords bs (i + as.sum) := by
  induction as generalizing i with
  | nil => simp [depotWords]
  | cons a r ih => simp [depotWords, ih, Nat.add_assoc]

/-- The bytes of one stream. -/
theorem stream_eq (pre post : List Entry) (e : Entry) (hn : nodes = pre ++ e :: post) :
    chain (batWords b (secs nodes)) ((batWords b (secs nodes)).length + 1)
      (b.msatCount + (secs pre).sum) = some (List.range' (b.msatCount + (secs pre).sum)
        (dataSize (e.data.getD []) / 512)) ∧
    chainBytes (image b root nodes) (batWords b (secs nodes)) (b.msatCount + (secs pre).sum) =
      some (e.data.getD []).flatten := by
  have he := S.entries_eq
  have hs := S.small
  obtain ⟨ht, us, hu, hmod, hmin, _⟩ := S.good e (by simp [hn])
  have hX := S.xWords_length
  have hgpre : ∀ x ∈ pre, GoodNode x := fun x hx => S.good x (by simp [hn, hx])
  have hP := dataBytes_length pre hgpre
  rw [hu, Option.getD_some]
  have hsplit : secs nodes = secs pre ++ (dataSize us / 512 :: secs post) := by
    simp [hn, secs, hu]
  have hsum : (secs nodes).sum = (secs pre).sum + (dataSize us / 512 + (secs post).sum) := by
    rw [hsplit]; simp
  have hpl : (depotWords (secs pre) b.msatCount).length = (secs pre).sum :=
    depotWords_length _ _ (secs_pos pre hgpre)
  have htab : batWords b (secs nodes) =
      (List.replicate b.msatCount difSect ++ depotWords (secs pre) b.msatCount) ++
      (chainWords (b.msatCount + (secs pre).sum) (dataSize us / 512) ++
       (depotWords (secs post) (b.msatCount + (secs pre).sum + dataSize us / 512) ++
        (List.replicate b.batCount fatSect ++ ([endOfChain] ++
          List.replicate (128 * b.batCount - b.batEntries) freeSect)))) := by
    simp only [batWords]
    rw [hsplit, depotWords_append, depotWords]
    simp
  have hlen := S.bat_length
  have hlp : (List.replicate b.msatCount difSect ++ depotWords (secs pre) b.msatCount).length =
      b.msatCount + (secs pre).sum := by simp [hpl]
  have hc : chain (batWords b (secs nodes)) ((batWords b (secs nodes)).length + 1)
      (b.msatCount + (secs pre).sum) =
      some (List.range' (b.msatCount + (secs pre).sum) (dataSize us / 512)) := by
    have h1 := chain_in_table (List.replicate b.msatCount difSect ++ depotWords (secs pre) b.msatCount)
      (depotWords (secs post) (b.msatCount + (secs pre).sum + dataSize us / 512) ++
        (List.replicate b.batCount fatSect ++ ([endOfChain] ++
          List.replicate (128 * b.batCount - b.batEntries) freeSect)))
      (dataSize us / 512) ((batWords b (secs nodes)).length + 1) (by omega) (by rw [hlp]; omega)
      (by
        have := congrArg List.length htab
        simp only [List.length_append] at this
        rw [chainWords_length _ _ (by omega)] at this
        omega)
    rw [hlp, ← htab] at h1
    exact h1
  refine ⟨hc, ?_⟩
  have hlu : us.flatten.length = 512 * (dataSize us / 512) := by
    rw [dataSize_flatten]; omega
  obtain ⟨cs, e1, hf, _⟩ := sectors_range (head512 b (secs nodes).sum)
    (w32 (xWords b (secs nodes).sum) ++ dataBytes pre) us.flatten
    (dataBytes post ++ (w32 (batWords b (secs nodes)) ++
      (root :: withStarts nodes b.msatCount).flatMap nodeBytes))
    (b.msatCount + (secs pre).sum) (dataSize us / 512) S.head_length
    (by simp only [List.length_append, w32_length, hX, hP]; omega) hlu
  have hdb : dataBytes nodes = dataBytes pre ++ (us.flatten ++ dataBytes post) := by
    rw [hn]; simp [dataBytes, ht, hu]
  have hF : head512 b (secs nodes).sum ++ (w32 (xWords b (secs nodes).sum) ++ dataBytes pre ++
      (us.flatten ++ (dataBytes post ++ (w32 (batWords b (secs nodes)) ++
      (root :: withStarts nodes b.msatCount).flatMap nodeBytes)))) = image b root nodes := by
    rw [image_eq, hdb]; simp only [List.append_assoc]
  rw [hF] at e1
  simp [chainBytes, hc, e1, hf]

theorem dir_chain : chain (batWords b (secs nodes)) ((batWords b (secs nodes)).length + 1)
      (b.msatCount + (secs nodes).sum + b.batCount) =
      some [b.msatCount + (secs nodes).sum + b.batCount] := by
  have he := S.entries_eq
  have hs := S.small
  have hlen := S.bat_length
  have hpl : (depotWords (secs nodes) b.msatCount).length = (secs nodes).sum :=
    depotWords_length _ _ (secs_pos nodes S.good)
  have htab : batWords b (secs nodes) =
      (List.replicate b.msatCount difSect ++ (depotWords (secs nodes) b.msatCount ++
       List.replicate b.batCount fatSect)) ++
      (chainWords (b.msatCount + (secs nodes).sum + b.batCount) 1 ++
          List.replicate (128 * b.batCount - b.batEntries) freeSect) := by
    simp [batWords, chainWords]
  have hlp : (List.replicate b.msatCount difSect ++ (depotWords (secs nodes) b.msatCount ++
       List.replicate b.batCount fatSect)).length = b.msatCount + (secs nodes).sum + b.batCount := by
    simp [hpl]; omega
  have h1 := chain_in_table (List.replicate b.msatCount difSect ++
      (depotWords (secs nodes) b.msatCount ++ List.replicate b.batCount fatSect))
      (List.replicate (128 * b.batCount - b.batEntries) freeSect) 1
      ((batWords b (secs nodes)).length + 1) (by omega) (by rw [hlp]; omega)
      (by
        have := c08_slots _ b S.bat
        omega)
  rw [hlp, ← htab] at h1
  exact h1

/-- With exactly three streams the directory is one full sector. -/
theorem dir_bytes (h3 : nodes.length = 3) :
    chainBytes (image b root nodes) (batWords b (secs nodes))
      (b.msatCount + (secs nodes).sum + b.batCount) =
      some ((root :: withStarts nodes b.msatCount).flatMap nodeBytes) := by
  have hX := S.xWords_length
  have hD := dataBytes_length nodes S.good
  have hB := S.bat_length
  have hdl := S.dir_length
  have hsec : sector (image b root nodes) (b.msatCount + (secs nodes).sum + b.batCount) =
      some ((root :: withStarts nodes b.msatCount).flatMap nodeBytes) := by
    have := sector_at (head512 b (secs nodes).sum)
      (w32 (xWords b (secs nodes).sum) ++ (dataBytes nodes ++ w32 (batWords b (secs nodes))))
      ((root :: withStarts nodes b.msatCount).flatMap nodeBytes) []
      (b.msatCount + (secs nodes).sum + b.batCount) S.head_length
      (by simp only [List.length_append, w32_length, hX, hD, hB]; omega) (by rw [hdl]; omega)
    rw [image_eq]
    simpa only [List.append_assoc, List.append_nil] using this
  simp [chainBytes, S.dir_chain, hsec]

omit S in
theorem headerOk_image : headerOk (image b root nodes) = true := by
  have e8 : (image b root nodes).take 8 = oleMagic := by
    unfold image hdrFixed
    simp only [List.append_assoc]
    exact List.take_left' rfl
  have r1 : rdLE 2 (image b root nodes) 0x1a = some 3 := by
    obtain ⟨post, h⟩ : ∃ post, image b root nodes = (oleMagic ++ (leN 4 0 ++ (leN 4 0 ++ (leN 4 0 ++ (leN 4 0 ++
        leN 2 0x3e))))) ++ (leN 2 3 ++ post) := by
      apply Exists.intro
      unfold image hdrFixed
      simp only [List.append_assoc]
      rfl
    rw [h]
    exact rdLE_at' 2 3 _ _ (by simp [oleMagic])
  have r2 : rdLE 2 (image b root nodes) 0x1c = some 0xFFFE := by
    obtain ⟨post, h⟩ : ∃ post, image b root nodes = (oleMagic ++ (leN 4 0 ++ (leN 4 0 ++ (leN 4 0 ++ (leN 4 0 ++
        (leN 2 0x3e ++ leN 2 3)))))) ++ (leN 2 0xFFFFFFFE ++ post) := by
      apply Exists.intro
      unfold image hdrFixed
      simp only [List.append_assoc]
      rfl
    rw [h]
    exact rdLE_at' 2 0xFFFFFFFE _ _ (by simp [oleMagic])
  have r3 : rdLE 2 (image b root nodes) 0x1e = some 9 := by
    obtain ⟨post, h⟩ : ∃ post, image b root nodes = (oleMagic ++ (leN 4 0 ++ (leN 4 0 ++ (leN 4 0 ++ (leN 4 0 ++
        (leN 2 0x3e ++ (leN 2 3 ++ leN 2 0xFFFFFFFE))))))) ++ (leN 2 9 ++ post) := by
      apply Exists.intro
      unfold image hdrFixed
      simp only [List.append_assoc]
      rfl
    rw [h]
    exact rdLE_at' 2 9 _ _ (by simp [oleMagic])
  have r4 : rdLE 2 (image b root nodes) 0x20 = some 6 := by
    obtain ⟨post, h⟩ : ∃ post, image b root nodes = (oleMagic ++ (leN 4 0 ++ (leN 4 0 ++ (leN 4 0 ++ (leN 4 0 ++
        (leN 2 0x3e ++ (leN 2 3 ++ (leN 2 0xFFFFFFFE ++ leN 2 9)))))))) ++ (leN 2 6 ++ post) := by
      apply Exists.intro
      unfold image hdrFixed
      simp only [List.append_assoc]
      rfl
    rw [h]
    exact rdLE_at' 2 6 _ _ (by simp [oleMagic])
  have r5 : rdLE 4 (image b root nodes) 0x38 = some 0x1000 := by
    obtain ⟨post, h⟩ : ∃ post, image b root nodes = (oleMagic ++ (leN 4 0 ++ (leN 4 0 ++ (leN 4 0 ++ (leN 4 0 ++
      (leN 2 0x3e ++ (leN 2 3 ++ (leN 2 0xFFFFFFFE ++ (leN 2 9 ++ (leN 4 6 ++ (leN 4 0 ++
      (leN 4 0 ++ (leN 4 b.batCount ++ (leN 4 (b.msatCount + (secs nodes).sum + b.batCount) ++
      leN 4 0)))))))))))))) ++ (leN 4 0x1000 ++ post) := by
      apply Exists.intro
      unfold image hdrFixed
      simp only [List.append_assoc]
      rfl
    rw [h]
    exact rdLE_at' 4 0x1000 _ _ (by simp [oleMagic])
  simp only [headerOk, e8, r1, r2, r3, r4, r5]
  decide

end Setup

end Xls.Ole
