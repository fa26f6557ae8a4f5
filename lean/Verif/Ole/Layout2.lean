import Verif.Ole.Layout
/-
Helper lemmas: allocation table, directory, and the complete image.
-/
namespace Xls.Ole
open Xls.Cfb

/-! ### Allocation table -/

/-- The sector counts of the streams. -/
def secs (nodes : List Entry) : List Nat := nodes.map fun e => dataSize (e.data.getD []) / 512

/-- What `AddFile` guarantees about every node. -/
def GoodNode (e : Entry) : Prop :=
  e.typ = 2 ∧ ∃ us, e.data = some us ∧ dataSize us % 512 = 0 ∧ 0x1000 ≤ dataSize us ∧
    e.size = dataSize us

def chainWords (i n : Nat) : List Nat := (List.range (n - 1)).map (fun t => i + t + 1) ++ [endOfChain]

def depotWords : List Nat → Nat → List Nat
  | [], _ => []
  | n :: r, i => chainWords i n ++ depotWords r (i + n)

def withStarts : List Entry → Nat → List Entry
  | [], _ => []
  | e :: r, i => { e with start := (i : Int) } :: withStarts r (i + dataSize (e.data.getD []) / 512)

theorem chainWords_length (i n : Nat) (h : 0 < n) : (chainWords i n).length = n := by
  simp [chainWords]; omega

theorem depotWords_length (ns : List Nat) (i : Nat) (h : ∀ n ∈ ns, 0 < n) :
    (depotWords ns i).length = ns.sum := by
  induction ns generalizing i with
  | nil => rfl
  | cons n r ih =>
    simp only [depotWords, List.length_append, List.sum_cons]
    rw [chainWords_length i n (h n (by simp)), ih _ (fun x hx => h x (by simp [hx]))]

theorem chainWrites_emits (i n : Nat) (hi : i + n < 2 ^ 31) :
    Emits (ignoring (chainWrites i n)) (w32 (chainWords i n)) := by
  unfold chainWrites chainWords
  rw [w32_append]
  refine ignoring_append ?_ ?_
  · have h1 : ∀ l : List Nat, (∀ t ∈ l, t < n) → Emits (ignoring (l.map
        (fun t => writeS32 ((i + t + 1 : Nat) : Int)))) (w32 (l.map fun t => i + t + 1)) := by
      intro l
      induction l with
      | nil => intro _; exact ignoring_nil
      | cons a r ih =>
        intro h
        refine ignoring_cons (writeS32_neg _ _ ?_) (ih (fun t ht => h t (by simp [ht])))
        have := h a (by simp)
        simp only [u32OfInt]
        omega
    apply h1
    intro t ht
    have := List.mem_range.mp ht
    omega
  · simpa using ignoring_one (writeS32_neg (-2) endOfChain rfl)

theorem depotNodes_spec (nodes : List Entry) (i : Nat) (hg : ∀ e ∈ nodes, GoodNode e)
    (hi : i + (secs nodes).sum < 2 ^ 31) :
    ∃ ws, depotNodes nodes i = some (ws, withStarts nodes i, i + (secs nodes).sum) ∧
      Emits (ignoring ws) (w32 (depotWords (secs nodes) i)) := by
  induction nodes generalizing i with
  | nil => exact ⟨[], rfl, ignoring_nil⟩
  | cons e r ih =>
    obtain ⟨_, us, hu, hmod, hmin, _⟩ := hg e (by simp)
    have hs : secs (e :: r) = dataSize us / 512 :: secs r := by simp [secs, hu]
    rw [hs, List.sum_cons] at hi ⊢
    obtain ⟨ws, e1, h1⟩ := ih (i + dataSize us / 512) (fun x hx => hg x (by simp [hx])) (by omega)
    have hne : dataSize us / 512 ≠ 0 := by omega
    refine ⟨chainWrites i (dataSize us / 512) ++ ws, ?_, ?_⟩
    · simp [depotNodes, hu, hne, e1, withStarts, Nat.add_assoc]
    · rw [depotWords, w32_append]
      exact ignoring_append (chainWrites_emits _ _ (by omega)) h1

/-- The words of the allocation table. -/
def batWords (b : Blocks) (ns : List Nat) : List Nat :=
  List.replicate b.msatCount difSect ++ (depotWords ns b.msatCount ++
    (List.replicate b.batCount fatSect ++ ([endOfChain] ++
      List.replicate (128 * b.batCount - b.batEntries) freeSect)))

theorem getBATCount_ceil (d : Nat) (b : Blocks) (h : getBATCount d = some b) :
    b.batCount = (b.batEntries + 127) / 128 := by
  obtain ⟨r, e, hr, hmin⟩ := batLoop_init d
  have hb : batFinish (stOf d r) = b := by simpa [getBATCount, e] using h
  have hcount : b.batCount = r := by rw [← hb]; unfold batFinish; split <;> rfl
  have hent : b.batEntries = ms r + d + r + 1 := by rw [← hb]; unfold batFinish; split <;> rfl
  rw [hcount, hent]
  exact hr.symm

theorem batWords_length (d : Nat) (b : Blocks) (h : getBATCount d = some b) (ns : List Nat)
    (hp : ∀ n ∈ ns, 0 < n) (hs : ns.sum = d) : (batWords b ns).length = 128 * b.batCount := by
  have h1 := getBATCount_ceil d b h
  obtain ⟨_, _, _, h2⟩ := c08_minimal d b h
  simp only [batWords, List.length_append, List.length_replicate, depotWords_length ns _ hp, hs,
    List.length_cons, List.length_nil]
  omega

theorem fill_eq (n b : Nat) (h : b = (n + 127) / 128) :
    fillSize n = 4 * (128 * b - n) := by
  unfold fillSize
  omega

theorem dumpDepots_spec (d : Nat) (b : Blocks) (h : getBATCount d = some b) (nodes : List Entry)
    (hg : ∀ e ∈ nodes, GoodNode e) (hs : (secs nodes).sum = d) (hb : b.batEntries < 2 ^ 31) :
    ∃ w, dumpDepots b nodes = some (w, withStarts nodes b.msatCount) ∧
      Emits w (w32 (batWords b (secs nodes))) ∧ ∀ s, (w s).2 = 0 := by
  obtain ⟨_, _, _, hent⟩ := c08_minimal d b h
  have hceil := getBATCount_ceil d b h
  obtain ⟨ws, e1, h1⟩ := depotNodes_spec nodes b.msatCount hg (by omega)
  refine ⟨_, by simp [dumpDepots, e1]; rfl, ?_, fun s => ignoring_code _ s⟩
  have hf : fillSize (b.msatCount + (secs nodes).sum + b.batCount + 1) =
      4 * (128 * b.batCount - b.batEntries) := by
    rw [show b.msatCount + (secs nodes).sum + b.batCount + 1 = b.batEntries by omega]
    exact fill_eq _ _ hceil
  have h0 := ignoring_replicate (writeS32_neg (-4) difSect rfl) b.msatCount
  have h2 := ignoring_replicate (writeS32_neg (-3) fatSect rfl) b.batCount
  have h3 := ignoring_one (writeS32_neg (-2) endOfChain rfl)
  have h4 := ignoring_one (serializeFixed_emits 0xff
    (fillSize (b.msatCount + (secs nodes).sum + b.batCount + 1)))
  rw [hf, ff_words] at h4
  have := ignoring_append h0 (ignoring_append h1 (ignoring_append h2 (ignoring_append h3 h4)))
  rw [hf]
  simpa [batWords] using this

/-! ### Directory -/

/-- The 128 bytes of a directory entry. -/
def nodeBytes (e : Entry) : Bytes :=
  unicodeName e.name ++ (List.replicate (0x40 - (unicodeName e.name).length) 0 ++
  (leN 2 (unicodeName e.name).length ++ ([e.typ] ++ ([1] ++
  (leN 4 (u32OfInt e.prev) ++ (leN 4 (u32OfInt e.next) ++ (leN 4 (u32OfInt e.child) ++
  (List.replicate 20 0 ++ (leN 4 0 ++ (leN 4 0 ++ (leN 4 0 ++ (leN 4 0 ++
  (leN 4 (u32OfInt e.start) ++ (leN 4 (if e.typ = 2 then e.size else 0) ++
  (leN 4 0 ++ [])))))))))))))))

theorem dumpNode_spec (e : Entry) (h : (unicodeName e.name).length ≤ 0x40) :
    ∃ ws, dumpNode e = some ws ∧ Emits (ignoring ws) (nodeBytes e) := by
  have hn : ¬ (unicodeName e.name).length > 0x40 := by omega
  refine ⟨_, if_neg hn, ?_⟩
  unfold nodeBytes
  refine ignoring_cons (writeService_emits _) ?_
  refine ignoring_cons (serializeFixed_emits _ _) ?_
  refine ignoring_cons ?_ ?_
  · have := writeS16_emits ((unicodeName e.name).length : Int)
    rwa [show u32OfInt ((unicodeName e.name).length : Int) = (unicodeName e.name).length by
      simp only [u32OfInt]; omega] at this
  refine ignoring_cons (writeByte_emits _) ?_
  refine ignoring_cons (writeByte_emits _) ?_
  refine ignoring_cons (writeS32_emits _) ?_
  refine ignoring_cons (writeS32_emits _) ?_
  refine ignoring_cons (writeS32_emits _) ?_
  refine ignoring_cons (serializeFixed_emits _ _) ?_
  refine ignoring_cons (writeS32_neg _ _ rfl) ?_
  refine ignoring_cons (writeS32_neg _ _ rfl) ?_
  refine ignoring_cons (writeS32_neg _ _ rfl) ?_
  refine ignoring_cons (writeS32_neg _ _ rfl) ?_
  refine ignoring_cons (writeS32_emits _) ?_
  refine ignoring_cons ?_ ?_
  · have := writeS32_emits (if e.typ = 2 then (e.size : Int) else 0)
    have he : leN 4 (u32OfInt (if e.typ = 2 then (e.size : Int) else 0)) =
        leN 4 (if e.typ = 2 then e.size else 0) := by
      split
      · rw [show u32OfInt (e.size : Int) = e.size % 256 ^ 4 by simp only [u32OfInt]; omega, leN_mod]
      · rfl
    rwa [he] at this
  exact ignoring_cons (writeS32_neg _ _ rfl) ignoring_nil

theorem nodeBytes_length (e : Entry) (h : (unicodeName e.name).length ≤ 0x40) :
    (nodeBytes e).length = 128 := by
  simp only [nodeBytes, List.length_append, List.length_replicate, leN_length, List.length_cons,
    List.length_nil]
  omega

theorem mapM_dumpNode (es : List Entry) (h : ∀ e ∈ es, (unicodeName e.name).length ≤ 0x40) :
    ∃ ws, es.mapM dumpNode = some ws ∧ Emits (ignoring ws.flatten) (es.flatMap nodeBytes) := by
  induction es with
  | nil => exact ⟨[], rfl, ignoring_nil⟩
  | cons e r ih =>
    obtain ⟨w, e1, h1⟩ := dumpNode_spec e (h e (by simp))
    obtain ⟨ws, e2, h2⟩ := ih (fun x hx => h x (by simp [hx]))
    exact ⟨w :: ws, by simp [e1, e2], by simpa using ignoring_append h1 h2⟩

/-! ### The whole file -/

/-- The complete file. -/
def image (b : Blocks) (root : Entry) (nodes : List Entry) : Bytes :=
  hdrFixed b (secs nodes).sum ++ (w32 (hdrIds b (secs nodes).sum) ++ (w32 (xWords b (secs nodes).sum) ++
    (dataBytes nodes ++ (w32 (batWords b (secs nodes)) ++
      (root :: withStarts nodes b.msatCount).flatMap nodeBytes))))

theorem totalDataSize_good (nodes : List Entry) (hg : ∀ e ∈ nodes, GoodNode e) :
    totalDataSize nodes = 512 * (secs nodes).sum := by
  induction nodes with
  | nil => rfl
  | cons e r ih =>
    obtain ⟨ht, us, hu, hmod, hmin, _⟩ := hg e (by simp)
    have h2 := ih (fun x hx => hg x (by simp [hx]))
    simp only [totalDataSize, secs, List.map_cons, List.sum_cons, hu, Option.getD_some] at h2 ⊢
    rw [if_pos ht, h2]
    omega

theorem withStarts_name (nodes : List Entry) (i : Nat) :
    (withStarts nodes i).map Entry.name = nodes.map Entry.name := by
  induction nodes generalizing i with
  | nil => rfl
  | cons e r ih => simp [withStarts, ih]

/-- Header, header table and extra table. -/
def headBytes (b : Blocks) (d : Nat) : Bytes :=
  hdrFixed b d ++ w32 (hdrIds b d) ++ w32 (xWords b d)

theorem GoodNode.nonempty {e : Entry} (h : GoodNode e) : e.data.getD [] ≠ [] := by
  obtain ⟨_, us, hu, _, hmin, _⟩ := h
  rw [hu, Option.getD_some]
  rintro rfl
  simp [dataSize] at hmin

/-- The result of a save, in terms of the image: everything that fits is stored, and the code tells
    whether the stream was still good after the data region. -/
theorem dumpOleFile_spec (fs : Fs) (nodes : List Entry) (hn : getAllNodes fs = nodes)
    (hne : nodes ≠ []) (hg : ∀ e ∈ nodes, GoodNode e)
    (hname : ∀ e ∈ fs.root.e :: nodes, (unicodeName e.name).length ≤ 0x40)
    (b : Blocks) (hb : getBATCount (secs nodes).sum = some b) (hsz : b.batEntries < 2 ^ 31) :
    ∃ w, dumpOleFile fs = some w ∧ Emits w (image b fs.root.e nodes) ∧
      ∀ s, (w s).2 =
        if (s.put (headBytes b (secs nodes).sum ++ dataBytes nodes)).bad then -1 else 0 := by
  have htot := totalDataSize_good nodes hg
  have hdiv : totalDataSize nodes / 512 = (secs nodes).sum := by omega
  obtain ⟨wd, ed, hd, cd⟩ := dumpDepots_spec _ b hb nodes hg rfl hsz
  have hname' : ∀ e ∈ fs.root.e :: withStarts nodes b.msatCount,
      (unicodeName e.name).length ≤ 0x40 := by
    intro e he
    rcases List.mem_cons.mp he with rfl | he
    · exact hname _ (by simp)
    · have : e.name ∈ (withStarts nodes b.msatCount).map Entry.name := List.mem_map_of_mem he
      rw [withStarts_name] at this
      obtain ⟨x, hx, hxe⟩ := List.mem_map.mp this
      rw [← hxe]
      exact hname x (by simp [hx])
  obtain ⟨wf, ef, hf⟩ := mapM_dumpNode _ hname'
  have hH := dumpHeader_emits b (totalDataSize nodes)
  rw [hdiv] at hH
  have hD : ∀ s : Sink, dumpData nodes s =
      (s.put (dataBytes nodes), if (s.put (dataBytes nodes)).bad then -1 else 0) := by
    cases nodes with
    | nil => exact absurd rfl hne
    | cons n r =>
      have h0 := hg n (by simp)
      exact dumpData_spec n r h0.1 h0.nonempty
  let w : W := fun s0 =>
    let (s1, e1) := dumpHeader b (totalDataSize nodes) s0
    let (s2, e2) := dumpData nodes s1
    let (s3, e3) := wd s2
    let (s4, e4) := ignoring wf.flatten s3
    (s4, orCode (orCode (orCode e1 e2) e3) e4)
  have hw : dumpOleFile fs = some w := by
    simp only [dumpOleFile, hn, hdiv, hb, Option.bind_some, ed, dumpFileSystem, ef, Option.map_some]
    rfl
  refine ⟨w, hw, ?_, ?_⟩
  · intro s
    show (ignoring wf.flatten (wd (dumpData nodes (dumpHeader b (totalDataSize nodes) s).1).1).1).1 = _
    rw [hf, hd, hD, hH]
    simp only [Sink.put_put, image, List.append_assoc]
  · intro s
    show orCode (orCode (orCode (dumpHeader b (totalDataSize nodes) s).2
      (dumpData nodes (dumpHeader b (totalDataSize nodes) s).1).2)
      (wd (dumpData nodes (dumpHeader b (totalDataSize nodes) s).1).1).2)
      (ignoring wf.flatten _).2 = _
    have c0 : (dumpHeader b (totalDataSize nodes) s).2 = 0 := ignoring_code _ _
    rw [cd, ignoring_code, c0, hH, hD, Sink.put_put]
    have horc : ∀ x : Int, orCode (orCode (orCode 0 x) 0) 0 = x := by
      intro x; simp only [orCode]; split <;> simp_all
    rw [horc]
    rfl

end Xls.Ole
