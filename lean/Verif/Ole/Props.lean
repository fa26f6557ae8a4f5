import Verif.Ole.Dir
import Verif.Ole.TokProps
/-
C09–C13, C39: the compound file.
-/
namespace Xls.Ole
open Xls.Cfb

/-! ### Specification -/

/-- A save: the streams are added one after the other and the file is written.  `none` is undefined
    behaviour or a refused stream. -/
def save (files : List File) (openOk : Bool) (room : Nat) : Option (Sink × Int) :=
  match addFiles Fs.init files with
  | .ok fs => saveFile fs openOk room
  | _ => none

/-- Streams for the root storage: every path has one component, the names fit into a directory entry
    and are distinct, and everything together stays below 2 GB. -/
structure RootStreams (files : List File) (names : List Bytes) : Prop where
  paths : files.map (fun f => stringtok f.path) = names.map (fun n => [n])
  short : ∀ n ∈ names, n.length ≤ 31
  nodup : names.Nodup
  size : (files.map (fun f => dataSize f.units)).sum + 4096 * files.length < 2 ^ 31
  nonempty : files ≠ []

/-- The least stream length that is a multiple of 512 and at least 4096. -/
def IsPadded (n m : Nat) : Prop :=
  (n ≤ m ∧ m % 512 = 0 ∧ 4096 ≤ m) ∧ ∀ k, n ≤ k → k % 512 = 0 → 4096 ≤ k → m ≤ k

/-! ### C13 -/

/-- C13: a stream is stored as its bytes followed by zeros, up to the least legal length. -/
theorem c13_padding (us : List Bytes) :
    ∃ k, (padUnits us).flatten = us.flatten ++ List.replicate k 0 ∧
      IsPadded us.flatten.length (us.flatten.length + k) ∧ nodeSize (dataSize us) = us.flatten.length + k := by
  refine ⟨trailSize (dataSize us), by simp [padUnits], ?_, ?_⟩
  · rw [dataSize_flatten, trail_node]
    obtain ⟨h1, h2, h3, _, h5⟩ := nodeSize_facts (dataSize us)
    exact ⟨⟨h3, h1, h2⟩, h5⟩
  · rw [dataSize_flatten, trail_node]

-- 5000 bytes are padded to 5120, 10 bytes to 4096, 8192 bytes not at all
example : (nodeSize 5000, nodeSize 10, nodeSize 8192, nodeSize 0) = (5120, 4096, 8192, 4096) := by decide

/-! ### The written file -/

theorem tok_plain {path nm : Bytes} (h : stringtok path = [nm]) (hl : nm.length ≤ 31) : PlainName nm := by
  have key : ∀ {s : Bytes} {ts : List Bytes}, Tokens s ts → ∀ t ∈ ts, t ≠ [] ∧ ∀ c ∈ t, c ≠ 0 := by
    intro s ts h
    induction h with
    | nil => simp
    | sep _ _ ih => exact ih
    | tok hne hno _ _ ih =>
      intro x hx
      rcases List.mem_cons.mp hx with rfl | hx
      · exact ⟨hne, fun c hc => (hno c hc).2⟩
      · exact ih x hx
  have := key ((c41_tokens path [nm]).mp h) nm (by simp)
  exact ⟨this.1, hl, this.2⟩

/-- Directory entries of the streams. -/
def nodesOf (files : List File) (names : List Bytes) : List Entry :=
  entsFrom files.length 1 (named files names)

theorem RootStreams.len {files : List File} {names : List Bytes} (R : RootStreams files names) :
    names.length = files.length := by
  have := congrArg List.length R.paths
  simpa using this.symm

theorem RootStreams.named_len {files : List File} {names : List Bytes} (R : RootStreams files names) :
    (named files names).length = files.length := by
  simp [named, R.len]

theorem RootStreams.plain {files : List File} {names : List Bytes} (R : RootStreams files names) :
    ∀ n ∈ names, PlainName n := by
  intro n hn
  have : [n] ∈ files.map (fun f => stringtok f.path) := by
    rw [R.paths]; exact List.mem_map_of_mem hn
  obtain ⟨f, _, hf⟩ := List.mem_map.mp this
  exact tok_plain hf (R.short n hn)

theorem rootEnt_plain (n : Nat) : PlainName (rootEnt n).name := by
  refine ⟨by simp [rootEnt, Fs.init, Node.e], by simp [rootEnt, Fs.init, Node.e], ?_⟩
  show ∀ c ∈ ([0x52, 0x6F, 0x6F, 0x74, 0x20, 0x45, 0x6E, 0x74, 0x72, 0x79] : Bytes), c ≠ 0
  decide

theorem nodesOf_names {files : List File} {names : List Bytes} (R : RootStreams files names) :
    (nodesOf files names).map Entry.name = names := by
  rw [nodesOf, entsFrom_names, named, List.map_fst_zip]
  simp [R.len]

theorem secs_sum_le (n i : Nat) (fl : List (Bytes × List Bytes)) :
    512 * (secs (entsFrom n i fl)).sum ≤ (fl.map (fun f => dataSize f.2)).sum + 4096 * fl.length := by
  induction fl generalizing i with
  | nil => simp [entsFrom, secs]
  | cons f r ih =>
    have := ih (i + 1)
    have h4 := nodeSize_facts (dataSize f.2)
    simp only [entsFrom, secs, List.map_cons, List.sum_cons, List.length_cons] at this ⊢
    have he : dataSize ((ent n i f.1 f.2).data.getD []) = nodeSize (dataSize f.2) := dataSize_pad f.2
    rw [he]
    omega

theorem named_sum (files : List File) (names : List Bytes) (h : names.length = files.length) :
    ((named files names).map (fun f => dataSize f.2)).sum = (files.map (fun f => dataSize f.units)).sum := by
  induction files generalizing names with
  | nil => simp [named]
  | cons f r ih =>
    cases names with
    | nil => simp at h
    | cons n ns =>
      have := ih ns (by simpa using h)
      simp only [named] at this
      simp [named, this]

/-- Everything the theorems below need about a save. -/
theorem save_core {files : List File} {names : List Bytes} (R : RootStreams files names) :
    ∃ b, Setup b (rootEnt files.length) (nodesOf files names) ∧
      ∀ room, save files true room = some
        (({ out := [], room := room, bad := false } : Sink).put (image b (rootEnt files.length) (nodesOf files names)),
         if (({ out := [], room := room, bad := false } : Sink).put
            (headBytes b (secs (nodesOf files names)).sum ++ dataBytes (nodesOf files names))).bad then -1 else 0) := by
  have hadd : addFiles Fs.init files = .ok (flatFs (named files names)) := by
    have := addFiles_flat files names [] R.paths (by simpa using R.nodup)
    simpa [init_flat] using this
  have hall : getAllNodes (flatFs (named files names)) = nodesOf files names := by
    rw [getAllNodes_flat, R.named_len]; rfl
  obtain ⟨b, hb, _⟩ := c08_terminates (secs (nodesOf files names)).sum
  have hroot : (flatFs (named files names)).root.e = rootEnt files.length := by
    simp [flatFs, Node.e, R.named_len]
  have hg : ∀ e ∈ nodesOf files names, GoodNode e := entsFrom_good _ _ _
  have hplain : ∀ e ∈ rootEnt files.length :: nodesOf files names, PlainName e.name := by
    intro e he
    rcases List.mem_cons.mp he with rfl | he
    · exact rootEnt_plain _
    · have : e.name ∈ (nodesOf files names).map Entry.name := List.mem_map_of_mem he
      rw [nodesOf_names R] at this
      exact R.plain _ this
  have hname : ∀ e ∈ rootEnt files.length :: nodesOf files names, (unicodeName e.name).length ≤ 0x40 := by
    intro e he
    have h := hplain e he
    rw [unicodeName_length h]
    have := h.2.1
    omega
  have hsmall : b.batEntries < 2 ^ 31 := by
    have hle := secs_sum_le files.length 1 (named files names)
    rw [named_sum _ _ R.len, R.named_len] at hle
    have hsz := R.size
    have hd : (secs (nodesOf files names)).sum < 2 ^ 22 := by
      simp only [nodesOf]; omega
    obtain ⟨hx, _, hmin, he⟩ := c08_minimal _ b hb
    have hbat : b.batCount ≤ 2 ^ 16 := by
      have := hmin (2 ^ 16) 516 (xbatFor_ms (2 ^ 16)) (by unfold Enough; omega)
      exact this
    have hms := hx.2 516 (by omega)
    omega
  refine ⟨b, ⟨hb, hg, hname, hsmall⟩, ?_⟩
  intro room
  have hne : nodesOf files names ≠ [] := by
    intro h
    have := congrArg List.length h
    rw [nodesOf, entsFrom_length, R.named_len] at this
    exact R.nonempty (List.length_eq_zero_iff.mp this)
  obtain ⟨w, hw, he, hc⟩ := dumpOleFile_spec (flatFs (named files names)) (nodesOf files names) hall hne hg
    (by rw [hroot]; exact hname) b hb hsmall
  simp only [save, hadd, saveFile, if_true, hw, Option.map_some]
  have := he { out := [], room := room, bad := false }
  rw [hroot] at this
  rw [← hc, ← this]

/-! ### C09 -/

/-- Number of sectors the stream data takes. -/
def dataSectors (files : List File) (names : List Bytes) : Nat := (secs (nodesOf files names)).sum

/-- `D` is the number of 512-byte sectors all padded streams take together. -/
def StreamSectors (files : List File) (D : Nat) : Prop :=
  ∃ ms : List Nat, ms.length = files.length ∧ 512 * D = ms.sum ∧
    ∀ j (h : j < files.length) (h' : j < ms.length), IsPadded files[j].units.flatten.length ms[j]

theorem streamSectors {files : List File} {names : List Bytes} (R : RootStreams files names) :
    StreamSectors files (secs (nodesOf files names)).sum := by
  refine ⟨files.map (fun f => nodeSize (dataSize f.units)), by simp, ?_, ?_⟩
  · have h : ∀ (fs : List File) (ns : List Bytes) (n i : Nat), ns.length = fs.length →
        512 * (secs (entsFrom n i (named fs ns))).sum = (fs.map (fun f => nodeSize (dataSize f.units))).sum := by
      intro fs
      induction fs with
      | nil => intro ns n i _; simp [named, entsFrom, secs]
      | cons f r ih =>
        intro ns n i hl
        cases ns with
        | nil => simp at hl
        | cons m ns =>
          have h1 := ih ns n (i + 1) (by simpa using hl)
          have h2 := nodeSize_facts (dataSize f.units)
          have he : dataSize ((ent n i m f.units).data.getD []) = nodeSize (dataSize f.units) := dataSize_pad f.units
          simp only [named, secs] at h1
          simp only [named, List.map_cons, List.zip_cons_cons, entsFrom, secs, List.sum_cons, he]
          rw [← h1]
          omega
    exact h files names _ _ R.len
  · intro j h h'
    simp only [List.getElem_map, dataSize_flatten]
    obtain ⟨h1, h2, h3, _, h5⟩ := nodeSize_facts (dataSize files[j].units)
    exact ⟨⟨h3, h1, h2⟩, h5⟩

/-- The bytes of a complete save: the unique file every save with enough room produces. -/
def CompleteFile (files : List File) (f : Bytes) : Prop :=
  ∀ room, f.length ≤ room → save files true room = some ({ out := f, room := room - f.length, bad := false }, 0)

theorem put_fits (room : Nat) (bs : Bytes) (h : bs.length ≤ room) :
    ({ out := [], room := room, bad := false } : Sink).put bs = { out := bs, room := room - bs.length, bad := false } := by
  simp [Sink.put, h]

theorem image_prefix (b : Blocks) (root : Entry) (nodes : List Entry) : image b root nodes =
    (headBytes b (secs nodes).sum ++ dataBytes nodes) ++ (w32 (batWords b (secs nodes)) ++
      (root :: withStarts nodes b.msatCount).flatMap nodeBytes) := by
  simp [image, headBytes]

theorem complete_image {files : List File} {names : List Bytes} {b : Blocks}
    (hs : ∀ room, save files true room = some
        (({ out := [], room := room, bad := false } : Sink).put (image b (rootEnt files.length) (nodesOf files names)),
         if (({ out := [], room := room, bad := false } : Sink).put
            (headBytes b (secs (nodesOf files names)).sum ++ dataBytes (nodesOf files names))).bad then -1 else 0)) :
    CompleteFile files (image b (rootEnt files.length) (nodesOf files names)) := by
  intro room hroom
  rw [hs, put_fits _ _ hroom]
  have hl := congrArg List.length (image_prefix b (rootEnt files.length) (nodesOf files names))
  rw [List.length_append] at hl
  rw [put_fits _ _ (by omega)]
  rfl

theorem complete_unique {files : List File} {f g : Bytes} (hf : CompleteFile files f) (hg : CompleteFile files g) :
    f = g := by
  have h1 := hf (f.length + g.length) (by omega)
  have h2 := hg (f.length + g.length) (by omega)
  rw [h1] at h2
  simp only [Option.some.injEq, Prod.mk.injEq, Sink.mk.injEq] at h2
  exact h2.1.1

theorem Setup.regions {b : Blocks} {root : Entry} {nodes : List Entry} (S : Setup b root nodes) :
    difatIds (image b root nodes) b.msatCount (if b.msatCount = 0 then endOfChain else 0) =
      some (List.range' 0 b.msatCount) := by
  obtain ⟨h1, h2, h3, h4, h5, h6⟩ := c08_slots _ b S.bat
  have he := S.entries_eq
  have hs := S.small
  apply difatIds_weave (image b root nodes) (head512 b (secs nodes).sum) []
    (dataBytes nodes ++ (w32 (batWords b (secs nodes)) ++
    (root :: withStarts nodes b.msatCount).flatMap nodeBytes)) b.msatCount b.msatCount 0
    (extraIds b (secs nodes).sum)
  · rw [Setup.image_eq, xWords_weave _ b S.bat]; rfl
  · exact S.head_length
  · rfl
  · simp [extraIds]; omega
  · omega
  · intro x hx
    rcases List.mem_append.mp hx with hx | hx
    · have := List.mem_range'_1.mp hx
      omega
    · rw [(List.mem_replicate.mp hx).2]; decide
  · omega

theorem Setup.difatOf {b : Blocks} {root : Entry} {nodes : List Entry} (S : Setup b root nodes) :
    difatList (image b root nodes) = some (List.range' 0 b.msatCount) := by
  have he := S.entries_eq
  have hs := S.small
  have hx : (if b.msatCount ≠ 0 then 0 else endOfChain) % 256 ^ 4 =
      if b.msatCount = 0 then endOfChain else 0 := by
    by_cases h0 : b.msatCount = 0
    · simp [h0, endOfChain]
    · simp [h0]
  simp only [difatList, Setup.rd_xbatStart, Setup.rd_xbatCount, Option.bind_some, hx]
  rw [Nat.mod_eq_of_lt (by omega)]
  exact S.regions

/-- C09: for three streams the file consists of whole 512-byte sectors: the header, the streams, the
    least sufficient number of allocation sectors and extra list sectors, and one directory sector; and
    the header places the extra list sectors first, then (after the stream data) the allocation sectors,
    then the directory. -/
theorem c09_file_size {files : List File} {names : List Bytes} (R : RootStreams files names)
    (h3 : files.length = 3) :
    ∃ f D B X, CompleteFile files f ∧ f.length = 512 * (1 + X + D + B + 1) ∧
      difatList f = some (List.range' 0 X) ∧ fatIds f = some (List.range' (X + D) B) ∧
      rdLE 4 f 0x30 = some (X + D + B) ∧ StreamSectors files D ∧ XbatFor B X ∧ Enough D B X ∧ ∀ n x, XbatFor n x → Enough D n x → B ≤ n := by
  obtain ⟨b, S, hs⟩ := save_core R
  obtain ⟨h1, h2, h4, _⟩ := c08_minimal _ b S.bat
  refine ⟨_, _, b.batCount, b.msatCount, complete_image hs, ?_, S.difatOf, S.fatIds_eq, ?_,
    streamSectors R, h1, h2, h4⟩
  rotate_left
  · have he := S.entries_eq
    have hsm := S.small
    rw [Setup.rd_dirStart, Nat.mod_eq_of_lt (by omega)]
  rw [S.image_length, nodesOf, entsFrom_length, R.named_len, h3]
  omega

/-- C09 (the code disagrees for other numbers of streams): the directory is neither padded nor counted
    beyond one sector, so with `n` streams the file is a whole number of sectors only if 4 divides
    `n + 1`. -/
theorem c09_unaligned {files : List File} {names : List Bytes} (R : RootStreams files names) (f : Bytes)
    (hf : CompleteFile files f) : f.length % 512 = 128 * (files.length + 1) % 512 := by
  obtain ⟨b, S, hs⟩ := save_core R
  rw [complete_unique hf (complete_image hs), S.image_length, nodesOf, entsFrom_length, R.named_len]
  omega

/-! ### C10 -/

theorem nodesOf_length {files : List File} {names : List Bytes} (R : RootStreams files names) :
    (nodesOf files names).length = files.length := by
  rw [nodesOf, entsFrom_length, R.named_len]

theorem nodesOf_get {files : List File} {names : List Bytes} (R : RootStreams files names) (j : Nat)
    (hj : j < files.length) (hj' : j < (nodesOf files names).length) :
    (nodesOf files names)[j] = ent files.length (1 + j) (names[j]'(by rw [R.len]; exact hj)) files[j].units := by
  have hn : j < (named files names).length := by rw [R.named_len]; exact hj
  have h := entsFrom_get files.length 1 (named files names) j hn
  have h2 : (nodesOf files names)[j]? = some (nodesOf files names)[j] := List.getElem?_eq_getElem hj'
  have h3 := h2.symm.trans h
  simp only [Option.some.injEq] at h3
  rw [h3]
  simp [named]

theorem linked_files {files : List File} {names : List Bytes} (R : RootStreams files names) (s : Nat) :
    Linked ((rootEnt files.length :: withStarts (nodesOf files names) s).map toDir) (names.map nameUnits) := by
  have hsz := R.size
  have := linked_flat (named files names) s (by rw [R.named_len]; omega)
  rw [R.named_len] at this
  have hn : (named files names).map (fun f => nameUnits f.1) = names.map nameUnits := by
    have : (named files names).map Prod.fst = names := by
      rw [named, List.map_fst_zip]; simp [R.len]
    have h2 : (named files names).map (fun f => nameUnits f.1) = ((named files names).map Prod.fst).map nameUnits := by
      rw [List.map_map]; rfl
    rw [h2, this]
  rw [hn] at this
  exact this

theorem mem_le_sum {l : List Nat} {n : Nat} (h : n ∈ l) : n ≤ l.sum := by
  induction l with
  | nil => simp at h
  | cons a r ih =>
    rw [List.sum_cons]
    rcases List.mem_cons.mp h with rfl | h
    · omega
    · have := ih h; omega

/-- Names in the order a directory needs. -/
def Ascending (names : List Bytes) : Prop :=
  (names.map nameUnits).Pairwise (fun a b => nameLt a b = true)

/-- C10: a strict compound-file reader finds each of three streams by name and gets its bytes back,
    followed only by the zero padding. -/
theorem c10_streams_read_back {files : List File} {names : List Bytes} (R : RootStreams files names)
    (h3 : files.length = 3) (hasc : Ascending names) :
    ∃ f, CompleteFile files f ∧ ∀ j (hj : j < files.length) (hj' : j < names.length),
      ∃ k, readStream f (nameUnits names[j]) = some (files[j].units.flatten ++ List.replicate k 0) ∧
        IsPadded files[j].units.flatten.length (files[j].units.flatten.length + k) := by
  obtain ⟨b, S, hs⟩ := save_core R
  refine ⟨_, complete_image hs, ?_⟩
  intro j hj hj'
  obtain ⟨k, hk1, hk2, hk3⟩ := c13_padding files[j].units
  refine ⟨k, ?_, hk2⟩
  have hnl := nodesOf_length R
  have hjn : j < (nodesOf files names).length := by omega
  have L := linked_files R b.msatCount
  obtain ⟨r, e, hr, hrt, he, hfind⟩ := L.find_ok hasc j (by simpa using hj')
  have hplain : ∀ x ∈ rootEnt files.length :: withStarts (nodesOf files names) b.msatCount, PlainName x.name := by
    intro x hx
    rcases List.mem_cons.mp hx with rfl | hx
    · exact rootEnt_plain _
    · have : x.name ∈ (withStarts (nodesOf files names) b.msatCount).map Entry.name := List.mem_map_of_mem hx
      rw [withStarts_name, nodesOf_names R] at this
      exact R.plain _ this
  have hdir : directory (image b (rootEnt files.length) (nodesOf files names))
      (batWords b (secs (nodesOf files names))) =
      some ((rootEnt files.length :: withStarts (nodesOf files names) b.msatCount).map toDir) := by
    have hent := entries_nodes _ hplain
    have hdl := S.dir_length
    have hse := S.entries_eq
    have hss := S.small
    simp only [directory, Setup.rd_dirStart, Option.bind_some]
    rw [Nat.mod_eq_of_lt (by omega), S.dir_bytes (by omega), Option.bind_some, hdl, hnl]
    rw [← hent]
    congr 1
    simp [withStarts_length, hnl]
  have he' : e = toDir { (nodesOf files names)[j] with
      start := ((b.msatCount + (secs ((nodesOf files names).take j)).sum : Nat) : Int) } := by
    rw [List.map_cons, List.getElem?_cons_succ, List.getElem?_map, withStarts_get _ _ _ hjn] at he
    simpa using he.symm
  have hget := nodesOf_get R j hj hjn
  have htyp : e.typ = 2 := by rw [he', hget]; rfl
  have hsz : e.size = files[j].units.flatten.length + k := by
    rw [he', hget]
    show (if (2 : UInt8) = 2 then nodeSize (dataSize files[j].units) else 0) % 2 ^ 32 = _
    rw [if_pos rfl, hk3]
    apply Nat.mod_eq_of_lt
    have := R.size
    have hle : dataSize files[j].units ≤ (files.map (fun f => dataSize f.units)).sum := by
      apply mem_le_sum
      exact List.mem_map_of_mem (f := fun f => dataSize f.units) (List.getElem_mem hj)
    have := nodeSize_facts (dataSize files[j].units)
    omega
  have hstart : e.start = b.msatCount + (secs ((nodesOf files names).take j)).sum := by
    rw [he']
    simp only [toDir, u32OfInt]
    have hse := S.entries_eq
    have hss := S.small
    have : (secs ((nodesOf files names).take j)).sum ≤ (secs (nodesOf files names)).sum := by
      have h := congrArg (fun l => (secs l).sum) (List.take_append_drop j (nodesOf files names))
      simp only [secs, List.map_append, List.sum_append] at h ⊢
      omega
    omega
  have hsplit : nodesOf files names = (nodesOf files names).take j ++ (nodesOf files names)[j] ::
      (nodesOf files names).drop (j + 1) := by
    rw [← List.drop_eq_getElem_cons hjn, List.take_append_drop]
  obtain ⟨_, hstream⟩ := S.stream_eq _ _ _ hsplit
  have hdata : ((nodesOf files names)[j].data.getD []).flatten = files[j].units.flatten ++ List.replicate k 0 := by
    rw [hget]; exact hk1
  rw [hdata] at hstream
  have hname : (names.map nameUnits)[j]'(by simpa using hj') = nameUnits names[j] := by simp
  rw [hname] at hfind
  simp only [readStream, Setup.headerOk_image, if_true, S.fat_eq, Option.bind_some, hdir, hr, hrt, hfind,
    htyp, hsz, hstart, hstream]
  have h4096 := hk2.1.2.2
  rw [if_pos ⟨trivial, h4096⟩, if_pos (by simp)]
  congr 1
  exact List.take_of_length_le (by simp)

/-- The names the workbook uses (workbook.cpp 314-327). -/
def workbookNames : List Bytes :=
  [[0x57, 0x6F, 0x72, 0x6B, 0x62, 0x6F, 0x6F, 0x6B],
   [5, 0x53, 0x75, 0x6D, 0x6D, 0x61, 0x72, 0x79, 0x49, 0x6E, 0x66, 0x6F, 0x72, 0x6D, 0x61, 0x74, 0x69, 0x6F, 0x6E],
   [5, 0x44, 0x6F, 0x63, 0x75, 0x6D, 0x65, 0x6E, 0x74, 0x53, 0x75, 0x6D, 0x6D, 0x61, 0x72, 0x79, 0x49, 0x6E, 0x66,
    0x6F, 0x72, 0x6D, 0x61, 0x74, 0x69, 0x6F, 0x6E]]

/-- The three streams of a saved workbook: the first path starts with a slash, the others do not. -/
def workbookFiles (wb si dsi : List Bytes) : List File :=
  [⟨0x2F :: [0x57, 0x6F, 0x72, 0x6B, 0x62, 0x6F, 0x6F, 0x6B], wb⟩,
   ⟨[5, 0x53, 0x75, 0x6D, 0x6D, 0x61, 0x72, 0x79, 0x49, 0x6E, 0x66, 0x6F, 0x72, 0x6D, 0x61, 0x74, 0x69, 0x6F, 0x6E], si⟩,
   ⟨[5, 0x44, 0x6F, 0x63, 0x75, 0x6D, 0x65, 0x6E, 0x74, 0x53, 0x75, 0x6D, 0x6D, 0x61, 0x72, 0x79, 0x49, 0x6E, 0x66,
    0x6F, 0x72, 0x6D, 0x61, 0x74, 0x69, 0x6F, 0x6E], dsi⟩]

theorem workbook_root (wb si dsi : List Bytes) (h : dataSize wb + dataSize si + dataSize dsi < 2 ^ 31 - 12288) :
    RootStreams (workbookFiles wb si dsi) workbookNames := by
  refine ⟨by simp only [workbookFiles, List.map_cons, List.map_nil, workbookNames]; decide, by decide, by decide,
    ?_, by simp [workbookFiles]⟩
  simp [workbookFiles]
  omega

/-- C10 for a saved workbook: all three streams of every workbook below 2 GB read back. -/
theorem c10_workbook (wb si dsi : List Bytes) (h : dataSize wb + dataSize si + dataSize dsi < 2 ^ 31 - 12288) :
    ∃ f k1 k2 k3, CompleteFile (workbookFiles wb si dsi) f ∧
      readStream f (nameUnits workbookNames[0]) = some (wb.flatten ++ List.replicate k1 0) ∧
      readStream f (nameUnits workbookNames[1]) = some (si.flatten ++ List.replicate k2 0) ∧
      readStream f (nameUnits workbookNames[2]) = some (dsi.flatten ++ List.replicate k3 0) := by
  obtain ⟨f, hf, hr⟩ := c10_streams_read_back (workbook_root wb si dsi h) rfl
    (by unfold Ascending workbookNames; decide)
  obtain ⟨k1, h1, _⟩ := hr 0 (by simp [workbookFiles]) (by decide)
  obtain ⟨k2, h2, _⟩ := hr 1 (by simp [workbookFiles]) (by decide)
  obtain ⟨k3, h3, _⟩ := hr 2 (by simp [workbookFiles]) (by decide)
  exact ⟨f, k1, k2, k3, hf, h1, h2, h3⟩

-- three small streams meet the hypothesis
example : dataSize [[1, 2], [3]] + dataSize [[4]] + dataSize [] < 2 ^ 31 - 12288 := by decide

/-! ### Directory of any number of streams -/

theorem dir_plain {files : List File} {names : List Bytes} (R : RootStreams files names) (m : Nat) :
    ∀ x ∈ rootEnt files.length :: withStarts (nodesOf files names) m, PlainName x.name := by
  intro x hx
  rcases List.mem_cons.mp hx with rfl | hx
  · exact rootEnt_plain _
  · have : x.name ∈ (withStarts (nodesOf files names) m).map Entry.name := List.mem_map_of_mem hx
    rw [withStarts_name, nodesOf_names R] at this
    exact R.plain _ this

theorem raw_dir {files : List File} {names : List Bytes} (R : RootStreams files names) {b : Blocks}
    (S : Setup b (rootEnt files.length) (nodesOf files names)) :
    rawDirectory (image b (rootEnt files.length) (nodesOf files names)) =
      some ((rootEnt files.length :: withStarts (nodesOf files names) b.msatCount).map toDir) := by
  have he := S.entries_eq
  have hs := S.small
  have hX := S.xWords_length
  have hD := dataBytes_length _ S.good
  have hB := S.bat_length
  have hdrop : (image b (rootEnt files.length) (nodesOf files names)).drop
      (512 * (b.msatCount + (secs (nodesOf files names)).sum + b.batCount + 1)) =
      (rootEnt files.length :: withStarts (nodesOf files names) b.msatCount).flatMap nodeBytes := by
    rw [Setup.image_eq]
    have : ∀ (a b c d e : Bytes), a ++ (b ++ (c ++ (d ++ e))) = (a ++ b ++ c ++ d) ++ e := by intros; simp
    rw [this]
    apply List.drop_left'
    simp only [List.length_append, S.head_length, w32_length, hX, hD, hB]
    omega
  have hent := entries_nodes _ (dir_plain R b.msatCount)
  simp only [rawDirectory, Setup.rd_dirStart, Option.bind_some]
  rw [Nat.mod_eq_of_lt (by omega), hdrop, S.dir_length, ← hent]
  congr 1
  simp [withStarts_length]

theorem dir_entry {files : List File} {names : List Bytes} (R : RootStreams files names) {b : Blocks}
    (S : Setup b (rootEnt files.length) (nodesOf files names)) (j : Nat) (hj : j < files.length)
    (e : DirEnt)
    (he : ((rootEnt files.length :: withStarts (nodesOf files names) b.msatCount).map toDir)[j + 1]? = some e) :
    e.typ = 2 ∧ e.size = nodeSize (dataSize files[j].units) ∧
      e.start = b.msatCount + (secs ((nodesOf files names).take j)).sum := by
  have hnl := nodesOf_length R
  have hjn : j < (nodesOf files names).length := by omega
  have he' : e = toDir { (nodesOf files names)[j] with
      start := ((b.msatCount + (secs ((nodesOf files names).take j)).sum : Nat) : Int) } := by
    rw [List.map_cons, List.getElem?_cons_succ, List.getElem?_map, withStarts_get _ _ _ hjn] at he
    simpa using he.symm
  have hget := nodesOf_get R j hj hjn
  refine ⟨by rw [he', hget]; rfl, ?_, ?_⟩
  · rw [he', hget]
    show (if (2 : UInt8) = 2 then nodeSize (dataSize files[j].units) else 0) % 2 ^ 32 = _
    rw [if_pos rfl]
    apply Nat.mod_eq_of_lt
    have := R.size
    have hle : dataSize files[j].units ≤ (files.map (fun f => dataSize f.units)).sum := by
      apply mem_le_sum
      exact List.mem_map_of_mem (f := fun f => dataSize f.units) (List.getElem_mem hj)
    have := nodeSize_facts (dataSize files[j].units)
    omega
  · rw [he']
    simp only [toDir, u32OfInt]
    have hse := S.entries_eq
    have hss := S.small
    have : (secs ((nodesOf files names).take j)).sum ≤ (secs (nodesOf files names)).sum := by
      have h := congrArg (fun l => (secs l).sum) (List.take_append_drop j (nodesOf files names))
      simp only [secs, List.map_append, List.sum_append] at h ⊢
      omega
    omega

/-! ### C11 -/

/-- Consecutive runs of the given lengths. -/
def runs : Nat → List Nat → List (List Nat)
  | _, [] => []
  | a, n :: r => List.range' a n :: runs (a + n) r

theorem runs_flatten (a : Nat) (ns : List Nat) : (runs a ns).flatten = List.range' a ns.sum := by
  induction ns generalizing a with
  | nil => rfl
  | cons n r ih =>
    simp only [runs, List.flatten_cons, ih, List.sum_cons, List.range'_append_1]

theorem runs_get (a : Nat) (ns : List Nat) (j : Nat) (hj : j < ns.length) :
    (runs a ns)[j]? = some (List.range' (a + (ns.take j).sum) ns[j]) := by
  induction ns generalizing a j with
  | nil => simp at hj
  | cons n r ih =>
    cases j with
    | zero => simp [runs]
    | succ j =>
      simp only [runs, List.getElem?_cons_succ, List.getElem_cons_succ, List.take_succ_cons, List.sum_cons]
      rw [ih _ j (by simpa using hj), Nat.add_assoc]

theorem runs_length (a : Nat) (ns : List Nat) : (runs a ns).length = ns.length := by
  induction ns generalizing a with
  | nil => rfl
  | cons n r ih => simp [runs, ih]

/-- C11: following the chains of all streams, the lists of allocation and extra sectors and the
    directory chain visits every sector of the file exactly once; the sectors that hold the
    allocation lists are marked as such, and every further table entry is free. -/
theorem c11_one_owner {files : List File} {names : List Bytes} (R : RootStreams files names) :
    ∃ (f : Bytes) (t : List Nat) (es : List DirEnt) (chains : List (List Nat)) (xs fs dir : List Nat) (st : Nat),
      CompleteFile files f ∧ fat f = some t ∧ rawDirectory f = some es ∧
      es.length = files.length + 1 ∧ chains.length = files.length ∧
      (∀ j < files.length, ∃ e c, es[j + 1]? = some e ∧ chains[j]? = some c ∧
        chain t (t.length + 1) e.start = some c ∧ 512 * c.length = e.size) ∧
      difatList f = some xs ∧ fatIds f = some fs ∧ rdLE 4 f 0x30 = some st ∧
      chain t (t.length + 1) st = some dir ∧
      xs ++ chains.flatten ++ fs ++ dir = List.range (xs.length + chains.flatten.length + fs.length + dir.length) ∧
      (∀ i ∈ xs, t[i]? = some difSect) ∧ (∀ i ∈ fs, t[i]? = some fatSect) ∧
      (∀ i, xs.length + chains.flatten.length + fs.length + dir.length ≤ i → i < t.length → t[i]? = some freeSect) := by
  obtain ⟨b, S, hs⟩ := save_core R
  have hnl := nodesOf_length R
  have hse := S.entries_eq
  have hss := S.small
  have hpl : (depotWords (secs (nodesOf files names)) b.msatCount).length = (secs (nodesOf files names)).sum :=
    depotWords_length _ _ (secs_pos _ S.good)
  refine ⟨_, _, _, runs b.msatCount (secs (nodesOf files names)), _, _, _, _, complete_image hs, S.fat_eq,
    raw_dir R S, by simp [withStarts_length, hnl], by simp [runs_length, secs, hnl], ?_, S.difatOf, S.fatIds_eq,
    by rw [Setup.rd_dirStart, Nat.mod_eq_of_lt (by omega)], S.dir_chain, ?_, ?_, ?_, ?_⟩
  · intro j hj
    have hjn : j < (nodesOf files names).length := by omega
    have hjs : j < (secs (nodesOf files names)).length := by simpa [secs] using hjn
    obtain ⟨e, he, _⟩ := (linked_files R b.msatCount).ent j (by simp [R.len]; exact hj)
    obtain ⟨_, hsz, hst⟩ := dir_entry R S j hj e he
    have hsplit : nodesOf files names = (nodesOf files names).take j ++ (nodesOf files names)[j] ::
        (nodesOf files names).drop (j + 1) := by
      rw [← List.drop_eq_getElem_cons hjn, List.take_append_drop]
    obtain ⟨hc, _⟩ := S.stream_eq _ _ _ hsplit
    have hsec : (secs (nodesOf files names))[j] = dataSize ((nodesOf files names)[j].data.getD []) / 512 := by
      simp [secs]
    have htk : ((secs (nodesOf files names)).take j).sum = (secs ((nodesOf files names).take j)).sum := by
      simp [secs]
    refine ⟨e, _, he, runs_get _ _ j hjs, ?_, ?_⟩
    · rw [hst, hc, htk, hsec]
    · rw [hsz, List.length_range', hsec, nodesOf_get R j hj hjn]
      show 512 * (dataSize (padUnits files[j].units) / 512) = _
      rw [dataSize_pad]
      have := nodeSize_facts (dataSize files[j].units)
      omega
  · rw [runs_flatten]
    simp only [List.length_range', List.length_cons, List.length_nil]
    have h1 := List.range'_append_1 (s := 0) (m := b.msatCount) (n := (secs (nodesOf files names)).sum)
    have h2 := List.range'_append_1 (s := 0) (m := b.msatCount + (secs (nodesOf files names)).sum) (n := b.batCount)
    have h3 := List.range'_append_1 (s := 0) (m := b.msatCount + (secs (nodesOf files names)).sum + b.batCount) (n := 1)
    simp only [Nat.zero_add] at h1 h2 h3
    rw [h1, h2, show [b.msatCount + (secs (nodesOf files names)).sum + b.batCount] =
      List.range' (b.msatCount + (secs (nodesOf files names)).sum + b.batCount) 1 from rfl, h3,
      List.range_eq_range']
  · intro i hi
    have := List.mem_range'_1.mp hi
    rw [batWords, List.getElem?_append_left (by simp; omega), List.getElem?_replicate, if_pos (by omega)]
  · intro i hi
    have := List.mem_range'_1.mp hi
    rw [batWords, List.getElem?_append_right (by simp; omega), List.getElem?_append_right (by simp [hpl]; omega),
      List.getElem?_append_left (by simp [hpl]; omega), List.getElem?_replicate, if_pos (by simp [hpl]; omega)]
  · intro i hi hit
    rw [runs_flatten] at hi
    simp only [List.length_range', List.length_cons, List.length_nil] at hi
    rw [S.bat_length] at hit
    rw [batWords, List.getElem?_append_right (by simp; omega), List.getElem?_append_right (by simp [hpl]; omega),
      List.getElem?_append_right (by simp [hpl]; omega), List.getElem?_append_right (by simp [hpl]; omega),
      List.getElem?_replicate, if_pos (by simp [hpl]; omega)]

/-! ### C12 -/

theorem Linked.inorder_right {t : List DirEnt} {names : List (List Nat)} (L : Linked t names) :
    ∀ k i : Nat, 2 ≤ i → i + k = names.length → ∀ fuel, k + 1 ≤ fuel →
      inorder t fuel (if i < names.length then i + 1 else freeSect) = some (List.range' (i + 1) k) := by
  have hsm := L.small
  intro k
  induction k with
  | zero =>
    intro i _ hik fuel hf
    obtain ⟨f, rfl⟩ : ∃ f, fuel = f + 1 := ⟨fuel - 1, by omega⟩
    rw [if_neg (by omega)]
    simp [inorder]
  | succ k ih =>
    intro i hi hik fuel hf
    obtain ⟨f, rfl⟩ : ∃ f, fuel = f + 1 := ⟨fuel - 1, by omega⟩
    obtain ⟨g, rfl⟩ : ∃ g, f = g + 1 := ⟨f - 1, by omega⟩
    obtain ⟨e, he, _, hl, hr⟩ := L.ent i (by omega)
    rw [if_pos (by omega)]
    rw [inorder, if_neg (by unfold freeSect; omega), he, Option.bind_some, hl, if_neg (by omega), hr]
    have h1 : inorder t (g + 1) freeSect = some [] := by simp [inorder]
    have h2 : (if 2 ≤ i + 1 ∧ i + 1 < names.length then i + 2 else freeSect) =
        if i + 1 < names.length then i + 1 + 1 else freeSect := by
      by_cases h : i + 1 < names.length
      · rw [if_pos (by omega), if_pos h]
      · rw [if_neg (by omega), if_neg h]
    rw [h1, h2, ih (i + 1) (by omega) (by omega) (g + 1) (by omega)]
    simp [List.range'_succ]

theorem Linked.inorder_all {t : List DirEnt} {names : List (List Nat)} (L : Linked t names) (r : DirEnt)
    (hr : t[0]? = some r) : inorder t (names.length + 2) r.child = some (List.range' 1 names.length) := by
  have hsm := L.small
  obtain ⟨r', hr', _, hc⟩ := L.root
  rw [hr] at hr'
  cases hr'
  rw [hc]
  by_cases h0 : names.length = 0
  · rw [if_pos h0, h0]; simp [inorder]
  rw [if_neg h0]
  have hfree : ∀ f, inorder t (f + 1) freeSect = some [] := by intro f; simp [inorder]
  by_cases h1 : names.length = 1
  · obtain ⟨e, he, _, hl, hri⟩ := L.ent 0 (by omega)
    rw [if_pos h1, inorder, if_neg (by decide), he, Option.bind_some, hl, if_neg (by omega), hri,
      if_neg (by omega), h1]
    simp [hfree]
  · rw [if_neg h1]
    obtain ⟨e1, he1, _, hl1, hr1⟩ := L.ent 0 (by omega)
    obtain ⟨e2, he2, _, hl2, hr2⟩ := L.ent 1 (by omega)
    have hleft : inorder t (names.length + 1) 1 = some [1] := by
      obtain ⟨f, hf⟩ : ∃ f, names.length = f + 1 := ⟨names.length - 1, by omega⟩
      rw [inorder, if_neg (by decide), he1, Option.bind_some, hl1, if_neg (by omega), hr1, if_neg (by omega), hf]
      simp [hfree]
    have hright : inorder t (names.length + 1) (if 2 ≤ 1 + 1 ∧ 1 + 1 < names.length then 1 + 2 else freeSect) =
        some (List.range' 3 (names.length - 2)) := by
      have := L.inorder_right (names.length - 2) 2 (by omega) (by omega) (names.length + 1) (by omega)
      rw [← this]
      congr 1
      by_cases h : 2 < names.length
      · rw [if_pos (by omega), if_pos h]
      · rw [if_neg (by omega), if_neg h]
    rw [inorder, if_neg (by decide), he2, Option.bind_some, hl2, if_pos rfl, hr2, hleft, hright]
    obtain ⟨k, hk⟩ : ∃ k, names.length = k + 2 := ⟨names.length - 2, by omega⟩
    rw [hk]
    simp [List.range'_succ]

/-- C12: whatever distinct names are added to the root storage, the in-order walk over the recorded
    links visits every stream exactly once, in the order of insertion. -/
theorem c12_reachable {files : List File} {names : List Bytes} (R : RootStreams files names) :
    ∃ f es root, CompleteFile files f ∧ rawDirectory f = some es ∧ es[0]? = some root ∧ root.typ = 5 ∧
      inorder es (files.length + 2) root.child = some (List.range' 1 files.length) ∧
      ∀ j (_ : j < files.length) (h' : j < names.length), ∃ e, es[j + 1]? = some e ∧ e.typ = 2 ∧
        e.name = nameUnits names[j] := by
  obtain ⟨b, S, hs⟩ := save_core R
  have L := linked_files R b.msatCount
  obtain ⟨r, hr, ht, _⟩ := L.root
  refine ⟨_, _, r, complete_image hs, raw_dir R S, hr, ht, ?_, ?_⟩
  · have := L.inorder_all r hr
    rw [List.length_map, R.len] at this
    exact this
  · intro j hj hj'
    obtain ⟨e, he, hn, _⟩ := L.ent j (by simpa using hj')
    exact ⟨e, he, (dir_entry R S j hj e he).1, by simpa using hn⟩

/-- C12: if the names are added in directory order, looking a name up in the search tree finds its
    stream, for any number of streams. -/
theorem c12_lookup {files : List File} {names : List Bytes} (R : RootStreams files names)
    (hasc : Ascending names) :
    ∃ f es root, CompleteFile files f ∧ rawDirectory f = some es ∧ es[0]? = some root ∧
      ∀ j (_ : j < files.length) (h' : j < names.length), ∃ e, es[j + 1]? = some e ∧
        find es (nameUnits names[j]) es.length root.child = some e := by
  obtain ⟨b, S, hs⟩ := save_core R
  have L := linked_files R b.msatCount
  obtain ⟨r, hr, ht, _⟩ := L.root
  refine ⟨_, _, r, complete_image hs, raw_dir R S, hr, ?_⟩
  intro j hj hj'
  obtain ⟨r', e, hr', _, he, hf⟩ := L.find_ok hasc j (by simpa using hj')
  rw [hr] at hr'
  cases hr'
  exact ⟨e, he, by simpa using hf⟩

/-- C12 (limit): the order matters — of two streams added in descending order the first one cannot be
    found. -/
theorem c12_descending_lost {files : List File} {names : List Bytes} (R : RootStreams files names)
    (h2 : names.length = 2) (hdesc : nameLt (nameUnits names[1]) (nameUnits names[0]) = true) :
    ∃ f es root, CompleteFile files f ∧ rawDirectory f = some es ∧ es[0]? = some root ∧
      ∀ fuel, find es (nameUnits names[0]) fuel root.child = none := by
  obtain ⟨b, S, hs⟩ := save_core R
  have L := linked_files R b.msatCount
  obtain ⟨r, hr, ht, hc⟩ := L.root
  refine ⟨_, _, r, complete_image hs, raw_dir R S, hr, ?_⟩
  intro fuel
  obtain ⟨e, he, hn, hl, hri⟩ := L.ent 1 (by simp [h2])
  have hll : (names.map nameUnits).length = 2 := by simp [h2]
  have hc2 : r.child = 2 := by rw [hc, if_neg (by omega), if_neg (by omega)]
  have hri2 : e.right = freeSect := by rw [hri, if_neg (by omega)]
  rw [hc2]
  cases fuel with
  | zero => rfl
  | succ fuel =>
    rw [find, if_neg (by decide), he, Option.bind_some, hn]
    simp only [List.getElem_map]
    rw [nameLt_asymm hdesc, hdesc, hri2]
    cases fuel <;> simp [find]

/-! ### C10: the number of streams matters -/

/-- C10 (the code disagrees for other numbers of streams): with one or two streams the directory sector
    is incomplete and a strict reader refuses the file. -/
theorem c10_few_streams_fail {files : List File} {names : List Bytes} (R : RootStreams files names)
    (h : files.length < 3) :
    ∃ f, CompleteFile files f ∧ ∀ name, readStream f name = none := by
  obtain ⟨b, S, hs⟩ := save_core R
  refine ⟨_, complete_image hs, ?_⟩
  intro name
  have hse := S.entries_eq
  have hss := S.small
  have hlen := S.image_length
  rw [nodesOf_length R] at hlen
  have hsec : sector (image b (rootEnt files.length) (nodesOf files names))
      (b.msatCount + (secs (nodesOf files names)).sum + b.batCount) = none := by
    simp only [sector]
    rw [if_neg]
    simp only [List.length_take, List.length_drop, hlen]
    omega
  have hdir : directory (image b (rootEnt files.length) (nodesOf files names))
      (batWords b (secs (nodesOf files names))) = none := by
    simp only [directory, Setup.rd_dirStart, Option.bind_some]
    rw [Nat.mod_eq_of_lt (by omega)]
    simp [chainBytes, S.dir_chain, hsec]
  simp [readStream, Setup.headerOk_image, S.fat_eq, hdir]

/-- C10 (the code disagrees for other numbers of streams): with more than three streams in directory
    order, the fourth and all later ones are lost to a reader. -/
theorem c10_many_streams_lost {files : List File} {names : List Bytes} (R : RootStreams files names)
    (h : 3 < files.length) (hasc : Ascending names) :
    ∃ f, CompleteFile files f ∧ ∀ j (h' : j < names.length), 3 ≤ j → readStream f (nameUnits names[j]) = none := by
  obtain ⟨b, S, hs⟩ := save_core R
  refine ⟨_, complete_image hs, ?_⟩
  intro j hj' h3j
  have hse := S.entries_eq
  have hss := S.small
  have hnl := nodesOf_length R
  have hX := S.xWords_length
  have hD := dataBytes_length _ S.good
  have hB := S.bat_length
  have hdl := S.dir_length
  have hpl := dir_plain R b.msatCount
  have L := linked_files R b.msatCount
  generalize hes : rootEnt files.length :: withStarts (nodesOf files names) b.msatCount = es at hpl L hdl
  have hesl : es.length = files.length + 1 := by rw [← hes]; simp [withStarts_length, hnl]
  have hsplit : es.flatMap nodeBytes = (es.take 4).flatMap nodeBytes ++ (es.drop 4).flatMap nodeBytes := by
    rw [← List.flatMap_append, List.take_append_drop]
  have hpl4 : ∀ e ∈ es.take 4, PlainName e.name := fun e he => hpl e (List.mem_of_mem_take he)
  have hl4 : ((es.take 4).flatMap nodeBytes).length = 512 := by
    have : ∀ l : List Entry, (∀ e ∈ l, PlainName e.name) → (l.flatMap nodeBytes).length = 128 * l.length := by
      intro l
      induction l with
      | nil => intro _; rfl
      | cons e r ih =>
        intro hl
        have h0 := hl e (by simp)
        have := unicodeName_length h0
        have := h0.2.1
        simp only [List.flatMap_cons, List.length_append, List.length_cons, nodeBytes_length e (by omega),
          ih (fun x hx => hl x (by simp [hx]))]
        omega
    rw [this _ hpl4]
    simp; omega
  have hsec : sector (image b (rootEnt files.length) (nodesOf files names))
      (b.msatCount + (secs (nodesOf files names)).sum + b.batCount) = some ((es.take 4).flatMap nodeBytes) := by
    have := sector_at (head512 b (secs (nodesOf files names)).sum)
      (w32 (xWords b (secs (nodesOf files names)).sum) ++ (dataBytes (nodesOf files names) ++
        w32 (batWords b (secs (nodesOf files names)))))
      ((es.take 4).flatMap nodeBytes) ((es.drop 4).flatMap nodeBytes)
      (b.msatCount + (secs (nodesOf files names)).sum + b.batCount) S.head_length
      (by simp only [List.length_append, w32_length, hX, hD, hB]; omega) hl4
    rw [Setup.image_eq, hes, hsplit]
    simpa only [List.append_assoc] using this
  have hdir : directory (image b (rootEnt files.length) (nodesOf files names))
      (batWords b (secs (nodesOf files names))) = some ((es.take 4).map toDir) := by
    have hent := entries_nodes _ hpl4
    simp only [directory, Setup.rd_dirStart, Option.bind_some]
    rw [Nat.mod_eq_of_lt (by omega)]
    simp only [chainBytes, S.dir_chain, Option.bind_some, List.mapM_cons, hsec, List.mapM_nil]
    have h4 : (es.take 4).length = 4 := by simp; omega
    rw [h4] at hent
    simp only [Option.pure_def, Option.bind_eq_bind, Option.bind_some, Option.map_some, List.flatten_cons,
      List.flatten_nil, List.append_nil, hl4]
    exact hent
  -- the search walks 2, 3 and then leaves the table
  have hget : ∀ i < 4, ((es.take 4).map toDir)[i]? = (es.map toDir)[i]? := by
    intro i hi
    rw [List.getElem?_map, List.getElem?_map, List.getElem?_take_of_lt hi]
  obtain ⟨r, hr, hrt, hc⟩ := L.root
  have hnl2 : (names.map nameUnits).length = files.length := by simp [R.len]
  have hpw := fun (i k : Nat) (hi : i < (names.map nameUnits).length) (hk : k < (names.map nameUnits).length) (hik : i < k) =>
    List.pairwise_iff_getElem.mp hasc i k hi hk hik
  have hfind : ∀ fuel, find ((es.take 4).map toDir) (nameUnits names[j]) fuel 2 = none := by
    intro fuel
    have hnj : (names.map nameUnits)[j]'(by simpa using hj') = nameUnits names[j] := by simp
    cases fuel with
    | zero => rfl
    | succ fuel =>
      obtain ⟨e2, he2, hn2, _, hr2⟩ := L.ent 1 (by omega)
      have hlt := hpw 1 j (by omega) (by simpa using hj') (by omega)
      rw [hnj] at hlt
      rw [find, if_neg (by decide), hget 2 (by omega), he2, Option.bind_some, hn2, nameLt_asymm hlt, hlt, hr2]
      simp only [Bool.false_eq_true, if_false, if_true]
      rw [if_pos (by omega)]
      cases fuel with
      | zero => rfl
      | succ fuel =>
        obtain ⟨e3, he3, hn3, _, hr3⟩ := L.ent 2 (by omega)
        have hlt := hpw 2 j (by omega) (by simpa using hj') (by omega)
        rw [hnj] at hlt
        rw [find, if_neg (by decide), hget 3 (by omega), he3, Option.bind_some, hn3, nameLt_asymm hlt, hlt, hr3]
        simp only [Bool.false_eq_true, if_false, if_true]
        rw [if_pos (by omega)]
        cases fuel with
        | zero => rfl
        | succ fuel =>
          rw [find, if_neg (by decide)]
          have : ((es.take 4).map toDir)[2 + 2]? = none := by simp; omega
          rw [this]; rfl
  rw [hnl2, if_neg (by omega), if_neg (by omega)] at hc
  simp only [readStream, Setup.headerOk_image, if_true, S.fat_eq, Option.bind_some, hdir, hget 0 (by omega), hr, hrt,
    hc, hfind, Option.bind_none]

/-! ### C39 -/

/-- C39: a file that cannot be opened is reported. -/
theorem c39_open_failure (files : List File) (names : List Bytes) (R : RootStreams files names) (room : Nat) :
    ∃ s, save files false room = some (s, -1) := by
  have hadd : addFiles Fs.init files = .ok (flatFs (named files names)) := by
    have := addFiles_flat files names [] R.paths (by simpa using R.nodup)
    simpa [init_flat] using this
  simp [save, hadd, saveFile]

theorem headBytes_length {b : Blocks} {root : Entry} {nodes : List Entry} (S : Setup b root nodes) :
    (headBytes b (secs nodes).sum ++ dataBytes nodes).length = 512 * (1 + b.msatCount + (secs nodes).sum) := by
  simp only [headBytes, List.length_append, hdrFixed_length, w32_length, S.hdrIds_length, S.xWords_length,
    dataBytes_length _ S.good]
  omega

/-- C39, exactly: a save that hits the end of the medium after `room` bytes stores the first `room` bytes
    of the file, and it reports an error if and only if the header, extra lists and stream data did not
    fit. -/
theorem c39_reported_iff {files : List File} {names : List Bytes} (R : RootStreams files names) :
    ∃ f D B X, CompleteFile files f ∧ StreamSectors files D ∧ XbatFor B X ∧ Enough D B X ∧
      f.length = 512 * (1 + X + D + B) + 128 * (files.length + 1) ∧
      ∀ room, ∃ s code, save files true room = some (s, code) ∧ s.out = f.take room ∧
        (code = 0 ∨ code = -1) ∧ (code = -1 ↔ room < 512 * (1 + X + D)) := by
  obtain ⟨b, S, hs⟩ := save_core R
  obtain ⟨h1, h2, _⟩ := c08_minimal _ b S.bat
  refine ⟨_, _, b.batCount, b.msatCount, complete_image hs, streamSectors R, h1, h2, ?_, ?_⟩
  · rw [S.image_length, nodesOf_length R]
  · intro room
    refine ⟨_, _, hs room, ?_, ?_, ?_⟩
    · simp only [Sink.put, Bool.false_eq_true, if_false]
      split
      · rename_i h; simp [List.take_of_length_le h]
      · simp
    · split <;> simp
    · have hl := headBytes_length S
      simp only [Sink.put, Bool.false_eq_true, if_false]
      by_cases h : (headBytes b (secs (nodesOf files names)).sum ++ dataBytes (nodesOf files names)).length ≤ room
      · rw [if_pos h]; simp; omega
      · rw [if_neg h]; simp; omega

/-- C39 as stated would be: every save whose file is incomplete reports an error.  The code does that only
    while the failure happens before the end of the stream data. -/
theorem c39_data_failure_partial {files : List File} {names : List Bytes} (R : RootStreams files names) :
    ∃ D X, StreamSectors files D ∧ (∃ B, XbatFor B X ∧ Enough D B X) ∧
      ∀ room < 512 * (1 + X + D), ∃ s, save files true room = some (s, -1) := by
  obtain ⟨f, D, B, X, _, hD, hX, hE, _, h⟩ := c39_reported_iff R
  refine ⟨D, X, hD, ⟨B, hX, hE⟩, fun room hr => ?_⟩
  obtain ⟨s, c, h1, _, _, h4⟩ := h room
  rw [h4.mpr hr] at h1
  exact ⟨s, h1⟩

/-- C39 is false: for every set of streams there is an amount of space with which the save leaves a
    truncated file and still returns success. -/
theorem c39_late_failure_unreported {files : List File} {names : List Bytes} (R : RootStreams files names) :
    ∃ f room s, CompleteFile files f ∧ save files true room = some (s, 0) ∧ s.out = f.take room ∧ s.out ≠ f := by
  obtain ⟨f, D, B, X, hf, hD, hX, hE, hlen, h⟩ := c39_reported_iff R
  obtain ⟨s, c, h1, h2, h3, h4⟩ := h (512 * (1 + X + D))
  have hc : c = 0 := by
    rcases h3 with h3 | h3
    · exact h3
    · have := h4.mp h3; omega
  subst hc
  refine ⟨f, _, s, hf, h1, h2, ?_⟩
  intro he
  rw [h2] at he
  have := congrArg List.length he
  rw [List.length_take, hlen] at this
  unfold Enough at hE
  omega

-- the hypotheses are met by any workbook, e.g. one with these stream contents
example : ∃ names, RootStreams (workbookFiles [[9, 8, 4, 0]] [[1]] []) names :=
  ⟨_, workbook_root _ _ _ (by decide)⟩

-- ... and by five streams "a" to "e", in directory order
example : RootStreams [⟨[0x61], []⟩, ⟨[0x62], [[1]]⟩, ⟨[0x63], []⟩, ⟨[0x64], []⟩, ⟨[0x2F, 0x65], []⟩]
    [[0x61], [0x62], [0x63], [0x64], [0x65]] ∧ Ascending [[0x61], [0x62], [0x63], [0x64], [0x65]] :=
  ⟨⟨by decide, by decide, by decide, by decide, by simp⟩, by unfold Ascending; decide⟩

-- ... and, in the wrong order, by "b", "a"
example : RootStreams [⟨[0x62], [[1]]⟩, ⟨[0x61], []⟩] [[0x62], [0x61]] ∧
    nameLt (nameUnits [0x61]) (nameUnits [0x62]) = true :=
  ⟨⟨by decide, by decide, by decide, by decide, by simp⟩, by decide⟩

end Xls.Ole
