import Verif.Hpsf.Lemmas
import Verif.Ole.Props
/-
Property theorems about document properties: C32 (they read back), C33 (what happens when they do not fit),
C40 (which stream holds which property).
-/
namespace Xls.Hpsf
open Xls.Unit Xls.Cells Xls.Spec Xls.Spec.PropSet

/-! ### One stream -/

theorem holds_stream_length (dt : DocType) (l : List Item) :
    (headBytes dt ++ (leN 4 48 ++ sectionBytes l)).length = need l := by
  simp only [List.length_append, headBytes_length, leN_length, sectionBytes_length, need]
  omega

theorem build_fits (dt : DocType) (l : List Item) (h : need l ≤ 4096) :
    ∃ u, build dt l = some u ∧
      contents u = some (headBytes dt ++ (leN 4 48 ++ sectionBytes l) ++ List.replicate (4096 - need l) 0) := by
  obtain ⟨s, hs, hm, hb⟩ := build_eq dt l (by omega)
  have hlen := holds_stream_length dt l
  have hn : sub64 summarySize (need l) = 4096 - need l := by
    unfold sub64 summarySize
    omega
  obtain ⟨s', e, h'⟩ := addRoomed_holds (new := List.replicate (4096 - need l) 0) (room := 4096 - need l) hs
    (by rw [List.length_replicate]; omega) (by rw [List.length_replicate, hlen]; omega)
  refine ⟨some s', ?_, h'.contents⟩
  rw [hb, hn, ← e]
  unfold addFixed64 addRoomed
  have hw : (4096 - need l + s.dataSize) % 2 ^ 64 = 4096 - need l + s.dataSize := by
    rw [hs.size, hlen]; omega
  simp only [Option.bind_some, hw, List.length_replicate]

theorem pokeSeq_out (m : Mem) (i n : Nat) (v : UInt8) (hi : m.length ≤ i) (hn : 0 < n) :
    pokeSeq m i (List.replicate n v) = none := by
  obtain ⟨k, rfl⟩ : ∃ k, n = k + 1 := ⟨n - 1, by omega⟩
  rw [List.replicate_succ, pokeSeq, poke, if_neg (by omega)]
  rfl

theorem build_overflow (dt : DocType) (l : List Item) (h : 4096 < need l) (h29 : need l < 2 ^ 29) : build dt l = none := by
  obtain ⟨s, hs, hm, hb⟩ := build_eq dt l h29
  have hlen := holds_stream_length dt l
  obtain ⟨N, hn, hN, hw⟩ : ∃ N, sub64 summarySize (need l) = N ∧ 2 ^ 63 < N ∧ (N + need l) % 2 ^ 64 = 4096 :=
    ⟨_, rfl, by unfold sub64 summarySize; omega, by unfold sub64 summarySize; omega⟩
  have hsz : s.dataSize = need l := by rw [hs.size, hlen]
  have hfit := hs.fits
  rw [hlen] at hfit
  have hal := hs.alloc
  rw [hb, hn]
  unfold addFixed64
  simp only [Option.bind_some, hsz]
  rw [if_pos (by omega)]
  rw [hw]
  have hv : s.varying = true := by
    cases hv : s.varying with
    | true => rfl
    | false => rw [Store.getSize, hv] at hal; simp [fixedWidth] at hal; omega
  have hr : s.resize 4096 = some { s with mem := regrow s.mem s.mem.length 4096 } := by
    unfold Store.resize
    rw [hv, if_neg (by simp), if_pos (by omega)]
  rw [hr]
  simp only [Option.bind_some, hsz]
  rw [pokeSeq_out _ _ _ _ (by rw [regrow_length _ _ _ (Nat.le_refl _)]; omega) (by omega)]
  rfl

/-! ### What is stored -/

theorem place_lt (k : Nat) (d : Bool) (id : Nat) (h : place k = some (d, id)) : k < 11 ∧ 0 < k ∧ id < 65536 := by
  unfold place at h
  split at h <;> simp at h <;> omega

theorem place_inj (k k' : Nat) (x : Bool × Nat) (h : place k = some x) (h' : place k' = some x) : k = k' := by
  obtain ⟨d, id⟩ := x
  unfold place at h h'
  split at h <;> split at h' <;> simp at h h' <;> first | rfl | (exfalso; obtain ⟨a, b⟩ := h; obtain ⟨c, e⟩ := h'; subst a; subst b; simp at c e)

/-- `workbook::property` does what the format says. -/
theorem set_eq (p : Props) (k : Nat) (c : Bytes) : p.set k c =
    match place k with
    | some (false, id) => (addItem p.summary id (.str c)).map fun l => ({ p with summary := l }, true)
    | some (true, id) => (addItem p.doc id (.str c)).map fun l => ({ p with doc := l }, true)
    | none => some (p, false) := by
  by_cases h : k ≥ 11
  · have hp : place k = none := by
      cases hp : place k with
      | none => rfl
      | some x => have := place_lt k x.1 x.2 hp; omega
    rw [hp]
    unfold Props.set propLast
    rw [if_pos h]
  · match k, h with
    | 0, _ => rfl
    | 1, _ => rfl
    | 2, _ => rfl
    | 3, _ => rfl
    | 4, _ => rfl
    | 5, _ => rfl
    | 6, _ => rfl
    | 7, _ => rfl
    | 8, _ => rfl
    | 9, _ => rfl
    | 10, _ => rfl
    | k + 11, h => omega

/-- The last content for the property at this place. -/
def lastAt (x : Bool × Nat) : List (Nat × Bytes) → Option Bytes
  | [] => none
  | (k, c) :: r => (lastAt x r).or (if place k = some x then some c else none)

theorem lastAt_eq (x : Bool × Nat) (k : Nat) (h : place k = some x) (calls : List (Nat × Bytes)) :
    lastAt x calls = lastSet k calls := by
  induction calls with
  | nil => rfl
  | cons y r ih =>
    rw [lastAt, lastSet, ih]
    by_cases hk : y.1 = k
    · rw [if_pos hk, if_pos (by rw [hk, h])]
    · rw [if_neg hk, if_neg (fun h' => hk (place_inj _ _ _ h' h))]

theorem lastAt_none (x : Bool × Nat) (h : ∀ k, place k ≠ some x) (calls : List (Nat × Bytes)) : lastAt x calls = none := by
  induction calls with
  | nil => rfl
  | cons y r ih => rw [lastAt, ih, if_neg (h _)]; rfl

/-- Both lists are sorted by identifier. -/
structure Good (p : Props) : Prop where
  summary : Ordered Item.key p.summary
  doc : Ordered Item.key p.doc

/-- After some calls: the last content where there was a call, the old item otherwise. -/
def After (old new : List Item) (d : Bool) (calls : List (Nat × Bytes)) : Prop :=
  ∀ y : Item, y ∈ new ↔ match lastAt (d, y.id) calls with | some c => y.val = .str c | none => y ∈ old

theorem set_spec (p : Props) (hp : Good p) (k : Nat) (c : Bytes) :
    ∃ q, p.set k c = some (q, (place k).isSome) ∧ Good q ∧ After p.summary q.summary false [(k, c)] ∧
      After p.doc q.doc true [(k, c)] ∧ (place k = none → q = p) := by
  rw [set_eq]
  have same : ∀ (d : Bool) (l : List Item), (∀ id, place k ≠ some (d, id)) → After l l d [(k, c)] := by
    intro d l h y
    simp [lastAt, h]
  cases h : place k with
  | none =>
    exact ⟨p, rfl, hp, same _ _ (by simp [h]), same _ _ (by simp [h]), fun _ => rfl⟩
  | some x =>
    obtain ⟨d, id⟩ := x
    have hid := (place_lt k d id h).2.2
    have key : ∀ (l l' : List Item), (∀ y, y ∈ l' ↔ y = ⟨id, .str c⟩ ∨ (y ∈ l ∧ y.id ≠ id)) → After l l' d [(k, c)] := by
      intro l l' hm y
      rw [hm]
      simp only [lastAt, Option.none_or, h]
      by_cases hy : y.id = id
      · rw [hy, if_pos rfl]
        simp only [ne_eq, not_true_eq_false, and_false, or_false]
        constructor
        · rintro rfl; rfl
        · intro hv
          cases y
          simp_all
      · rw [if_neg (by simp; exact fun h' => hy h'.symm)]
        constructor
        · rintro (rfl | h')
          · exact absurd rfl hy
          · exact h'.1
        · exact fun h' => .inr ⟨h', hy⟩
    cases d with
    | false =>
      obtain ⟨l', e, ho, hm⟩ := addItem_spec hp.summary id (.str c) hid
      refine ⟨{ p with summary := l' }, by simp [e], ⟨ho, hp.doc⟩, key _ _ hm, same _ _ (by simp [h]), by simp⟩
    | true =>
      obtain ⟨l', e, ho, hm⟩ := addItem_spec hp.doc id (.str c) hid
      refine ⟨{ p with doc := l' }, by simp [e], ⟨hp.summary, ho⟩, same _ _ (by simp [h]), key _ _ hm, by simp⟩

theorem after_trans {a b c : List Item} {d : Bool} {x : Nat × Bytes} {calls : List (Nat × Bytes)}
    (h1 : After a b d [x]) (h2 : After b c d calls) : After a c d (x :: calls) := by
  intro y
  rw [h2 y, lastAt]
  cases hl : lastAt (d, y.id) calls with
  | some w => simp
  | none =>
    have := h1 y
    simp only [lastAt, Option.none_or] at this
    simp only [Option.none_or]
    exact this

theorem run_spec (calls : List (Nat × Bytes)) (p : Props) (hp : Good p) :
    ∃ q, p.run calls = some q ∧ Good q ∧ After p.summary q.summary false calls ∧ After p.doc q.doc true calls := by
  induction calls generalizing p with
  | nil => exact ⟨p, rfl, hp, fun y => by simp [lastAt], fun y => by simp [lastAt]⟩
  | cons x r ih =>
    obtain ⟨q, e, hq, h1, h2, _⟩ := set_spec p hp x.1 x.2
    obtain ⟨q', e', hq', h3, h4⟩ := ih q hq
    exact ⟨q', by rw [Props.run, e]; exact e', hq', after_trans h1 h3, after_trans h2 h4⟩

/-! ### From items to what the reader finds -/

theorem found_ids (l : List Item) (off : Nat) : (found off l).map (·.id) = l.map (·.id) := by
  induction l generalizing off with
  | nil => rfl
  | cons i r ih => simp [found, ih]

theorem valueOf_found (l : List Item) (off id : Nat) :
    valueOf id (found off l) = (l.find? (·.id == id)).map (fun i => toValue i.val) := by
  induction l generalizing off with
  | nil => rfl
  | cons i r ih =>
    have := ih (off + i.val.size)
    unfold valueOf at this ⊢
    simp only [found, List.find?]
    cases h : i.id == id with
    | true => rfl
    | false => simpa using this

theorem find_mem {l : List Item} (hl : Ordered Item.key l) {y : Item} (hy : y ∈ l) : l.find? (·.id == y.id) = some y := by
  cases h : l.find? (·.id == y.id) with
  | none =>
    have := List.find?_eq_none.mp h y hy
    simp at this
  | some z =>
    have h1 := List.mem_of_find?_eq_some h
    have h2 := List.find?_some h
    simp only [beq_iff_eq] at h2
    rw [ordered_unique hl h1 hy (by simp [Item.key, h2])]

theorem ids_increase {l : List Item} (hl : Ordered Item.key l) : (l.map (·.id)).Pairwise (· < ·) := by
  rw [List.pairwise_map]
  refine List.Pairwise.imp (fun h => ?_) hl
  have := (klt_iff _ _).mp h
  simp only [Item.key] at this
  omega

/-- C32 (one stream): a list of properties that fits gives a stream of exactly 4096 bytes from which the reader gets the
    format identifier and exactly those properties, whatever follows it. -/
theorem stream_reads (dt : DocType) (l : List Item) (hid : ∀ i ∈ l, i.id < 65536) (hok : ∀ i ∈ l, i.val.Ok) (h : need l ≤ 4096) :
    ∃ u bs, build dt l = some u ∧ contents u = some bs ∧ bs.length = 4096 ∧
      ∀ rest, PropSet.read (bs ++ rest) = some (fmtid dt, found (8 + l.length * 8) l) := by
  obtain ⟨u, e, hc⟩ := build_fits dt l h
  refine ⟨u, _, e, hc, ?_, fun rest => ?_⟩
  · rw [List.length_append, holds_stream_length, List.length_replicate]; omega
  · rw [List.append_assoc]
    exact read_stream dt l _ (fun i hi => by have := hid i hi; omega) hok (by omega)

/-! ### A new workbook -/

/-- The properties a new workbook has in the summary stream: code page, creation and modification time, security flags and the
    application name. -/
def initSummary (time : Nat) (pkg : Bytes) : List Item :=
  [⟨1, .i16 1200⟩, ⟨12, .i64 (unix2mstime time)⟩, ⟨13, .i64 (unix2mstime time)⟩, ⟨18, .str pkg⟩, ⟨19, .i32 0⟩]

theorem init_eq (time : Nat) (pkg : Bytes) : Props.init time pkg = some ⟨initSummary time pkg, [⟨1, .i16 1200⟩]⟩ := rfl

theorem init_good (time : Nat) (pkg : Bytes) : Good ⟨initSummary time pkg, [⟨1, .i16 1200⟩]⟩ := by
  refine ⟨?_, ?_⟩
  · simp [Ordered, initSummary, Item.key, klt]
  · simp [Ordered]

theorem mem_ok {l : List Item} {i : Item} (hi : i ∈ l) (h : need l ≤ 4096) : i.val.size ≤ 4096 := by
  have : i.val.size ≤ (l.map (·.val.size)).sum := by
    clear h
    induction l with
    | nil => simp at hi
    | cons j r ih =>
      rcases List.mem_cons.mp hi with rfl | hi
      · simp
      · have := ih hi
        simp only [List.map_cons, List.sum_cons]
        omega
  unfold need at h
  omega

/-- The value of a kind of property that a user set, or the application name given at build time. -/
def expected (pkg : Bytes) (calls : List (Nat × Bytes)) (kind : Nat) : Option Bytes :=
  (lastSet kind calls).or (if kind = 5 then some pkg else none)

theorem time_eq (t : Nat) (h : t ≤ 1000000000000) : unix2mstime t = (t + 11644473600) * 10000000 := by
  unfold unix2mstime
  omega

theorem place_false (id : Nat) (h : id ∈ [1, 12, 13, 19]) (k : Nat) : place k ≠ some (false, id) := by
  intro hp
  unfold place at hp
  split at hp <;> simp at hp <;> subst hp <;> simp at h

theorem place_true_one (k : Nat) : place k ≠ some (true, 1) := by
  intro hp
  unfold place at hp
  split at hp <;> simp at hp

/-- C32: document properties read back.  From a new workbook, after any sequence of settings that fits: both summary streams are
    exactly 4096 bytes; a property-set reader accepts them (also with padding behind them) under the right format
    identifier; identifiers are distinct; every kind of property has the content of the last call that set it and none if
    there was no call; the creation and modification times are the build time as a FILETIME. -/
theorem c32_read_back (time : Nat) (htime : time ≤ 1000000000000) (pkg : Bytes) (calls : List (Nat × Bytes)) :
    ∃ p0 p, Props.init time pkg = some p0 ∧ p0.run calls = some p ∧
      (need p.summary ≤ 4096 → need p.doc ≤ 4096 → ∃ us ud bs bd S D,
        build .summary p.summary = some us ∧ contents us = some bs ∧ bs.length = 4096 ∧
        build .docSummary p.doc = some ud ∧ contents ud = some bd ∧ bd.length = 4096 ∧
        (∀ rest, PropSet.read (bs ++ rest) = some (fmtidSummary, S)) ∧
        (∀ rest, PropSet.read (bd ++ rest) = some (fmtidDocSummary, D)) ∧
        (S.map (·.id)).Pairwise (· < ·) ∧ (D.map (·.id)).Pairwise (· < ·) ∧
        (∀ kind d id, place kind = some (d, id) →
          valueOf id (if d then D else S) = (expected pkg calls kind).map .lpstr) ∧
        valueOf 12 S = some (.filetime ((time + 11644473600) * 10000000)) ∧
        valueOf 13 S = some (.filetime ((time + 11644473600) * 10000000)) ∧
        (∀ f ∈ S, f.id ∈ [1, 12, 13, 19] ∨ ∃ kind, place kind = some (false, f.id)) ∧
        (∀ f ∈ D, f.id = 1 ∨ ∃ kind, place kind = some (true, f.id))) := by
  obtain ⟨p, e, hg, hS, hD⟩ := run_spec calls _ (init_good time pkg)
  refine ⟨_, p, init_eq time pkg, e, fun hs hd => ?_⟩
  -- every item is a setting or an initial one
  have memS : ∀ y ∈ p.summary, (∃ c kind, y.val = .str c ∧ place kind = some (false, y.id)) ∨ y ∈ initSummary time pkg := by
    intro y hy
    have := (hS y).mp hy
    cases hl : lastAt (false, y.id) calls with
    | none => rw [hl] at this; exact .inr this
    | some c =>
      rw [hl] at this
      refine .inl ⟨c, ?_⟩
      refine Classical.byContradiction fun hno => ?_
      rw [lastAt_none _ (fun k hk => hno ⟨k, this, hk⟩)] at hl
      simp at hl
  have memD : ∀ y ∈ p.doc, (∃ c kind, y.val = .str c ∧ place kind = some (true, y.id)) ∨ y = ⟨1, .i16 1200⟩ := by
    intro y hy
    have := (hD y).mp hy
    cases hl : lastAt (true, y.id) calls with
    | none => rw [hl] at this; exact .inr (by simpa using this)
    | some c =>
      rw [hl] at this
      refine .inl ⟨c, ?_⟩
      refine Classical.byContradiction fun hno => ?_
      rw [lastAt_none _ (fun k hk => hno ⟨k, this, hk⟩)] at hl
      simp at hl
  have strOk : ∀ (l : List Item) (y : Item), y ∈ l → need l ≤ 4096 → (∃ c, y.val = .str c) → y.val.Ok := by
    intro l y hy hn ⟨c, hc⟩
    have := mem_ok hy hn
    rw [hc] at this ⊢
    simp only [Val.size] at this
    show c.length + 1 < 2 ^ 32
    omega
  have hms : unix2mstime time < 2 ^ 64 := Nat.mod_lt _ (by decide)
  have okS : ∀ i ∈ p.summary, i.val.Ok := by
    intro i hi
    rcases memS i hi with ⟨c, k, hc, _⟩ | hi'
    · exact strOk _ i hi hs ⟨c, hc⟩
    · simp only [initSummary, List.mem_cons, List.not_mem_nil, or_false] at hi'
      rcases hi' with h | h | h | h | h <;> subst h
      · show 1200 < 2 ^ 16; decide
      · exact hms
      · exact hms
      · exact strOk _ _ hi hs ⟨_, rfl⟩
      · show 0 < 2 ^ 32; decide
  have okD : ∀ i ∈ p.doc, i.val.Ok := by
    intro i hi
    rcases memD i hi with ⟨c, k, hc, _⟩ | hi'
    · exact strOk _ i hi hd ⟨c, hc⟩
    · subst hi'; show 1200 < 2 ^ 16; decide
  have idS : ∀ i ∈ p.summary, i.id < 65536 := by
    intro i hi
    rcases memS i hi with ⟨c, k, _, hk⟩ | hi'
    · exact (place_lt _ _ _ hk).2.2
    · simp only [initSummary, List.mem_cons, List.not_mem_nil, or_false] at hi'
      rcases hi' with h | h | h | h | h <;> subst h <;> simp
  have idD : ∀ i ∈ p.doc, i.id < 65536 := by
    intro i hi
    rcases memD i hi with ⟨c, k, _, hk⟩ | hi'
    · exact (place_lt _ _ _ hk).2.2
    · subst hi'; decide
  obtain ⟨us, bs, e1, e2, e3, e4⟩ := stream_reads .summary p.summary idS okS hs
  obtain ⟨ud, bd, f1, f2, f3, f4⟩ := stream_reads .docSummary p.doc idD okD hd
  have constS : ∀ id v, id ∈ [1, 12, 13, 19] → (⟨id, v⟩ : Item) ∈ initSummary time pkg →
      valueOf id (found (8 + p.summary.length * 8) p.summary) = some (toValue v) := by
    intro id v hid hv
    have : (⟨id, v⟩ : Item) ∈ p.summary := by
      rw [hS, lastAt_none _ (place_false id hid)]
      exact hv
    rw [valueOf_found, find_mem hg.summary this]
    rfl
  -- the value found for a setting, in either list
  have val : ∀ (l : List Item) (old : List Item) (d : Bool) (id kind off : Nat), Ordered Item.key l → After old l d calls →
      place kind = some (d, id) → (∀ c, (⟨id, .str c⟩ : Item) ∈ old ↔ (kind = 5 ∧ c = pkg)) →
      (∀ y ∈ old, y.id = id → ∃ c, y.val = .str c) →
      valueOf id (found off l) = (expected pkg calls kind).map .lpstr := by
    intro l old d id kind off ho ha hk hc hstr
    rw [valueOf_found]
    have hla := lastAt_eq (d, id) kind hk calls
    unfold expected
    cases hl : lastSet kind calls with
    | some c =>
      have : (⟨id, .str c⟩ : Item) ∈ l := by rw [ha]; simp only; rw [hla, hl]
      rw [find_mem ho this]
      rfl
    | none =>
      by_cases h5 : kind = 5
      · have : (⟨id, .str pkg⟩ : Item) ∈ l := by
          rw [ha]; simp only; rw [hla, hl]; exact (hc pkg).mpr ⟨h5, rfl⟩
        rw [find_mem ho this, if_pos h5]
        rfl
      · rw [if_neg h5]
        cases hf : l.find? (·.id == id) with
        | none => rfl
        | some y =>
          exfalso
          have hy := List.mem_of_find?_eq_some hf
          have hyi := List.find?_some hf
          simp only [beq_iff_eq] at hyi
          rw [ha, hyi, hla, hl] at hy
          obtain ⟨c, hyc⟩ := hstr y hy hyi
          have : y = ⟨id, .str c⟩ := by cases y; simp_all
          rw [this] at hy
          exact h5 ((hc c).mp hy).1
  refine ⟨us, ud, bs, bd, _, _, e1, e2, e3, f1, f2, f3, e4, f4, ?_, ?_, ?_, ?_, ?_, ?_, ?_⟩
  · rw [found_ids]; exact ids_increase hg.summary
  · rw [found_ids]; exact ids_increase hg.doc
  · intro kind d id hk
    cases d with
    | false =>
      refine val p.summary _ false id kind _ hg.summary hS hk ?_ ?_
      · intro c
        simp only [initSummary, List.mem_cons, List.not_mem_nil, or_false, Item.mk.injEq]
        constructor
        · rintro (⟨_, h⟩ | ⟨_, h⟩ | ⟨_, h⟩ | ⟨h1, h⟩ | ⟨_, h⟩) <;> simp at h
          subst h h1
          exact ⟨place_inj kind 5 _ hk rfl, rfl⟩
        · rintro ⟨rfl, rfl⟩
          have : id = 18 := by simp [place] at hk; exact hk.symm
          simp [this]
      · intro y hy hyi
        simp only [initSummary, List.mem_cons, List.not_mem_nil, or_false] at hy
        rcases hy with h | h | h | h | h <;> subst h
        · exact absurd hk (hyi ▸ place_false 1 (by simp) kind)
        · exact absurd hk (hyi ▸ place_false 12 (by simp) kind)
        · exact absurd hk (hyi ▸ place_false 13 (by simp) kind)
        · exact ⟨_, rfl⟩
        · exact absurd hk (hyi ▸ place_false 19 (by simp) kind)
    | true =>
      refine val p.doc _ true id kind _ hg.doc hD hk ?_ ?_
      · intro c
        simp only [List.mem_cons, List.not_mem_nil, or_false, Item.mk.injEq]
        constructor
        · rintro ⟨_, h⟩; simp at h
        · rintro ⟨rfl, _⟩; simp [place] at hk
      · intro y hy hyi
        simp only [List.mem_cons, List.not_mem_nil, or_false] at hy
        subst hy
        exact absurd hk (hyi ▸ place_true_one kind)
  · rw [constS 12 (.i64 (unix2mstime time)) (by simp) (by simp [initSummary]), time_eq time htime]; rfl
  · rw [constS 13 (.i64 (unix2mstime time)) (by simp) (by simp [initSummary]), time_eq time htime]; rfl
  · intro f hf
    have : f.id ∈ (found (8 + p.summary.length * 8) p.summary).map (·.id) := List.mem_map_of_mem hf
    rw [found_ids] at this
    obtain ⟨y, hy, hyi⟩ := List.mem_map.mp this
    rw [← hyi]
    rcases memS y hy with ⟨c, k, _, hk⟩ | hy
    · exact .inr ⟨k, hk⟩
    · simp only [initSummary, List.mem_cons, List.not_mem_nil, or_false] at hy
      rcases hy with h | h | h | h | h <;> subst h
      · simp
      · simp
      · simp
      · exact .inr ⟨5, rfl⟩
      · simp
  · intro f hf
    have : f.id ∈ (found (8 + p.doc.length * 8) p.doc).map (·.id) := List.mem_map_of_mem hf
    rw [found_ids] at this
    obtain ⟨y, hy, hyi⟩ := List.mem_map.mp this
    rw [← hyi]
    rcases memD y hy with ⟨c, k, _, hk⟩ | hy
    · exact .inr ⟨k, hk⟩
    · subst hy; simp


/-! ### C33 -/

theorem pigeon (L l : List Nat) (hl : l.Pairwise (· < ·)) (h : ∀ x ∈ l, x ∈ L) : l.length ≤ L.length := by
  induction l generalizing L with
  | nil => simp
  | cons a r ih =>
    obtain ⟨h1, h2⟩ := List.pairwise_cons.mp hl
    have ha := h a (by simp)
    have := ih (L.erase a) h2 (fun x hx => by
      rw [List.mem_erase_of_ne (by have := h1 x hx; omega)]
      exact h x (by simp [hx]))
    rw [List.length_erase_of_mem ha] at this
    have : 0 < L.length := List.length_pos_of_mem ha
    simp only [List.length_cons]
    omega

theorem sum_le (l : List Item) (B : Nat) (h : ∀ i ∈ l, i.val.size ≤ B) : (l.map (·.val.size)).sum ≤ l.length * B := by
  induction l with
  | nil => simp
  | cons i r ih =>
    have h1 := h i (by simp)
    have h2 := ih (fun x hx => h x (by simp [hx]))
    simp only [List.map_cons, List.sum_cons, List.length_cons, Nat.add_mul]
    omega

theorem lastAt_mem (x : Bool × Nat) (calls : List (Nat × Bytes)) (c : Bytes) (h : lastAt x calls = some c) :
    ∃ k, (k, c) ∈ calls ∧ place k = some x := by
  induction calls with
  | nil => simp [lastAt] at h
  | cons y r ih =>
    rw [lastAt] at h
    cases hl : lastAt x r with
    | some w =>
      rw [hl] at h
      simp only [Option.some_or, Option.some.injEq] at h
      subst h
      obtain ⟨k, h1, h2⟩ := ih hl
      exact ⟨k, by simp [h1], h2⟩
    | none =>
      rw [hl] at h
      simp only [Option.none_or] at h
      by_cases hp : place y.1 = some x
      · rw [if_pos hp] at h
        injection h with h
        subst h
        exact ⟨y.1, by simp, hp⟩
      · rw [if_neg hp] at h
        simp at h

/-- C33, the part that holds: after settings of at most 340 bytes each, however many, both streams are built, with exactly 4096
    bytes.  Full statement: no sequence of settings corrupts memory; that is false, see `c33_overflow`. -/
theorem c33_short_partial (time : Nat) (pkg : Bytes) (calls : List (Nat × Bytes)) (hpkg : pkg.length ≤ 340)
    (hc : ∀ x ∈ calls, x.2.length ≤ 340) (p0 p : Props) (h0 : Props.init time pkg = some p0) (h : p0.run calls = some p) :
    (∃ u bs, build .summary p.summary = some u ∧ contents u = some bs ∧ bs.length = 4096) ∧
    (∃ u bs, build .docSummary p.doc = some u ∧ contents u = some bs ∧ bs.length = 4096) := by
  obtain ⟨p', e, hg, hS, hD⟩ := run_spec calls _ (init_good time pkg)
  rw [init_eq] at h0
  injection h0 with h0
  rw [← h0, e] at h
  injection h with h
  subst h
  have strSize : ∀ c : Bytes, c.length ≤ 340 → (Val.str c).size ≤ 352 := by
    intro c hc'
    simp only [Val.size]
    omega
  have hstr : ∀ (x : Bool × Nat) (c : Bytes), lastAt x calls = some c → (Val.str c).size ≤ 352 ∧ ∃ k, place k = some x := by
    intro x c hx
    obtain ⟨k, h1, h2⟩ := lastAt_mem x calls c hx
    exact ⟨strSize c (hc _ h1), k, h2⟩
  have fin : ∀ (dt : DocType) (l : List Item), need l ≤ 4096 → ∃ u bs, build dt l = some u ∧ contents u = some bs ∧ bs.length = 4096 := by
    intro dt l hn
    obtain ⟨u, e1, e2⟩ := build_fits dt l hn
    refine ⟨u, _, e1, e2, ?_⟩
    rw [List.length_append, holds_stream_length, List.length_replicate]; omega
  have bound : ∀ (l : List Item) (L : List Nat), L.length ≤ 11 → Ordered Item.key l →
      (∀ i ∈ l, i.val.size ≤ 352 ∧ i.id ∈ L) → need l ≤ 4096 := by
    intro l L hL ho hi
    have h1 := pigeon L (l.map (·.id)) (ids_increase ho) (fun x hx => by
      obtain ⟨i, hi', rfl⟩ := List.mem_map.mp hx
      exact (hi i hi').2)
    have h2 := sum_le l 352 (fun i hi' => (hi i hi').1)
    rw [List.length_map] at h1
    unfold need
    omega
  have pl : ∀ k d id, place k = some (d, id) → id ∈ [4, 6, 18, 5, 9, 3, 2] ∨ (d = true ∧ id ∈ [2, 15, 14]) := by
    intro k d id hk
    unfold place at hk
    split at hk <;> simp at hk <;> obtain ⟨rfl, rfl⟩ := hk <;> simp
  refine ⟨fin _ _ (bound _ [1, 12, 13, 19, 4, 6, 18, 5, 9, 3, 2] (by simp) hg.summary fun i hi => ?_),
    fin _ _ (bound _ [1, 2, 15, 14, 4, 6, 18, 5, 9, 3] (by simp) hg.doc fun i hi => ?_)⟩
  · have := (hS i).mp hi
    cases hl : lastAt (false, i.id) calls with
    | some c =>
      rw [hl] at this
      simp only at this
      obtain ⟨h1, k, hk⟩ := hstr _ c hl
      refine ⟨this ▸ h1, ?_⟩
      rcases pl k _ _ hk with h | ⟨h, _⟩
      · simp only [List.mem_cons, List.not_mem_nil, or_false] at h ⊢
        omega
      · simp at h
    | none =>
      rw [hl] at this
      simp only [initSummary, List.mem_cons, List.not_mem_nil, or_false] at this
      rcases this with h | h | h | h | h <;> subst h
      · simp [Val.size]
      · simp [Val.size]
      · simp [Val.size]
      · exact ⟨strSize pkg hpkg, by simp⟩
      · simp [Val.size]
  · have := (hD i).mp hi
    cases hl : lastAt (true, i.id) calls with
    | some c =>
      rw [hl] at this
      simp only at this
      obtain ⟨h1, k, hk⟩ := hstr _ c hl
      refine ⟨this ▸ h1, ?_⟩
      rcases pl k _ _ hk with h | ⟨_, h⟩
      · simp only [List.mem_cons, List.not_mem_nil, or_false] at h ⊢
        omega
      · simp only [List.mem_cons, List.not_mem_nil, or_false] at h ⊢
        omega
    | none =>
      rw [hl] at this
      simp only [List.mem_cons, List.not_mem_nil, or_false] at this
      subst this
      simp [Val.size]

/-- C33 fails: whenever the properties need more than 4096 bytes, building the stream leaves the allocated memory.  The number
    of padding bytes is an unsigned difference that wraps; the buffer is then cut to 4096 bytes and written behind its end. -/
theorem c33_overflow (dt : DocType) (l : List Item) : need l < 2 ^ 29 →
    (build dt l = none ↔ 4096 < need l) := by
  intro h29
  constructor
  · intro h
    refine Classical.byContradiction fun hn => ?_
    obtain ⟨u, e, _⟩ := build_fits dt l (by omega)
    rw [e] at h
    simp at h
  · exact fun h => build_overflow dt l h h29

/-- C33 fails, for a user: one call that sets a long title is enough. -/
theorem c33_one_call (time : Nat) (pkg c : Bytes) (hc : 3940 < c.length) (hc' : c.length + pkg.length < 2 ^ 28) :
    ∃ p0 p, Props.init time pkg = some p0 ∧ p0.set 10 c = some (p, true) ∧ build .summary p.summary = none := by
  refine ⟨_, ⟨[⟨1, .i16 1200⟩, ⟨2, .str c⟩, ⟨12, .i64 (unix2mstime time)⟩, ⟨13, .i64 (unix2mstime time)⟩, ⟨18, .str pkg⟩,
    ⟨19, .i32 0⟩], [⟨1, .i16 1200⟩]⟩, init_eq time pkg, rfl, ?_⟩
  have hn : need [⟨1, .i16 1200⟩, ⟨2, .str c⟩, ⟨12, .i64 (unix2mstime time)⟩, ⟨13, .i64 (unix2mstime time)⟩, ⟨18, .str pkg⟩,
    ⟨19, .i32 0⟩] = 144 + (Val.str c).size + (Val.str pkg).size := by
    simp [need, Val.size]
    omega
  have h1 : (Val.str c).size = (c.length + 1 + 4 + 4 - 1) / 4 * 4 + 4 := rfl
  have h2 : (Val.str pkg).size = (pkg.length + 1 + 4 + 4 - 1) / 4 * 4 + 4 := rfl
  exact build_overflow _ _ (by rw [hn, h1, h2]; omega) (by rw [hn, h1, h2]; omega)

/-! ### C40 -/

/-- C40: each kind of property is stored in exactly one of the two streams, under the identifier the format gives it, and the
    call reports success; any other kind is refused and nothing changes. -/
theorem c40_routing (time : Nat) (pkg : Bytes) (calls : List (Nat × Bytes)) (kind : Nat) (content : Bytes) (p0 p : Props)
    (h0 : Props.init time pkg = some p0) (h : p0.run calls = some p) :
    ∃ q, p.set kind content = some (q, (place kind).isSome) ∧
      match place kind with
      | none => q = p
      | some (false, id) => q.doc = p.doc ∧ ∀ y : Item, y ∈ q.summary ↔ y = ⟨id, .str content⟩ ∨ (y ∈ p.summary ∧ y.id ≠ id)
      | some (true, id) => q.summary = p.summary ∧ ∀ y : Item, y ∈ q.doc ↔ y = ⟨id, .str content⟩ ∨ (y ∈ p.doc ∧ y.id ≠ id) := by
  obtain ⟨p', e, hg, _, _⟩ := run_spec calls _ (init_good time pkg)
  rw [init_eq] at h0
  injection h0 with h0
  rw [← h0, e] at h
  injection h with h
  subst h
  rw [set_eq]
  cases hk : place kind with
  | none => exact ⟨p', rfl, rfl⟩
  | some x =>
    obtain ⟨d, id⟩ := x
    have hid := (place_lt kind d id hk).2.2
    cases d with
    | false =>
      obtain ⟨l', e', _, hm⟩ := addItem_spec hg.summary id (.str content) hid
      exact ⟨{ p' with summary := l' }, by simp [e'], rfl, hm⟩
    | true =>
      obtain ⟨l', e', _, hm⟩ := addItem_spec hg.doc id (.str content) hid
      exact ⟨{ p' with doc := l' }, by simp [e'], rfl, hm⟩

/-- C40: exactly the ten public kinds are accepted. -/
theorem c40_kinds (kind : Nat) : (place kind).isSome = true ↔ 1 ≤ kind ∧ kind ≤ 10 := by
  constructor
  · intro h
    obtain ⟨x, hx⟩ := Option.isSome_iff_exists.mp h
    have := place_lt kind x.1 x.2 hx
    omega
  · intro h
    match kind, h with
    | 1, _ | 2, _ | 3, _ | 4, _ | 5, _ | 6, _ | 7, _ | 8, _ | 9, _ | 10, _ => rfl

/-! ### Through the file -/

/-- C32: the same through the compound file: opening the saved file and reading the two summary streams gives the properties. -/
theorem c32_file (time : Nat) (pkg : Bytes) (calls : List (Nat × Bytes)) (wb : List Bytes) (htime : time ≤ 1000000000000)
    (p0 p : Props) (h0 : Props.init time pkg = some p0) (h : p0.run calls = some p)
    (hs : need p.summary ≤ 4096) (hd : need p.doc ≤ 4096) (hw : Ole.dataSize wb + 8192 < 2 ^ 31 - 12288) :
    ∃ us ud bs bd f ws wd S D, build .summary p.summary = some us ∧ contents us = some bs ∧
      build .docSummary p.doc = some ud ∧ contents ud = some bd ∧
      Ole.CompleteFile (Ole.workbookFiles wb [bs] [bd]) f ∧
      Cfb.readStream f (Ole.nameUnits Ole.workbookNames[1]) = some ws ∧ PropSet.read ws = some (fmtidSummary, S) ∧
      Cfb.readStream f (Ole.nameUnits Ole.workbookNames[2]) = some wd ∧ PropSet.read wd = some (fmtidDocSummary, D) ∧
      ∀ kind d id, place kind = some (d, id) → valueOf id (if d then D else S) = (expected pkg calls kind).map .lpstr := by
  obtain ⟨p1, p2, e1, e2, e3⟩ := c32_read_back time htime pkg calls
  rw [h0] at e1
  injection e1 with e1
  subst e1
  rw [h] at e2
  injection e2 with e2
  subst e2
  obtain ⟨us, ud, bs, bd, S, D, a1, a2, a3, b1, b2, b3, rs, rd, _, _, hv, _⟩ := e3 hs hd
  have h1 : Ole.dataSize [bs] = 4096 := by simp [Ole.dataSize, a3]
  have h2 : Ole.dataSize [bd] = 4096 := by simp [Ole.dataSize, b3]
  obtain ⟨f, k1, k2, k3, hf, _, f2, f3⟩ := Ole.c10_workbook wb [bs] [bd] (by omega)
  refine ⟨us, ud, bs, bd, f, _, _, S, D, a1, a2, b1, b2, hf, f2, ?_, f3, ?_, hv⟩
  · simp only [List.flatten_cons, List.flatten_nil, List.append_nil]
    exact rs _
  · simp only [List.flatten_cons, List.flatten_nil, List.append_nil]
    exact rd _

/-! ### The declared character set -/

/-- The reading of a counted string in a section whose code-page property is 1200 (UTF-16): the byte count is even and the
    characters are 16-bit, the last one NUL. -/
def asUtf16 (raw : Bytes) : Option (List UInt16) :=
  if raw.length % 2 = 0 then
    (readChars true (raw.length / 2) raw).bind fun (cs, _) => if cs.getLast? = some 0 then some cs.dropLast else none
  else none

theorem readChars_last (n : Nat) (raw : Bytes) (cs : List UInt16) (r : Bytes) (h : readChars true n raw = some (cs, r))
    (hlen : raw.length = 2 * n) : cs.length = n ∧ ∀ a b rest, raw = rest ++ [a, b] → cs.getLast? = some (UInt16.ofNat (a.toNat + 256 * b.toNat)) := by
  induction n generalizing raw cs r with
  | zero =>
    simp only [readChars, Option.some.injEq, Prod.mk.injEq] at h
    rw [← h.1]
    refine ⟨rfl, ?_⟩
    rintro a b rest rfl
    simp at hlen
  | succ n ih =>
    match raw, h with
    | a :: b :: raw', h =>
      simp only [readChars] at h
      obtain ⟨⟨cs', r'⟩, h1, h2⟩ := Option.map_eq_some_iff.mp h
      simp only [Prod.mk.injEq] at h2
      obtain ⟨rfl, rfl⟩ := h2
      have hl' : raw'.length = 2 * n := by simp at hlen; omega
      obtain ⟨h3, h4⟩ := ih raw' cs' r' h1 hl'
      refine ⟨by simp [h3], ?_⟩
      intro x y rest hr
      match rest, hr with
      | [], hr =>
        simp only [List.nil_append, List.cons.injEq] at hr
        obtain ⟨rfl, rfl, rfl⟩ := hr
        have : n = 0 := by simp at hl'; omega
        subst this
        have : cs' = [] := List.eq_nil_of_length_eq_zero h3
        subst this
        rfl
      | [z], hr =>
        simp only [List.cons_append, List.nil_append, List.cons.injEq] at hr
        obtain ⟨_, _, hr⟩ := hr
        rw [hr] at hl'
        simp at hl'
        omega
      | z :: z' :: rest', hr =>
        simp only [List.cons_append, List.cons.injEq] at hr
        have := h4 x y rest' hr.2.2
        rw [List.getLast?_cons, this]
        rfl

/-- Where C32 is not enough for a strict reader: both streams declare code page 1200, so strings in them are 16-bit; the
    writer stores them one byte per character.  No non-empty property without NUL characters reads back as such a string. -/
theorem c32_declared_utf16 (c : Bytes) (hne : c ≠ []) (hz : ∀ b ∈ c, b ≠ 0) : asUtf16 (c ++ [0]) = none := by
  unfold asUtf16
  by_cases hp : (c ++ [0]).length % 2 = 0
  · rw [if_pos hp]
    cases hr : readChars true ((c ++ [0]).length / 2) (c ++ [0]) with
    | none => rfl
    | some x =>
      obtain ⟨cs, r⟩ := x
      simp only [Option.bind_some]
      obtain ⟨pre, a, rfl⟩ : ∃ pre a, c = pre ++ [a] := ⟨c.dropLast, c.getLast hne, (List.dropLast_concat_getLast hne).symm⟩
      have := (readChars_last _ _ _ _ hr (by omega)).2 a 0 pre (by simp)
      rw [this, if_neg]
      intro h
      injection h with h
      have h' := congrArg UInt16.toNat h
      have ha : a.toNat < 256 := a.toNat_lt
      have : a.toNat ≠ 0 := fun h0 => hz a (by simp) (UInt8.toNat_inj.mp h0)
      simp at h'
      omega
  · rw [if_neg hp]

/-! ### Examples -/

/-- A title, an author set twice, a company, and a kind that does not exist. -/
def demoCalls : List (Nat × Bytes) := [(10, [84]), (1, [65, 66]), (4, [67, 68, 69]), (1, [70]), (99, [71])]

def demoProps : Props :=
  ⟨[⟨1, .i16 1200⟩, ⟨2, .str [84]⟩, ⟨4, .str [70]⟩, ⟨12, .i64 116444736000000000⟩, ⟨13, .i64 116444736000000000⟩,
    ⟨18, .str [120, 108, 115]⟩, ⟨19, .i32 0⟩], [⟨1, .i16 1200⟩, ⟨15, .str [67, 68, 69]⟩]⟩

example : (Props.init 0 [120, 108, 115]).bind (fun p => p.run demoCalls) = some demoProps := by decide

example : need demoProps.summary ≤ 4096 ∧ need demoProps.doc ≤ 4096 := by decide

example : (demoProps.set 99 [1]).map (·.2) = some false ∧ (demoProps.set 0 [1]).map (·.2) = some false ∧
    (demoProps.set 7 [1]).map (·.2) = some true := by decide

-- the hypotheses of `c33_short_partial` and of `c33_one_call`
example : [120, 108, 115].length ≤ 340 ∧ ∀ x ∈ demoCalls, x.2.length ≤ 340 := by decide

example : 3940 < (List.replicate 4000 (65 : UInt8)).length ∧ (List.replicate 4000 (65 : UInt8)).length + [120].length < 2 ^ 28 := by
  rw [List.length_replicate]; decide

-- the hypotheses of `c32_declared_utf16`
example : asUtf16 [65, 66, 67, 0] = none := c32_declared_utf16 [65, 66, 67] (by decide) (by decide)

example : asUtf16 [65, 0, 66, 0, 0, 0] = some [65, 66] := by decide

end Xls.Hpsf
