import Verif.Store.Props
/-
C34 and C54 for the workbooks of the library: what the globals and the sheets hand out meets the conditions.
-/
namespace Xls.Store
open Xls.Biff Xls.Book Xls.Cells

variable {α : Type} {grow : Nat → Nat}

/-! ### No record from a source is a CONTINUE record -/

theorem enc_not {t : Nat} {p : Bytes} {tg : Option Nat} {l : Nat} {k : Bool} (h : t < 65536) (hne : t ≠ 0x3C) :
    ¬IsContinue { data := enc (t, p), cont := k, tag := tg, level := l } := by
  intro hc
  simp only [IsContinue, enc, List.append_assoc] at hc
  rw [List.take_append_of_le_length (by simp [leN_length]), List.take_of_length_le (by simp [leN_length])] at hc
  have := congrArg ofLE hc
  rw [ofLE_leN, ofLE_leN] at this
  omega

theorem sst_not {labels : List (List UInt16)} {bs : Bytes} (h : Sst.makeSST labels = some bs) (k : Bool) :
    ¬IsContinue { data := bs, cont := k } := by
  obtain ⟨bs', rs, h1, h2, _, h4⟩ := Sst.c05_sst_reads_back labels
  rw [h] at h1
  simp only [Option.some.injEq] at h1
  subst h1
  intro hc
  simp only [IsContinue] at hc
  match bs, hc, h2 with
  | [], hc, _ => simp [leN] at hc
  | [_], hc, _ => simp [leN] at hc
  | a :: b :: r, hc, h2 =>
    simp only [List.take_succ_cons, List.take_zero] at hc
    match r, h2 with
    | [], h2 => simp [records, recordsF] at h2
    | [_], h2 => simp [records, recordsF] at h2
    | c :: d :: r, h2 =>
      simp only [records, List.length_cons, recordsF, hc] at h2
      split at h2
      · obtain ⟨x, _, rfl⟩ := Option.map_eq_some_iff.mp h2
        rw [ofLE_leN] at h4
        simp [Sst.readSST] at h4
      · simp at h2

theorem globals_not (x : Globals.Data × Globals.St) (u : U) (x' : Globals.Data × Globals.St) (h : Globals.next x = .unit u x') :
    ¬IsContinue u := by
  obtain ⟨D, s⟩ := x
  have hu : ∀ t p, t < 65536 → t ≠ 0x3C → ¬IsContinue (Globals.unit t p) := fun t p a b => enc_not a b
  unfold Globals.next at h
  cases hp : s.phase <;> simp only [hp] at h
  case sst =>
    split at h
    · cases h
    · split at h
      · cases h
      · rename_i bs hb; cases h; exact sst_not hb true
  case drawingGrp =>
    split at h
    · cases h
    · cases h
    · rename_i bs hb
      cases h
      unfold Note.makeDrawingGroup Note.drawingGroup at hb
      split at hb
      · split at hb
        · simp at hb
        · simp only [Option.map_some, Option.some.injEq] at hb
          rw [← hb]
          exact enc_not (by decide) (by decide)
      · simp at hb
  all_goals repeat' split at h
  all_goals first
    | (cases h; done)
    | (cases h; exact hu _ _ (by decide) (by decide))
    | (cases h; exact enc_not (by decide) (by decide))

theorem sheet_not {cd : Cell α → Bytes} {cs : Cell α → Nat} (hcd : ∀ c, ¬IsContinue { data := cd c }) (x : Sheet.Data α Note.Note × Sheet.St α) (o l : Nat)
    (u : U) (x' : Sheet.Data α Note.Note × Sheet.St α) (h : Sheet.next (Note.env cd cs) x o l = .unit u x') : ¬IsContinue u := by
  unfold Sheet.next at h
  split at h
  · cases h
  · cases h
  · cases h
  · rename_i e t _
    cases h
    unfold Sheet.Ev.unit
    cases e with
    | rb e =>
      cases e with
      | cell c => exact hcd c
      | row => exact enc_not (by decide) (by decide)
      | dbcell => exact enc_not (by decide) (by decide)
    | drawing sp i n =>
      show ¬IsContinue { data := Note.drawing x.1.index x.1.notes.length sp i n, level := _ }
      intro hc
      simp only [IsContinue, Note.drawing, List.append_assoc] at hc
      rw [List.take_append_of_le_length (by simp [leN_length]), List.take_of_length_le (by simp [leN_length])] at hc
      exact absurd hc (by decide)
    | _ => exact enc_not (by decide) (by decide)

theorem no_continue {cd : Cell α → Bytes} {cs : Cell α → Nat} (hcd : ∀ c, ¬IsContinue { data := cd c }) :
    NoContinue Globals.next (Sheet.next (Note.env cd cs)) :=
  ⟨globals_not, sheet_not hcd⟩

/-! ### The BOUNDSHEET records can be patched -/

theorem pieces_tags (u : U) : (pieces u).filterMap (·.tag) = u.tag.toList := by
  unfold pieces
  have hn : ∀ l : List Bytes, (l.map (contUnit u)).filterMap (·.tag) = [] := by
    intro l
    induction l with
    | nil => rfl
    | cons a r ih => rw [List.map_cons, List.filterMap_cons]; exact ih
  split
  · rw [List.filterMap_cons, hn]
    have e : (Book.clip u).tag = u.tag := rfl
    rw [e]
    cases u.tag <;> rfl
  · rw [List.filterMap_cons]
    cases u.tag <;> rfl

theorem pieces_mem {u v : U} (h : v ∈ pieces u) : v.level = u.level ∧ (v.tag ≠ none → v.tag = u.tag ∧ (8 ≤ u.data.length → 8 ≤ v.data.length)) := by
  unfold pieces at h
  split at h
  · rename_i ho
    obtain ⟨h4, hb⟩ := clip_entry u ho
    rcases List.mem_cons.mp h with rfl | h
    · refine ⟨rfl, fun _ => ⟨rfl, fun h8 => ?_⟩⟩
      simp only [Book.clip, List.length_take, List.length_append, leN_length, List.length_drop, maxRec]
      omega
    · obtain ⟨c, _, rfl⟩ := List.mem_map.mp h
      exact ⟨rfl, fun h => absurd rfl h⟩
  · rw [List.mem_singleton.mp h]
    exact ⟨rfl, fun _ => ⟨rfl, id⟩⟩

/-- Records that meet the conditions before they are split do so afterwards. -/
theorem patchable_pieces {us : List U} (h : Patchable us) : Patchable (us.flatMap pieces) where
  once := by
    have : (us.flatMap pieces).filterMap (·.tag) = us.filterMap (·.tag) := by
      clear h
      induction us with
      | nil => rfl
      | cons u r ih =>
        rw [List.flatMap_cons, List.filterMap_append, pieces_tags, ih, List.filterMap_cons]
        cases u.tag <;> rfl
    rw [this]
    exact h.once
  level w hw ht v hv := by
    obtain ⟨u, hu, hw⟩ := List.mem_flatMap.mp hw
    obtain ⟨x, hx, hv⟩ := List.mem_flatMap.mp hv
    obtain ⟨a, b⟩ := pieces_mem hw
    rw [a, (pieces_mem hv).1]
    exact h.level u hu ((b ht).1 ▸ ht) x hx
  room w hw ht := by
    obtain ⟨u, hu, hw⟩ := List.mem_flatMap.mp hw
    obtain ⟨_, b⟩ := pieces_mem hw
    exact (b ht).2 (h.room u hu ((b ht).1 ▸ ht))

/-- What a record of the globals is. -/
theorem globals_units {D : Globals.Data} {g t : List U} (hg : Globals.groupUnits D = some g) (ht : Globals.sstUnits D = some t) :
    (∀ u ∈ Globals.units D g t, (u.tag = none ∧ u.level = 0) ∨ (u.level = 3 ∧ 8 ≤ u.data.length)) ∧
    (Globals.units D g t).filterMap (·.tag) = List.range D.bounds.length := by
  have hgu : ∀ u ∈ g, u.tag = none ∧ u.level = 0 := by
    intro u hu
    unfold Globals.groupUnits at hg
    obtain ⟨o, _, rfl⟩ := Option.map_eq_some_iff.mp hg
    obtain ⟨b, _, rfl⟩ := List.mem_map.mp hu
    exact ⟨rfl, rfl⟩
  have htu : ∀ u ∈ t, u.tag = none ∧ u.level = 0 := by
    intro u hu
    unfold Globals.sstUnits at ht
    split at ht
    · cases ht; cases hu
    · obtain ⟨b, _, rfl⟩ := Option.map_eq_some_iff.mp ht
      rw [List.mem_singleton.mp hu]
      exact ⟨rfl, rfl⟩
  have hhead : ∀ u ∈ Globals.headUnits D, u.tag = none ∧ u.level = 0 := by
    intro u hu
    simp only [Globals.headUnits, List.mem_append, List.mem_cons, List.mem_map, List.not_mem_nil, or_false] at hu
    rcases hu with (rfl | rfl | rfl | rfl) | ⟨p, _, rfl⟩ | ⟨p, _, rfl⟩ | ⟨p, _, rfl⟩ | ⟨p, _, rfl⟩ | ⟨p, _, rfl⟩ | ⟨p, _, rfl⟩ | rfl <;> exact ⟨rfl, rfl⟩
  constructor
  · intro u hu
    simp only [Globals.units, List.mem_append, List.mem_cons, List.mem_map, List.not_mem_nil, or_false] at hu
    rcases hu with hu | ⟨b, _, rfl⟩ | (rfl | rfl) | hu | hu | rfl
    · exact .inl (hhead u hu)
    · refine .inr ⟨rfl, ?_⟩
      simp only [Globals.boundUnit, Globals.boundPayload, Save.enc_length, List.length_append, leN_length]
      omega
    · exact .inl ⟨rfl, rfl⟩
    · exact .inl ⟨rfl, rfl⟩
    · exact .inl (hgu u hu)
    · exact .inl (htu u hu)
    · exact .inl ⟨rfl, rfl⟩
  · have hz : ∀ l : List U, (∀ u ∈ l, u.tag = none ∧ u.level = 0) → l.filterMap (·.tag) = [] := by
      intro l hl
      rw [List.filterMap_eq_nil_iff]
      exact fun u hu => (hl u hu).1
    have hb : ∀ (l : List Globals.Bound) k, ((l.zipIdx k).map Globals.boundUnit).filterMap (·.tag) = List.range' k l.length := by
      intro l
      induction l with
      | nil => intro k; rfl
      | cons a r ih =>
        intro k
        rw [List.zipIdx_cons, List.map_cons, List.filterMap_cons, ih (k + 1), List.length_cons, List.range'_succ]
        rfl
    simp only [Globals.units, List.filterMap_append, hz _ hhead, hz _ hgu, hz _ htu, List.nil_append]
    have e1 : [Globals.unit 0x1AE (Globals.supbookPayload D.bounds.length), Globals.unit 0x17 (Globals.externPayload D.bounds.length)].filterMap (·.tag) = [] := rfl
    have e2 : [Globals.unit 0x0A []].filterMap (·.tag) = [] := rfl
    rw [e1, e2]
    simp only [List.append_nil]
    rw [hb, List.range_eq_range']

/-- What a record of a sheet is. -/
theorem sheet_units {cd : Cell α → Bytes} {cs : Cell α → Nat} {D : Sheet.Data α Note.Note} {s : Sheet.St α} {off fuel : Nat} {us : List U}
    {x : Sheet.Data α Note.Note × Sheet.St α} (hs : Sheet.Ready D s) (hlen : D.cells.length < 2 ^ 32) (h16 : D.notes.length ≤ 65535)
    (hd : Sheet.drain (Sheet.next (Note.env cd cs)) fuel off 0 (D, s) = .done us x) : ∀ u ∈ us, u.tag = none ∧ u.level ≤ 2 := by
  obtain ⟨bs, hb, rfl, _⟩ := Sheet.drain_done hs hlen h16 hd
  intro u hu
  obtain ⟨e, _, rfl⟩ := List.mem_map.mp hu
  refine ⟨rfl, ?_⟩
  show e.level ≤ 2
  unfold Sheet.Ev.level
  split <;> omega

/-- The conditions of C34 hold for every workbook that can be saved. -/
theorem saved_conditions {cd : Cell α → Bytes} {cs : Cell α → Nat} {D : Globals.Data} {gs : Globals.St}
    {sheets : List (Sheet.Data α Note.Note × Sheet.St α)} {s s' : Book.St (Globals.Data × Globals.St) (Sheet.Data α Note.Note × Sheet.St α)}
    {us : List U} {fuel : Nat} (hok : Save.Saveable cd D gs sheets) (hs : Book.start (D, gs) sheets s)
    (h : Book.run Globals.next (Sheet.next (Note.env cd cs)) fuel s = .done us s') :
    Listed Globals.next (D, gs) sheets.length [] ∧ Patchable us ∧ ∀ u ∈ us, u.level ≤ everyone := by
  obtain ⟨gus, g', uss, sheets', offs, h1, h2, h3, h4, h5⟩ := dump_inv hs h hok.some hok.few
  obtain ⟨g, hg, _⟩ := Save.group_some D
  obtain ⟨t, ht⟩ := Globals.sst_some D
  obtain ⟨gs', htr, _⟩ := Globals.trace_units hg ht hok.fonts hok.xfs hok.phase
  obtain ⟨e1, _⟩ := h1.det htr
  obtain ⟨hu, htags⟩ := globals_units hg ht
  obtain ⟨_, _, _, hst, _⟩ := Save.sheetsTrace_parts h2
  have hsheet : ∀ u ∈ uss.flatten, u.tag = none ∧ u.level ≤ 2 := by
    intro u hu
    obtain ⟨vs, hvs, hu⟩ := List.mem_flatten.mp hu
    obtain ⟨i, hi⟩ := List.mem_iff_getElem?.mp hvs
    obtain ⟨sh, sh', o, wl, a, _, _, d⟩ := hst i vs hi
    obtain ⟨f, hd⟩ := d.drain
    obtain ⟨r1, r2, r3⟩ := hok.ready sh (List.mem_of_getElem? a)
    exact sheet_units r1 r2 r3 hd u hu
  have hp : Patchable (gus ++ uss.flatten) := by
    rw [e1]
    refine ⟨?_, ?_, ?_⟩
    · rw [List.filterMap_append, htags, List.filterMap_eq_nil_iff.mpr (fun u hu => (hsheet u hu).1), List.append_nil]
      exact List.nodup_range
    · intro w hw hwt v hv
      have hw3 : w.level = 3 := by
        rcases List.mem_append.mp hw with hw | hw
        · rcases hu w hw with ⟨a, _⟩ | ⟨a, _⟩
          · exact absurd a hwt
          · exact a
        · exact absurd (hsheet w hw).1 hwt
      rcases List.mem_append.mp hv with hv | hv
      · rcases hu v hv with ⟨_, a⟩ | ⟨a, _⟩ <;> omega
      · have := (hsheet v hv).2; omega
    · intro w hw hwt
      rcases List.mem_append.mp hw with hw | hw
      · rcases hu w hw with ⟨a, _⟩ | ⟨_, a⟩
        · exact absurd a hwt
        · exact a
      · exact absurd (hsheet w hw).1 hwt
  refine ⟨?_, by rw [h3]; exact patchable_pieces hp, ?_⟩
  · intro vs g2 hv i hi
    obtain ⟨e, _⟩ := hv.det htr
    rw [List.nil_append, e]
    have : i ∈ (Globals.units D g t).filterMap (·.tag) := by
      rw [htags, List.mem_range, hok.count]; exact hi
    obtain ⟨u, hu, ht⟩ := List.mem_filterMap.mp this
    exact ⟨u, hu, ht⟩
  · intro v hv
    rw [h3] at hv
    obtain ⟨u, hum, hv⟩ := List.mem_flatMap.mp hv
    rw [(pieces_mem hv).1]
    simp only [everyone]
    rw [e1] at hum
    rcases List.mem_append.mp hum with hum | hum
    · rcases hu u hum with ⟨_, a⟩ | ⟨a, _⟩ <;> omega
    · have := (hsheet u hum).2; omega

end Xls.Store
