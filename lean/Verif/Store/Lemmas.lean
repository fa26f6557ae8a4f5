import Verif.Store.Spec
namespace Xls.Store
open Xls.Biff Xls.Book

/-! ### The store -/

theorem get_some {m : Mem} {i : Nat} {e : Entry} : m.get i = some e ↔ m.units[i]? = some e ∧ e.alive = true := by
  unfold Mem.get
  cases h : m.units[i]? with
  | none => simp
  | some x =>
    by_cases ha : x.alive = true
    · simp only [Option.bind_some, if_pos ha, Option.some.injEq]
      constructor
      · rintro rfl; exact ⟨rfl, ha⟩
      · rintro ⟨rfl, _⟩; rfl
    · simp only [Option.bind_some, if_neg ha, Option.some.injEq]
      constructor
      · intro h; simp at h
      · rintro ⟨rfl, h⟩; exact absurd h ha

theorem copy_contents {s : Slot} (h : s.size ≤ s.buf.length) : s.copy.contents = s.contents := by
  unfold Slot.copy
  split
  · simp only [Slot.contents]
    rw [List.take_append_of_le_length (by simp; omega), List.take_take, Nat.min_self]
  · rfl

theorem copy_size (s : Slot) : s.copy.size = s.size := by unfold Slot.copy; split <;> rfl

/-- The entries behind the records `us` and those made since (`extra`), which are not added yet. -/
structure Kept (grow : Nat → Nat) (c : Nat) (us : List U) (bpos : List (Nat × Nat)) (extra : List Entry) (m : Mem) : Prop where
  len : m.units.length = us.length + extra.length
  extra : m.units.drop us.length = extra
  cap : m.cap = capAt grow c m.units.length
  total : m.total = (us.map (·.data.length)).sum
  unit : ∀ (i : Nat) (u : U), us[i]? = some u → ∃ (e : Entry) (bs : Bytes), m.units[i]? = some e ∧ e.added = true ∧ e.level = u.level ∧ patch bpos u = some bs ∧
    e.slot.contents = bs.map some ∧ e.slot.size = bs.length ∧ bs.length = u.data.length
  nodup : m.stack.Nodup
  stack : ∀ i, i ∈ m.stack ↔ ∃ e, m.get i = some e
  endPos : m.endPos ≤ m.stack.length
  tagged : ∀ (i : Nat) (u : U), us[i]? = some u → u.tag ≠ none → ∃ e, m.get i = some e

theorem inv_init (grow : Nat → Nat) (c : Nat) : Kept grow c [] [] [] (Mem.init c) where
  len := rfl
  extra := rfl
  cap := rfl
  total := rfl
  unit := by simp
  nodup := List.nodup_nil
  stack := by simp [Mem.init, Mem.get]
  endPos := Nat.le_refl _
  tagged := by simp

theorem contents_size {s : Slot} {bs : Bytes} (h : s.contents = bs.map some) (hs : s.size = bs.length) : s.size ≤ s.buf.length := by
  have := congrArg List.length h
  simp only [Slot.contents, List.length_take, List.length_map] at this
  omega

theorem request_units (grow : Nat → Nat) (m : Mem) (i : Nat) : (m.request grow).units[i]? = m.units[i]? ∨
    (m.request grow).units[i]? = m.units[i]?.map fun e => { e with slot := e.slot.copy } := by
  unfold Mem.request
  split
  · exact .inl rfl
  · exact .inr (by simp)

theorem request_length (grow : Nat → Nat) (m : Mem) : (m.request grow).units.length = m.units.length := by
  unfold Mem.request; split <;> simp

theorem request_get (grow : Nat → Nat) (m : Mem) (i : Nat) : (∃ e, (m.request grow).get i = some e) ↔ ∃ e, m.get i = some e := by
  simp only [get_some]
  rcases request_units grow m i with h | h <;> rw [h]
  cases m.units[i]? with
  | none => simp
  | some e =>
    simp only [Option.map_some, Option.some.injEq]
    constructor
    · rintro ⟨x, rfl, h⟩; exact ⟨e, rfl, h⟩
    · rintro ⟨x, rfl, h⟩; exact ⟨_, rfl, h⟩

theorem request_rest (grow : Nat → Nat) (m : Mem) : (m.request grow).stack = m.stack ∧ (m.request grow).endPos = m.endPos ∧
    (m.request grow).total = m.total ∧ (m.request grow).endLevel = m.endLevel := by
  unfold Mem.request; split <;> simp

theorem inv_request {grow : Nat → Nat} {c : Nat} {us : List U} {bpos : List (Nat × Nat)} {m : Mem} (h : Kept grow c us bpos [] m) :
    (m.request grow).cap = capAt grow c (us.length + 1) ∧
    (∀ (i : Nat) (u : U), us[i]? = some u → ∃ (e : Entry) (bs : Bytes), (m.request grow).units[i]? = some e ∧ e.added = true ∧ e.level = u.level ∧ patch bpos u = some bs ∧
      e.slot.contents = bs.map some ∧ e.slot.size = bs.length ∧ bs.length = u.data.length) := by
  have hl := h.len
  simp only [List.length_nil, Nat.add_zero] at hl
  refine ⟨?_, fun i u hu => ?_⟩
  · rw [capAt, ← hl, ← h.cap]
    unfold Mem.request
    split <;> rfl
  · obtain ⟨e, bs, h1, h2, h3, h4, h5, h6, h7⟩ := h.unit i u hu
    rcases request_units grow m i with hr | hr
    · exact ⟨e, bs, by rw [hr, h1], h2, h3, h4, h5, h6, h7⟩
    · refine ⟨{ e with slot := e.slot.copy }, bs, by rw [hr, h1]; rfl, h2, h3, h4, ?_, ?_, h7⟩
      · rw [copy_contents (contents_size h5 h6), h5]
      · rw [copy_size, h6]

theorem inv_new {grow : Nat → Nat} {c : Nat} {us : List U} {bpos : List (Nat × Nat)} {m : Mem} (h : Kept grow c us bpos [] m)
    (lvl : Nat) (bs : List (Option UInt8)) : Kept grow c us bpos [⟨.holding bs, lvl, false, true⟩] (m.new grow lvl bs) := by
  obtain ⟨hc, hu⟩ := inv_request h
  have hl := h.len
  simp only [List.length_nil, Nat.add_zero] at hl
  have hrl := request_length grow m
  obtain ⟨e1, e2, e3, e4⟩ := request_rest grow m
  have hget : ∀ i, (∃ e, (m.new grow lvl bs).get i = some e) ↔ (∃ e, m.get i = some e) ∨ i = us.length := by
    intro i
    rw [← request_get grow m i]
    simp only [get_some, Mem.new]
    rcases Nat.lt_trichotomy i us.length with hi | hi | hi
    · rw [List.getElem?_append_left (by omega)]
      constructor
      · exact fun h => .inl h
      · rintro (h | h)
        · exact h
        · omega
    · subst hi
      constructor
      · exact fun _ => .inr rfl
      · intro _
        exact ⟨⟨.holding bs, lvl, false, true⟩, by rw [List.getElem?_append_right (by omega), hrl, hl]; simp, rfl⟩
    · constructor
      · rintro ⟨e, he, _⟩
        have := (List.getElem?_eq_some_iff.mp he).1
        simp at this; omega
      · rintro (⟨e, he, _⟩ | h)
        · have := (List.getElem?_eq_some_iff.mp he).1; omega
        · omega
  refine ⟨?_, ?_, ?_, ?_, ?_, ?_, ?_, ?_, ?_⟩
  · simp [Mem.new, hrl, hl]
  · simp only [Mem.new]
    rw [List.drop_append_of_le_length (by omega), List.drop_eq_nil_of_le (by omega)]
    rfl
  · simp only [Mem.new, List.length_append, List.length_singleton, hrl, hl, hc]
  · simp only [Mem.new, e3, h.total]
  · intro i u hi
    obtain ⟨e, b, h1, h2⟩ := hu i u hi
    refine ⟨e, b, ?_, h2⟩
    simp only [Mem.new]
    rw [List.getElem?_append_left (List.getElem?_eq_some_iff.mp h1).1, h1]
  · simp only [Mem.new, e1]
    rw [List.nodup_append]
    refine ⟨h.nodup, by simp, ?_⟩
    intro a ha b hb
    simp only [List.mem_singleton] at hb
    subst hb
    intro hab
    subst hab
    obtain ⟨e, he⟩ := (h.stack _).mp ha
    have := (List.getElem?_eq_some_iff.mp (get_some.mp he).1).1
    omega
  · intro i
    rw [hget i, ← h.stack i]
    simp only [Mem.new, e1, List.mem_append, List.mem_singleton, hl]
  · simp only [Mem.new, e1, e2, List.length_append]
    have := h.endPos
    omega
  · intro i u hi ht
    rw [hget i]
    exact .inl (h.tagged i u hi ht)

/-- Entry number `us.length` when one entry is not added yet. -/
theorem inv_last {grow : Nat → Nat} {c : Nat} {us : List U} {bpos : List (Nat × Nat)} {e : Entry} {m : Mem} (h : Kept grow c us bpos [e] m) :
    m.units[us.length]? = some e := by
  have := congrArg (fun l => l[0]?) h.extra
  simpa using this

theorem set_get (m : Mem) (i j : Nat) (e : Entry) (m' : Mem) (hm : m'.units = m.units.set i e) (hi : i < m.units.length) :
    m'.get j = if j = i then (if e.alive then some e else none) else m.get j := by
  unfold Mem.get
  rw [hm]
  by_cases h : j = i
  · subst h
    rw [List.getElem?_set_self hi, if_pos rfl]
    rfl
  · rw [List.getElem?_set_ne (fun h' => h h'.symm), if_neg h]

/-- Changing the slot of the entry that is not added yet. -/
theorem inv_change {grow : Nat → Nat} {c : Nat} {us : List U} {bpos : List (Nat × Nat)} {e e' : Entry} {m : Mem} (h : Kept grow c us bpos [e] m)
    (ha : e.alive = true) (ha' : e'.alive = true) : Kept grow c us bpos [e'] { m with units := m.units.set us.length e' } := by
  have hl := h.len
  simp only [List.length_singleton] at hl
  have hlast := inv_last h
  have hget : ∀ j, (∃ x, Mem.get { m with units := m.units.set us.length e' } j = some x) ↔ ∃ x, m.get j = some x := by
    intro j
    rw [set_get m us.length j e' _ rfl (by omega)]
    by_cases hj : j = us.length
    · subst hj
      rw [if_pos rfl, if_pos ha']
      exact ⟨fun _ => ⟨e, get_some.mpr ⟨hlast, ha⟩⟩, fun _ => ⟨e', rfl⟩⟩
    · rw [if_neg hj]
  refine ⟨by simp [hl], ?_, ?_, h.total, ?_, h.nodup, ?_, h.endPos, ?_⟩
  · apply List.ext_getElem?
    intro j
    rw [List.getElem?_drop]
    cases j with
    | zero => simp [hl]
    | succ j => simp [hl]
  · simpa using h.cap
  · intro i u hi
    obtain ⟨x, b, h1, h2⟩ := h.unit i u hi
    refine ⟨x, b, ?_, h2⟩
    have : i < us.length := (List.getElem?_eq_some_iff.mp hi).1
    rw [List.getElem?_set_ne (by omega), h1]
  · intro i
    rw [hget i]; exact h.stack i
  · intro i u hi ht
    rw [hget i]; exact h.tagged i u hi ht

theorem inv_add {grow : Nat → Nat} {c : Nat} {us : List U} {bpos : List (Nat × Nat)} {e : Entry} {m : Mem} {v : U} (h : Kept grow c us bpos [e] m)
    (ha : e.alive = true) (hn : e.added = false) (hv : e.level = v.level) (hc : e.slot.contents = v.data.map some) (hs : e.slot.size = v.data.length)
    (hp : patch bpos v = some v.data) :
    ∃ m1, m.add us.length = some m1 ∧ Kept grow c (us ++ [v]) bpos [] m1 ∧ m1.get us.length = some { e with added := true } ∧
      (∀ j, j ≠ us.length → m1.get j = m.get j) := by
  have hl := h.len
  simp only [List.length_singleton] at hl
  have hlast := inv_last h
  have hg : m.get us.length = some e := get_some.mpr ⟨hlast, ha⟩
  have hgets : ∀ j, Mem.get { m with total := m.total + e.slot.size, units := m.units.set us.length { e with added := true } } j =
      if j = us.length then some { e with added := true } else m.get j := by
    intro j
    rw [set_get m us.length j { e with added := true } _ rfl (by omega)]
    simp [ha]
  refine ⟨_, by simp only [Mem.add, hg, Option.bind_some, hn]; rfl, ?_, by rw [hgets, if_pos rfl], fun j hj => by rw [hgets, if_neg hj]⟩
  have hget : ∀ j, (∃ x, Mem.get { m with total := m.total + e.slot.size, units := m.units.set us.length { e with added := true } } j = some x) ↔ ∃ x, m.get j = some x := by
    intro j
    rw [hgets]
    by_cases hj : j = us.length
    · subst hj
      rw [if_pos rfl]
      exact ⟨fun _ => ⟨e, hg⟩, fun _ => ⟨_, rfl⟩⟩
    · rw [if_neg hj]
  refine ⟨by simp [hl], ?_, ?_, ?_, ?_, h.nodup, ?_, h.endPos, ?_⟩
  · apply List.drop_eq_nil_of_le
    simp [hl]
  · simpa using h.cap
  · simp [h.total, hs]
  · intro i u hi
    rcases Nat.lt_or_ge i us.length with hlt | hge
    · rw [List.getElem?_append_left hlt] at hi
      obtain ⟨x, b, h1, h2⟩ := h.unit i u hi
      refine ⟨x, b, ?_, h2⟩
      simp only
      rw [List.getElem?_set_ne (by omega), h1]
    · have : i = us.length := by
        have := (List.getElem?_eq_some_iff.mp hi).1
        simp at this; omega
      subst this
      rw [List.getElem?_append_right (Nat.le_refl _), Nat.sub_self] at hi
      simp only [List.getElem?_cons_zero, Option.some.injEq] at hi
      subst hi
      refine ⟨{ e with added := true }, v.data, ?_, rfl, hv, hp, hc, hs, rfl⟩
      simp only
      rw [List.getElem?_set_self (by omega)]
  · intro i
    rw [hget i]; exact h.stack i
  · intro i u hi ht
    rw [hget i]
    rcases Nat.lt_or_ge i us.length with hlt | hge
    · rw [List.getElem?_append_left hlt] at hi
      exact h.tagged i u hi ht
    · have : i = us.length := by
        have := (List.getElem?_eq_some_iff.mp hi).1
        simp at this; omega
      subst this
      exact ⟨e, hg⟩

/-! ### Flushing -/

theorem deletes_ok : ∀ (is : List Nat) (m : Mem), is.Nodup → (∀ i ∈ is, ∃ e, m.get i = some e ∧ e.added = true) →
    ∃ m1, m.deletes is = some m1 ∧ m1.units.length = m.units.length ∧ m1.cap = m.cap ∧ m1.moves = m.moves ∧ m1.total = m.total ∧ m1.stack = m.stack ∧
      (∀ j : Nat, m1.units[j]? = m.units[j]?.map fun e => ({ e with alive := if j ∈ is then false else e.alive } : Entry)) := by
  intro is
  induction is with
  | nil =>
    intro m _ _
    exact ⟨m, rfl, rfl, rfl, rfl, rfl, rfl, fun j => by simp⟩
  | cons i is ih =>
    intro m hnd h
    obtain ⟨e, he, hadd⟩ := h i (by simp)
    obtain ⟨hu, ha⟩ := get_some.mp he
    have hi : i < m.units.length := (List.getElem?_eq_some_iff.mp hu).1
    have hd : m.delete i = some { m with units := m.units.set i { e with alive := false } } := by
      simp only [Mem.delete, he, Option.map_some, if_pos hadd]
    obtain ⟨h1, h2⟩ := List.nodup_cons.mp hnd
    obtain ⟨m1, d1, d2, d3, d4, d5, d6, d7⟩ := ih { m with units := m.units.set i { e with alive := false } } h2 (by
      intro j hj
      have hne : j ≠ i := fun h' => h1 (h' ▸ hj)
      rw [set_get m i j { e with alive := false } _ rfl hi, if_neg hne]
      exact h j (by simp [hj]))
    refine ⟨m1, by simp only [Mem.deletes, hd, Option.bind_some, d1], by rw [d2]; simp, d3, d4, d5, d6, fun j => ?_⟩
    rw [d7 j]
    by_cases hj : j = i
    · subst hj
      simp only [List.getElem?_set_self hi, hu, Option.map_some, List.mem_cons, true_or, if_true, h1, if_false]
    · simp only [List.getElem?_set_ne (fun h' => hj h'.symm), List.mem_cons, hj, false_or]

theorem flushEm_ok {grow : Nat → Nat} {c : Nat} {us : List U} {bpos : List (Nat × Nat)} {m : Mem} (h : Kept grow c us bpos [] m) (lvl : Nat)
    (ht : ∀ w ∈ us, w.tag ≠ none → lvl < w.level) :
    ∃ m1, m.flushEm lvl = some m1 ∧ Kept grow c us bpos [] m1 ∧ (∀ j e, m.get j = some e → lvl < e.level → m1.get j = some e) ∧
      (lvl = everyone → (∀ w ∈ us, w.level ≤ everyone) → m1.stack = []) := by
  have hl := h.len
  simp only [List.length_nil, Nat.add_zero] at hl
  obtain ⟨start, hst, hall⟩ : ∃ start, m.flushStart lvl = some start ∧ (lvl = everyone → start = 0) := by
    unfold Mem.flushStart
    split
    · rename_i hc
      have := h.endPos
      rw [if_pos (by omega)]
      exact ⟨_, rfl, fun h' => absurd h' hc.2.1⟩
    · exact ⟨0, rfl, fun _ => rfl⟩
  have hmem : ∀ i ∈ m.stack.drop start, ∃ e, m.get i = some e ∧ e.added = true := by
    intro i hi
    obtain ⟨e, he⟩ := (h.stack i).mp (List.mem_of_mem_drop hi)
    refine ⟨e, he, ?_⟩
    obtain ⟨hu, _⟩ := get_some.mp he
    have hlt : i < us.length := by have := (List.getElem?_eq_some_iff.mp hu).1; omega
    obtain ⟨x, b, h1, h2, _⟩ := h.unit i us[i] (by simp [hlt])
    rw [hu] at h1
    simp only [Option.some.injEq] at h1
    exact h1 ▸ h2
  have hany : ((m.stack.drop start).any fun i => (m.get i).isNone) = false := by
    rw [List.any_eq_false]
    intro i hi
    obtain ⟨e, he, _⟩ := hmem i hi
    simp [he]
  obtain ⟨m1, d1, d2, d3, d4, d5, d6, d7⟩ := deletes_ok ((m.stack.drop start).filter (m.low lvl)) m
    ((h.nodup.drop).filter _) (fun i hi => hmem i (List.mem_filter.mp hi).1)
  refine ⟨_, by simp only [Mem.flushEm, hst, Option.bind_some, hany, Bool.false_eq_true, if_false, d1, Option.map_some]; rfl, ?_, ?_, ?_⟩
  · have hunit := d7
    have hget : ∀ j, (∃ e, m1.get j = some e) ↔ (∃ e, m.get j = some e) ∧ j ∉ (m.stack.drop start).filter (m.low lvl) := by
      intro j
      simp only [get_some, hunit]
      cases hx : m.units[j]? with
      | none => simp
      | some x =>
        by_cases hj : j ∈ (m.stack.drop start).filter (m.low lvl)
        · simp [hj]
        · simp [hj]
    have hsplit : m.stack = m.stack.take start ++ m.stack.drop start := (List.take_append_drop _ _).symm
    have hnd := h.nodup
    rw [hsplit, List.nodup_append] at hnd
    obtain ⟨n1, n2, n3⟩ := hnd
    refine ⟨by simp [d2, hl], ?_, ?_, ?_, ?_, ?_, ?_, ?_, ?_⟩
    · exact List.drop_eq_nil_of_le (by simp [d2, hl])
    · simp only [d3, d2, h.cap]
    · simp only [d5, h.total]
    · intro i u hi
      obtain ⟨e, b, h1, h2⟩ := h.unit i u hi
      refine ⟨{ e with alive := if i ∈ (m.stack.drop start).filter (m.low lvl) then false else e.alive }, b, ?_, h2⟩
      simp only [hunit, h1, Option.map_some]
    · simp only
      rw [List.nodup_append]
      exact ⟨n1, n2.filter _, fun a ha b hb => n3 a ha b (List.mem_filter.mp hb).1⟩
    · intro i
      show i ∈ _ ↔ ∃ e, m1.get i = some e
      rw [hget i, ← h.stack i]
      simp only [List.mem_append, List.mem_filter, Bool.not_eq_true', not_and, Bool.not_eq_true]
      constructor
      · rintro (hi | ⟨hi, hlow⟩)
        · refine ⟨List.mem_of_mem_take hi, fun hi' => absurd rfl (n3 i hi i hi')⟩
        · exact ⟨List.mem_of_mem_drop hi, fun _ => hlow⟩
      · rintro ⟨hi, hlow⟩
        rw [hsplit, List.mem_append] at hi
        rcases hi with hi | hi
        · exact .inl hi
        · exact .inr ⟨hi, hlow hi⟩
    · simp only; omega
    · intro i u hi hu
      show ∃ e, m1.get i = some e
      rw [hget i]
      obtain ⟨e, he⟩ := h.tagged i u hi hu
      refine ⟨⟨e, he⟩, ?_⟩
      intro hm
      have hlow := (List.mem_filter.mp hm).2
      simp only [Mem.low, he, decide_eq_true_eq] at hlow
      obtain ⟨x, b, h1, h2, h3, _⟩ := h.unit i u hi
      have := (get_some.mp he).1
      rw [h1] at this
      simp only [Option.some.injEq] at this
      subst this
      have := ht u (List.mem_of_getElem? hi) hu
      omega
  · intro j e he hlt
    obtain ⟨hu, ha⟩ := get_some.mp he
    show m1.get j = some e
    rw [get_some]
    refine ⟨?_, ha⟩
    have hnot : j ∉ (m.stack.drop start).filter (m.low lvl) := by
      intro hm
      have hlow := (List.mem_filter.mp hm).2
      simp only [Mem.low, he, decide_eq_true_eq] at hlow
      omega
    rw [d7 j, hu, Option.map_some, if_neg hnot]
  · intro he hle
    simp only [hall he, List.take_zero, List.nil_append, List.drop_zero]
    rw [List.filter_eq_nil_iff]
    intro i hi
    obtain ⟨e, hge, _⟩ := hmem i (by rw [hall he]; exact hi)
    have hu := (get_some.mp hge).1
    have hlt : i < us.length := by have := (List.getElem?_eq_some_iff.mp hu).1; omega
    obtain ⟨x, b, h1, _, h3, _⟩ := h.unit i us[i] (by simp [hlt])
    rw [hu] at h1
    simp only [Option.some.injEq] at h1
    subst h1
    have := hle us[i] (List.getElem_mem hlt)
    simp only [Mem.low, hge]
    simp; omega

theorem flushLower_ok {grow : Nat → Nat} {c : Nat} {us : List U} {bpos : List (Nat × Nat)} {m : Mem} (h : Kept grow c us bpos [] m) {i : Nat} {e : Entry}
    (hi : m.get i = some e) (ht : ∀ w ∈ us, w.tag ≠ none → e.level ≤ w.level) :
    ∃ m1, m.flushLower i = some m1 ∧ Kept grow c us bpos [] m1 ∧ (∀ j x, m.get j = some x → e.level ≤ x.level → m1.get j = some x) := by
  unfold Mem.flushLower
  simp only [hi, Option.bind_some]
  by_cases h0 : e.level > 0
  · rw [if_pos h0]
    obtain ⟨m1, a, b, d, _⟩ := flushEm_ok h (e.level - 1) (fun w hw hn => by have := ht w hw hn; omega)
    exact ⟨m1, a, b, fun j x hj hl => d j x hj (by omega)⟩
  · rw [if_neg h0]
    exact ⟨m, rfl, h, fun j x hj _ => hj⟩

/-- At the end every object is deleted, each of them once, and no slot loses its contents. -/
theorem close_ok {grow : Nat → Nat} {c : Nat} {us : List U} {bpos : List (Nat × Nat)} {m : Mem} (h : Kept grow c us bpos [] m)
    (hlv : ∀ w ∈ us, w.level ≤ everyone) :
    ∃ m1, m.close = some m1 ∧ (∀ i, m1.get i = none) ∧ m1.contents = m.contents ∧ m1.total = m.total := by
  have hl := h.len
  simp only [List.length_nil, Nat.add_zero] at hl
  have hst : m.flushStart everyone = some 0 := by
    unfold Mem.flushStart
    rw [if_neg (by rintro ⟨_, h', _⟩; exact h' rfl)]
  have hmem : ∀ i ∈ m.stack, ∃ e, m.get i = some e ∧ e.added = true ∧ e.level ≤ everyone := by
    intro i hi
    obtain ⟨e, he⟩ := (h.stack i).mp hi
    refine ⟨e, he, ?_⟩
    obtain ⟨hu, _⟩ := get_some.mp he
    have hlt : i < us.length := by have := (List.getElem?_eq_some_iff.mp hu).1; omega
    obtain ⟨x, b, h1, h2, h3, _⟩ := h.unit i us[i] (by simp [hlt])
    rw [hu] at h1
    simp only [Option.some.injEq] at h1
    subst h1
    exact ⟨h2, h3 ▸ hlv _ (List.getElem_mem hlt)⟩
  have hany : ((m.stack.drop 0).any fun i => (m.get i).isNone) = false := by
    rw [List.drop_zero, List.any_eq_false]
    intro i hi
    obtain ⟨e, he, _⟩ := hmem i hi
    simp [he]
  have hgone : (m.stack.drop 0).filter (m.low everyone) = m.stack := by
    rw [List.drop_zero, List.filter_eq_self]
    intro i hi
    obtain ⟨e, he, _, hle⟩ := hmem i hi
    simpa [Mem.low, he] using hle
  obtain ⟨m1, d1, d2, d3, d4, d5, d6, d7⟩ := deletes_ok m.stack m h.nodup
    (fun i hi => by obtain ⟨e, a, b, _⟩ := hmem i hi; exact ⟨e, a, b⟩)
  refine ⟨_, by simp only [Mem.close, Mem.flushEm, hst, Option.bind_some, hany, Bool.false_eq_true, if_false, hgone, d1, Option.map_some]; rfl, ?_, ?_, ?_⟩
  · intro i
    show m1.get i = none
    cases hg : m1.get i with
    | none => rfl
    | some e =>
      obtain ⟨hu, ha⟩ := get_some.mp hg
      rw [d7 i] at hu
      cases hx : m.units[i]? with
      | none => rw [hx] at hu; simp at hu
      | some x =>
        rw [hx, Option.map_some, Option.some.injEq] at hu
        subst hu
        simp only at ha
        by_cases hi : i ∈ m.stack
        · rw [if_pos hi] at ha; cases ha
        · rw [if_neg hi] at ha
          exact absurd ((h.stack i).mpr ⟨x, get_some.mpr ⟨hx, ha⟩⟩) hi
  · show m1.contents = m.contents
    have : m1.units.map (fun e => e.slot.contents) = m.units.map fun e => e.slot.contents := by
      apply List.ext_getElem?
      intro j
      rw [List.getElem?_map, List.getElem?_map, d7 j]
      cases m.units[j]? <;> rfl
    simp only [Mem.contents, List.flatMap_def, this]
  · exact d5

/-- What is in the slots is the stream. -/
theorem kept_contents {grow : Nat → Nat} {c : Nat} {us : List U} {bpos : List (Nat × Nat)} {m : Mem} (h : Kept grow c us bpos [] m) :
    ∃ bs, stream us bpos = some bs ∧ m.contents = bs.map some ∧ m.total = bs.length := by
  have hl := h.len
  simp only [List.length_nil, Nat.add_zero] at hl
  have key : ∀ (us : List U) (es : List Entry), es.length = us.length →
      (∀ (i : Nat) (u : U), us[i]? = some u → ∃ (e : Entry) (bs : Bytes), es[i]? = some e ∧ patch bpos u = some bs ∧ e.slot.contents = bs.map some ∧
        bs.length = u.data.length) →
      ∃ bss, us.mapM (patch bpos) = some bss ∧ es.flatMap (fun e => e.slot.contents) = bss.flatten.map some ∧
        (us.map (·.data.length)).sum = bss.flatten.length := by
    intro us
    induction us with
    | nil =>
      intro es he _
      obtain rfl := List.length_eq_zero_iff.mp he
      exact ⟨[], rfl, rfl, rfl⟩
    | cons u us ih =>
      intro es he hu
      cases es with
      | nil => simp at he
      | cons e es =>
        obtain ⟨bss, a, b, d⟩ := ih es (by simpa using he) (fun i v hi => by simpa using hu (i + 1) v (by simpa using hi))
        obtain ⟨e', bs, h1, h2, h3, h4⟩ := hu 0 u rfl
        simp only [List.getElem?_cons_zero, Option.some.injEq] at h1
        subst h1
        refine ⟨bs :: bss, ?_, ?_, ?_⟩
        · rw [List.mapM_cons, h2, a]; rfl
        · simp only [List.flatMap_cons, h3, b, List.flatten_cons, List.map_append]
        · simp only [List.map_cons, List.sum_cons, List.flatten_cons, List.length_append, d, h4]
  obtain ⟨bss, a, b, d⟩ := key us m.units hl (fun i u hi => by
    obtain ⟨e, bs, h1, _, _, h4, h5, _, h7⟩ := h.unit i u hi
    exact ⟨e, bs, h1, h4, h5, h7⟩)
  exact ⟨bss.flatten, by rw [stream, a]; rfl, b, h.total.trans d⟩

end Xls.Store
