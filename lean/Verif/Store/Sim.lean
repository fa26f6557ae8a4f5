import Verif.Store.Lemmas
/-
The memory level follows the record level pass by pass.
-/
namespace Xls.Store
open Xls.Biff Xls.Book

variable {γ σ : Type} {grow : Nat → Nat} {c : Nat} {gnext : γ → Src γ} {snext : σ → Nat → Nat → Src σ}

/-! ### Patches -/

theorem patch_fresh {bpos : List (Nat × Nat)} {v : U} (h : ∀ i, v.tag = some i → ∀ p ∈ bpos, p.1 ≠ i) : patch bpos v = some v.data := by
  unfold patch
  cases ht : v.tag with
  | none => rfl
  | some i =>
    have : bpos.find? (fun p => p.1 == i) = none := by
      rw [List.find?_eq_none]
      intro p hp
      simpa using h i ht p hp
    simp only [this]

theorem patch_other {bpos : List (Nat × Nat)} {v : U} {k pos : Nat} (h : v.tag ≠ some k) : patch (bpos ++ [(k, pos)]) v = patch bpos v := by
  unfold patch
  cases ht : v.tag with
  | none => rfl
  | some i =>
    have hk : (k == i) = false := by
      rw [beq_eq_false_iff_ne]; intro h'; subst h'; exact h ht
    simp only [List.find?_append, List.find?_cons, hk, List.find?_nil, Option.or_none]

theorem patch_this {bpos : List (Nat × Nat)} {v : U} {k pos : Nat} (h : v.tag = some k) (hf : ∀ p ∈ bpos, p.1 ≠ k) :
    patch (bpos ++ [(k, pos)]) v = setAt32 v.data (pos % 2 ^ 32) 4 := by
  unfold patch
  have : bpos.find? (fun p => p.1 == k) = none := by
    rw [List.find?_eq_none]
    intro p hp
    simpa using hf p hp
  simp only [h, List.find?_append, this, Option.none_or, List.find?_cons, beq_self_eq_true]

theorem tag_unique {us : List U} (h : (us.filterMap (·.tag)).Nodup) : ∀ {i j : Nat} {u v : U} {t : Nat}, us[i]? = some u → us[j]? = some v →
    u.tag = some t → v.tag = some t → i = j := by
  induction us with
  | nil => intro i j u v t hi; simp at hi
  | cons w us ih =>
    have htail : (us.filterMap (·.tag)).Nodup := by
      rw [List.filterMap_cons] at h
      split at h
      · exact h
      · exact (List.nodup_cons.mp h).2
    have hmem : ∀ {k : Nat} {x : U} {t : Nat}, us[k]? = some x → x.tag = some t → w.tag ≠ some t := by
      intro k x t hk hx hw
      rw [List.filterMap_cons, hw] at h
      exact (List.nodup_cons.mp h).1 (List.mem_filterMap.mpr ⟨x, List.mem_of_getElem? hk, hx⟩)
    intro i j u v t hi hj hu hv
    cases i with
    | zero =>
      cases j with
      | zero => rfl
      | succ j =>
        simp only [List.getElem?_cons_zero, Option.some.injEq] at hi
        subst hi
        exact absurd hu (hmem (by simpa using hj) hv)
    | succ i =>
      cases j with
      | zero =>
        simp only [List.getElem?_cons_zero, Option.some.injEq] at hj
        subst hj
        exact absurd hv (hmem (by simpa using hi) hu)
      | succ j =>
        have := ih htail (by simpa using hi) (by simpa using hj) hu hv
        omega

/-- Setting the position of sheet `k`. -/
theorem inv_patch {us : List U} {bpos : List (Nat × Nat)} {m : Mem} (h : Kept grow c us bpos [] m) (hp : Patchable us) {id k pos : Nat} {u : U}
    (hu : us[id]? = some u) (ht : u.tag = some k) (hf : ∀ p ∈ bpos, p.1 ≠ k) :
    ∃ m1, m.setPosition id (pos % 2 ^ 32) = some m1 ∧ Kept grow c us (bpos ++ [(k, pos)]) [] m1 := by
  have hlt : id < us.length := (List.getElem?_eq_some_iff.mp hu).1
  have hl := h.len
  simp only [List.length_nil, Nat.add_zero] at hl
  obtain ⟨e, bs, h1, h2, h3, h4, h5, h6, h7⟩ := h.unit id u hu
  rw [patch_fresh (fun i hi => by rw [ht] at hi; cases hi; exact hf)] at h4
  simp only [Option.some.injEq] at h4
  subst h4
  obtain ⟨x, hx⟩ := h.tagged id u hu (by simp [ht])
  have hx' := get_some.mp hx
  rw [h1] at hx'
  obtain ⟨he, ha⟩ := hx'
  simp only [Option.some.injEq] at he
  subst he
  have h8 : 8 ≤ u.data.length := hp.room u (List.mem_of_getElem? hu) (by simp [ht])
  have hb : e.slot.size ≤ e.slot.buf.length := contents_size h5 h6
  refine ⟨_, by simp only [Mem.setPosition, hx, Option.bind_some]; rw [if_pos (by omega)], ?_⟩
  generalize hx2 : ({ e with slot := { e.slot with buf := e.slot.buf.take 4 ++ (leN 4 (pos % 2 ^ 32)).map some ++ e.slot.buf.drop 8 } } : Entry) = e2
  have a2 : e2.alive = true := by subst hx2; exact ha
  have hget : ∀ j, (∃ y, Mem.get { m with units := m.units.set id e2 } j = some y) ↔ ∃ y, m.get j = some y := by
    intro j
    rw [set_get m id j e2 _ rfl (by omega), if_pos a2]
    by_cases hj : j = id
    · subst hj; rw [if_pos rfl]; exact ⟨fun _ => ⟨e, hx⟩, fun _ => ⟨e2, rfl⟩⟩
    · rw [if_neg hj]
  refine ⟨by simp [hl], ?_, ?_, h.total, ?_, h.nodup, ?_, h.endPos, ?_⟩
  · exact List.drop_eq_nil_of_le (by simp [hl])
  · simpa using h.cap
  · intro j w hw
    by_cases hj : j = id
    · subst hj
      rw [hu] at hw
      simp only [Option.some.injEq] at hw
      subst hw
      refine ⟨e2, u.data.take 4 ++ leN 4 (pos % 2 ^ 32) ++ u.data.drop 8, by simp only; rw [List.getElem?_set_self (by omega)], ?_, ?_, ?_, ?_, ?_, ?_⟩
      · subst hx2; exact h2
      · subst hx2; exact h3
      · rw [patch_this ht hf, setAt32, if_pos (by omega)]
      · subst hx2
        simp only [Slot.contents]
        have hd : (e.slot.buf.take e.slot.size) = u.data.map some := h5
        have h4' : e.slot.buf.take 4 = (u.data.take 4).map some := by
          rw [List.map_take, ← hd, List.take_take, Nat.min_eq_left (by omega)]
        have h8' : (e.slot.buf.drop 8).take (e.slot.size - 8) = (u.data.drop 8).map some := by
          rw [List.map_drop, ← hd, List.drop_take]
        have hlen : (e.slot.buf.take 4 ++ (leN 4 (pos % 2 ^ 32)).map some).length = 8 := by
          simp only [List.length_append, List.length_take, List.length_map, leN_length]; omega
        rw [List.take_append, List.take_of_length_le (by omega), hlen, h8', h4', List.map_append, List.map_append]
      · subst hx2
        simp only [List.length_append, List.length_take, List.length_drop, leN_length, h6]; omega
      · simp only [List.length_append, List.length_take, List.length_drop, leN_length]; omega
    · obtain ⟨y, b, g1, g2, g3, g4, g5⟩ := h.unit j w hw
      refine ⟨y, b, ?_, g2, g3, ?_, g5⟩
      · simp only
        rw [List.getElem?_set_ne (fun h' => hj h'.symm), g1]
      · rw [patch_other ?_, g4]
        intro hwt
        exact hj (tag_unique hp.once hw hu hwt ht)
  · intro i
    rw [hget i]; exact h.stack i
  · intro i w hi hw
    rw [hget i]; exact h.tagged i w hi hw

/-! ### The relation -/

/-- The members that both levels have, apart from the state and the current record. -/
structure Same (s : Book.St γ σ) (m : St γ σ) : Prop where
  g : m.g = s.g
  sheets : m.sheets = s.sheets
  cur : m.cur = s.cur
  offset : m.offset = s.offset
  writeLen : m.writeLen = s.writeLen

/-- What is known in each part of the dump; `tags` are those of the records handed out. -/
def Act (gnext : γ → Src γ) (tags : List (Option Nat)) (p : Phase) (s : Book.St γ σ) : Prop :=
  match p with
  | .init | .globals => s.bpos = [] ∧ ∀ vs g', GTrace gnext s.g vs g' → ∀ i < s.sheets.length, some i ∈ tags ++ vs.map (·.tag)
  | .sheets => (∀ p ∈ s.bpos, p.1 < s.cur ∧ p.1 < s.sheets.length) ∧ ∀ i < s.sheets.length, some i ∈ tags
  | .finish => True
  | .cont => False

/-- The `boundsheet_t` objects point to their records. -/
def Ptr (us : List U) (sd : List (Nat × Nat)) : Prop :=
  ∀ (id : Nat) (u : U) (i : Nat), us[id]? = some u → u.tag = some i → bound sd i = some id

theorem ptr_append {us : List U} {sd : List (Nat × Nat)} (h : Ptr us sd) {v : U} (hp : Patchable (us ++ [v])) :
    Ptr (us ++ [v]) (match v.tag with | some i => (i, us.length) :: sd | none => sd) := by
  intro id u i hu ht
  rcases Nat.lt_or_ge id us.length with hlt | hge
  · have hu' := hu
    rw [List.getElem?_append_left hlt] at hu'
    have hb := h id u i hu' ht
    cases hv : v.tag with
    | none => exact hb
    | some k =>
      by_cases hk : k = i
      · subst hk
        have := tag_unique hp.once hu (j := us.length) (v := v) (by simp) ht hv
        omega
      · have : (k == i) = false := by simpa using hk
        simp only [bound, List.find?_cons, this]
        exact hb
  · have : id = us.length := by
      have := (List.getElem?_eq_some_iff.mp hu).1
      simp at this; omega
    subst this
    simp only [List.getElem?_append_right (Nat.le_refl _), Nat.sub_self, List.getElem?_cons_zero, Option.some.injEq] at hu
    subst hu
    simp [ht, bound]

/-- The two levels agree after the records `us`: in the midst of a part of the dump, before clipping a record, or between
    the CONTINUE records of one. -/
inductive Sim (grow : Nat → Nat) (c : Nat) (gnext : γ → Src γ) (us : List U) (s : Book.St γ σ) (m : St γ σ) : Prop
  | plain (p : Phase) (hs : s.phase = p) (hm : m.phase = p) (same : Same s m) (act : Act gnext (us.map (·.tag)) p s) (ptr : Ptr us m.sheetData)
      (kept : Kept grow c us s.bpos [] m.mem)
  | clip (p : Phase) (u : U) (hs : s.phase = .cont) (hm : m.phase = .cont) (ps : s.prev = p) (pm : m.prev = p) (same : Same s m)
      (act : Act gnext ((us ++ [u]).map (·.tag)) p s) (fresh : Patchable (us ++ [Book.clip u]) → patch s.bpos (Book.clip u) = some (Book.clip u).data)
      (ptr : Patchable (us ++ [Book.clip u]) → Ptr (us ++ [Book.clip u]) m.sheetData)
      (sd : s.data = some u) (md : m.data = some us.length) (over : u.oversize = true) (si : s.contIdx = 0) (mi : m.contIdx = 0)
      (kept : Kept grow c us s.bpos [⟨.holding (u.data.map some), u.level, false, true⟩] m.mem)
  | cont (p : Phase) (u : U) (id k : Nat) (e : Entry) (hs : s.phase = .cont) (hm : m.phase = .cont) (ps : s.prev = p) (pm : m.prev = p) (same : Same s m)
      (act : Act gnext (us.map (·.tag)) p s) (ptr : Ptr us m.sheetData)
      (sd : s.data = some u) (md : m.data = some id) (si : s.contIdx = k + 1) (mi : m.contIdx = k + 1)
      (sr : s.realSize = u.paySize) (mr : m.realSize = u.paySize) (room : (k + 1) * maxRec ≤ u.paySize)
      (kept : Kept grow c us s.bpos [] m.mem) (obj : m.mem.get id = some e) (lvl : e.level = u.level)
      (buf : e.slot.buf.drop 4 = (u.data.drop 4).map some)

/-- Making a record, adding it, and flushing. -/
theorem new_step {us : List U} {bpos : List (Nat × Nat)} {m : Mem} (h : Kept grow c us bpos [] m) {v : U} (hp : Patchable (us ++ [v]))
    (hf : patch bpos v = some v.data) :
    ∃ m2, ((m.new grow v.level (v.data.map some)).add us.length).bind (fun m1 => m1.flushLower us.length) = some m2 ∧
      Kept grow c (us ++ [v]) bpos [] m2 ∧
      (us.length < m.cap → ∀ j x, m.get j = some x → v.level ≤ x.level → m2.get j = some x) := by
  have hn := inv_new h v.level (v.data.map some)
  obtain ⟨m1, a1, a2, a3, a4⟩ := inv_add hn (v := v) rfl rfl rfl (List.take_of_length_le (Nat.le_refl _)) (by simp [Slot.holding]) hf
  obtain ⟨m2, b1, b2, b3⟩ := flushLower_ok a2 a3 (fun w hw ht => hp.level w hw ht v (by simp))
  refine ⟨m2, by rw [a1]; exact b1, b2, fun hc j x hj hx => b3 j x ?_ hx⟩
  have hl := h.len
  simp only [List.length_nil, Nat.add_zero] at hl
  have hjl : j < us.length := by
    have := (List.getElem?_eq_some_iff.mp (get_some.mp hj).1).1
    omega
  rw [a4 j (by omega), get_some]
  obtain ⟨g1, g2⟩ := get_some.mp hj
  refine ⟨?_, g2⟩
  simp only [Mem.new, Mem.request]
  rw [if_pos (by omega), List.getElem?_append_left (by omega), g1]

/-- The state after a step, as a relation. -/
def Follows (grow : Nat → Nat) (c : Nat) (gnext : γ → Src γ) (us : List U) (v : U) (P : Pass γ σ) (s1 : Book.St γ σ) : Prop :=
  ∃ id m1 mem2, P = .ret (some id) m1 ∧ (m1.mem.add id).bind (fun x => x.flushLower id) = some mem2 ∧
    Sim grow c gnext (us ++ [v]) s1 { m1 with mem := mem2 }

theorem act_data {tags : List (Option Nat)} {p : Phase} {s : Book.St γ σ} (h : Act gnext tags p s) (ph pv : Phase) (d : Option U) (ci rs wl : Nat) :
    Act gnext tags p { s with phase := ph, prev := pv, data := d, contIdx := ci, realSize := rs, writeLen := wl } := by
  cases p <;> exact h

/-- A record came from a source. -/
theorem handle_sim {us : List U} {p : Phase} {s : Book.St γ σ} {m : St γ σ} (u : U) (hs : s.phase = p) (hm : m.phase = p) (same : Same s m)
    (act : Act gnext ((us ++ [u]).map (·.tag)) p s) (ptr : Ptr us m.sheetData) (kept : Kept grow c us s.bpos [] m.mem)
    (fresh : ∀ v : U, v.tag = u.tag → Patchable (us ++ [v]) → patch s.bpos v = some v.data) :
    (u.oversize = true → ∃ m1, handle grow u m = .again m1 ∧
      Sim grow c gnext us { s with data := some u, prev := s.phase, phase := .cont, contIdx := 0 } m1) ∧
    (u.oversize = false → Patchable (us ++ [u]) → Follows grow c gnext us u (handle grow u m) { s with data := some u }) := by
  have hl := kept.len
  simp only [List.length_nil, Nat.add_zero] at hl
  constructor
  · intro ho
    refine ⟨⟨.cont, m.phase, m.g, m.sheets, m.cur, m.offset, m.writeLen, some m.mem.units.length, 0, m.realSize,
      (match u.tag with | some i => (i, m.mem.units.length) :: m.sheetData | none => m.sheetData),
      m.mem.new grow u.level (u.data.map some)⟩, by simp only [handle, ho, if_true]; cases u.tag <;> rfl, ?_⟩
    refine .clip p u rfl rfl hs hm ⟨same.g, same.sheets, same.cur, same.offset, same.writeLen⟩ (act_data act _ _ _ _ _ _)
      (fresh _ rfl) ?_ rfl (by simp [hl]) ho rfl rfl (inv_new kept u.level (u.data.map some))
    intro hp
    have := ptr_append ptr hp
    rw [hl]
    exact this
  · intro ho hp
    obtain ⟨m2, e1, e2, _⟩ := new_step kept hp (fresh u rfl hp)
    refine ⟨us.length, _, m2, by simp only [handle, ho, Bool.false_eq_true, if_false, hl]; rfl, e1, ?_⟩
    exact .plain p hs hm ⟨same.g, same.sheets, same.cur, same.offset, same.writeLen⟩ (act_data act s.phase s.prev _ s.contIdx s.realSize s.writeLen)
      (ptr_append ptr hp) e2

/-- A CONTINUE record is made. -/
theorem continue_step {us : List U} {bpos : List (Nat × Nat)} {m : Mem} (h : Kept grow c us bpos [] m) {u : U} {id : Nat} {e : Entry} (idx size : Nat)
    (obj : m.get id = some e) (lvl : e.level = u.level) (buf : e.slot.buf.drop 4 = (u.data.drop 4).map some) (h0 : 0 < size)
    (hr : idx * maxRec + size ≤ u.paySize) (hp : Patchable (us ++ [continueRec u idx size])) :
    (¬us.length < capAt grow c us.length → m.newContinue grow id (idx * maxRec) size = none) ∧
    (us.length < capAt grow c us.length → ∃ m1 m2, m.newContinue grow id (idx * maxRec) size = some m1 ∧
      (m1.add us.length).bind (fun x => x.flushLower us.length) = some m2 ∧ Kept grow c (us ++ [continueRec u idx size]) bpos [] m2 ∧
      m2.get id = some e) := by
  have hl := h.len
  simp only [List.length_nil, Nat.add_zero] at hl
  have hcap := h.cap
  rw [hl] at hcap
  constructor
  · intro hc
    simp only [Mem.newContinue, obj, Option.bind_some]
    rw [if_pos]
    unfold Mem.request
    rw [if_neg (by omega)]
    simp
  · intro hc
    have hreq : m.request grow = m := by unfold Mem.request; rw [if_pos (by omega)]
    have hlen : e.slot.buf.length - 4 = u.data.length - 4 := by
      have := congrArg List.length buf
      simpa using this
    have hps : u.paySize = u.data.length - 4 := rfl
    have hbig : 4 + idx * maxRec + size ≤ e.slot.buf.length := by omega
    have hv : (leN 2 0x3C ++ leN 2 size).map some ++ (e.slot.buf.drop (4 + idx * maxRec)).take size =
        (continueRec u idx size).data.map some := by
      have hsz : (((u.data.drop 4).drop (idx * maxRec)).take size).length = size := by
        simp only [List.length_take, List.length_drop]; omega
      rw [continueRec, enc, hsz, ← List.drop_drop, buf]
      simp only [List.map_append, List.map_take, List.map_drop]
    have hn : m.newContinue grow id (idx * maxRec) size = some (m.new grow (continueRec u idx size).level ((continueRec u idx size).data.map some)) := by
      simp only [Mem.newContinue, obj, Option.bind_some, hreq, ne_eq, not_true_eq_false, if_false, if_pos hbig, hv, lvl]
      rfl
    obtain ⟨m2, e1, e2, e3⟩ := new_step h hp (patch_fresh (v := continueRec u idx size) (by intro i hi; simp [continueRec] at hi))
    exact ⟨_, m2, hn, e1, e2, e3 (by omega) id e obj (by rw [lvl]; exact Nat.le_refl _)⟩

theorem clip_entry (u : U) (h : u.oversize = true) : 4 ≤ u.data.length ∧ u.paySize > maxRec := by
  simp only [U.oversize, Bool.and_eq_true, decide_eq_true_eq] at h
  have h2 := h.2
  simp only [U.paySize, maxRec] at h2 ⊢
  exact ⟨by omega, by omega⟩

/-- The record is clipped and handed out. -/
theorem clip_step {us : List U} {bpos : List (Nat × Nat)} {m : Mem} {u : U} (h : Kept grow c us bpos [⟨.holding (u.data.map some), u.level, false, true⟩] m)
    (ho : u.oversize = true) (hp : Patchable (us ++ [Book.clip u])) (hf : patch bpos (Book.clip u) = some (Book.clip u).data) :
    ∃ m1 m2 e, m.clip us.length = some (u.paySize, m1) ∧ (m1.add us.length).bind (fun x => x.flushLower us.length) = some m2 ∧
      Kept grow c (us ++ [Book.clip u]) bpos [] m2 ∧ m2.get us.length = some e ∧ e.level = u.level ∧
      e.slot.buf.drop 4 = (u.data.drop 4).map some := by
  obtain ⟨h4, hbig⟩ := clip_entry u ho
  have hg : m.get us.length = some ⟨.holding (u.data.map some), u.level, false, true⟩ := get_some.mpr ⟨inv_last h, rfl⟩
  generalize hbuf : (u.data.map some).take 2 ++ (leN 2 maxRec).map some ++ (u.data.map some).drop 4 = buf
  have hbuf' : buf = (u.data.take 2 ++ leN 2 maxRec ++ u.data.drop 4).map some := by
    rw [← hbuf]; simp only [List.map_append, List.map_take, List.map_drop]
  generalize he : (⟨⟨buf, maxRec + 4, (Slot.holding (u.data.map some)).varying⟩, u.level, false, true⟩ : Entry) = e
  have hk := inv_change (e' := e) h rfl (by subst he; rfl)
  have hlen : (Book.clip u).data.length = maxRec + 4 := by
    simp only [Book.clip, List.length_take, List.length_append, List.length_drop, leN_length]
    simp only [U.paySize, maxRec] at hbig ⊢
    omega
  obtain ⟨m1, a1, a2, a3, a4⟩ := inv_add hk (v := Book.clip u) (by subst he; rfl) (by subst he; rfl) (by subst he; rfl)
    (by subst he; simp only [Slot.contents, hbuf', Book.clip, List.map_take]) (by subst he; exact hlen.symm) hf
  obtain ⟨m2, b1, b2, b3⟩ := flushLower_ok a2 a3 (fun w hw ht => by
    have := hp.level w hw ht (Book.clip u) (by simp)
    subst he; exact this)
  refine ⟨_, m2, { e with added := true }, ?_, by rw [a1]; exact b1, b2, b3 _ _ a3 (Nat.le_refl _), by subst he; rfl, ?_⟩
  · simp only [Mem.clip, hg, Option.map_some, Slot.holding, List.length_map, hbuf, ← he]
    rfl
  · subst he
    simp only [hbuf']
    rw [List.map_drop, List.map_append, List.drop_append_of_le_length (by simp [leN_length]; omega), List.drop_eq_nil_of_le (by simp [leN_length]; omega),
      List.nil_append, List.map_drop]

/-- One pass. -/
theorem sim_step {us : List U} {s : Book.St γ σ} {m : St γ σ} (h : Sim grow c gnext us s m) :
    match Book.pass gnext snext s with
    | .ub => True
    | .again s1 => Patchable us → ∃ m1, pass grow gnext snext m = .again m1 ∧ Sim grow c gnext us s1 m1
    | .ret none s1 => ∃ m1, pass grow gnext snext m = .ret none m1 ∧ m1.mem = m.mem ∧ Kept grow c us s1.bpos [] m1.mem
    | .ret (some v) s1 => Patchable (us ++ [v]) →
      if s.phase = .cont ∧ s.contIdx ≠ 0 ∧ ¬us.length < capAt grow c us.length then pass grow gnext snext m = .ub
      else Follows grow c gnext us v (pass grow gnext snext m) s1 := by
  cases h with
  | plain p hs hm same act ptr kept =>
    obtain ⟨phase, prev, g, sheets, cur, offset, wl, dt, ci, rs, bpos⟩ := s
    obtain ⟨mphase, mprev, mg, msheets, mcur, moffset, mwl, mdt, mci, mrs, sd, mem⟩ := m
    obtain ⟨e1, e2, e3, e4, e5⟩ := same
    replace e1 := e1.symm; replace e2 := e2.symm; replace e3 := e3.symm; replace e4 := e4.symm; replace e5 := e5.symm
    replace hm := hm.trans hs.symm; replace hm := hm.symm
    simp only at hs hm e1 e2 e3 e4 e5 ptr kept act
    subst hs hm e1 e2 e3 e4 e5
    cases phase with
    | cont => exact absurd act (by simp [Act])
    | init =>
      simp only [Book.pass, pass]
      intro _
      exact ⟨_, rfl, .plain .globals rfl rfl ⟨rfl, rfl, rfl, rfl, rfl⟩ act ptr kept⟩
    | finish =>
      simp only [Book.pass, pass]
      exact ⟨_, rfl, rfl, kept⟩
    | globals =>
      simp only [Book.pass, pass]
      obtain ⟨hb, hl⟩ := act
      simp only at hb hl
      cases hg : gnext g with
      | ub => trivial
      | again g1 =>
        intro _
        exact ⟨_, rfl, .plain .globals rfl rfl ⟨rfl, rfl, rfl, rfl, rfl⟩ ⟨hb, fun vs g' ht => hl vs g' (.again hg ht)⟩ ptr kept⟩
      | fin g1 =>
        intro _
        refine ⟨_, rfl, .plain .sheets rfl rfl ⟨rfl, rfl, rfl, rfl, rfl⟩ ⟨by simp [hb], ?_⟩ ptr kept⟩
        have := hl [] g1 (.fin hg)
        simpa using this
      | unit u g1 =>
        have hh := handle_sim (grow := grow) (c := c) (gnext := gnext) (us := us) (p := .globals)
          (s := ⟨.globals, prev, g1, sheets, cur, offset, wl + u.data.length, dt, ci, rs, bpos⟩)
          (m := ⟨.globals, mprev, g1, sheets, cur, offset, wl + u.data.length, mdt, mci, mrs, sd, mem⟩) u rfl rfl ⟨rfl, rfl, rfl, rfl, rfl⟩
          ⟨hb, fun vs g' ht i hi => by
            have := hl (u :: vs) g' (.unit hg ht) i hi
            simpa using this⟩ ptr kept (fun v _ _ => patch_fresh (by simp [hb]))
        simp only [Book.handle]
        by_cases ho : u.oversize = true
        · simp only [ho, if_true]
          exact fun _ => hh.1 ho
        · simp only [ho, if_false, Bool.false_eq_true]
          intro hp
          rw [if_neg (by simp)]
          exact hh.2 (by simpa using ho) hp
    | sheets =>
      obtain ⟨hb, hl⟩ := act
      simp only at hb hl
      simp only [Book.pass, pass]
      cases hsh : sheets[cur]? with
      | none => trivial
      | some sh =>
        have hlt : cur < sheets.length := (List.getElem?_eq_some_iff.mp hsh).1
        cases hg : snext sh offset wl with
        | ub => simp only [hg]
        | again sh1 =>
          simp only [hg]
          intro _
          exact ⟨_, rfl, .plain .sheets rfl rfl ⟨rfl, rfl, rfl, rfl, rfl⟩ ⟨by simpa using hb, by simpa using hl⟩ ptr kept⟩
        | fin sh1 =>
          simp only [hg]
          have htag := hl cur hlt
          rw [List.mem_map] at htag
          obtain ⟨u, hu, ht⟩ := htag
          obtain ⟨id, hid⟩ := List.mem_iff_getElem?.mp hu
          have hf : ∀ p ∈ bpos, p.1 ≠ cur := fun p hp => by have := (hb p hp).1; omega
          have hnew : ∀ p ∈ bpos ++ [(cur, offset)], p.1 < cur + 1 ∧ p.1 < sheets.length := by
            intro p hp
            simp only [List.mem_append, List.mem_singleton] at hp
            rcases hp with hp | rfl
            · have := hb p hp; omega
            · exact ⟨Nat.lt_succ_self _, hlt⟩
          have hbound := ptr id u cur hid ht
          by_cases hc : cur + 1 < sheets.length % 65536
          · rw [if_pos hc]
            intro hp
            obtain ⟨m1, a1, a2⟩ := inv_patch kept hp (pos := offset) hid ht hf
            simp only [hbound, Option.bind_some, a1]
            rw [if_pos hc]
            refine ⟨_, rfl, .plain .sheets rfl rfl ⟨rfl, rfl, rfl, rfl, rfl⟩ ⟨?_, ?_⟩ ptr a2⟩
            · simpa using hnew
            · simpa using hl
          · rw [if_neg hc]
            intro hp
            obtain ⟨m1, a1, a2⟩ := inv_patch kept hp (pos := offset) hid ht hf
            simp only [hbound, Option.bind_some, a1]
            rw [if_neg hc]
            exact ⟨_, rfl, .plain .finish rfl rfl ⟨rfl, rfl, rfl, rfl, rfl⟩ trivial ptr a2⟩
        | unit u sh1 =>
          simp only [hg]
          have hh := handle_sim (grow := grow) (c := c) (gnext := gnext) (us := us) (p := .sheets)
            (s := ⟨.sheets, prev, g, sheets.set cur sh1, cur, offset, wl + u.data.length, dt, ci, rs, bpos⟩)
            (m := ⟨.sheets, mprev, g, sheets.set cur sh1, cur, offset, wl + u.data.length, mdt, mci, mrs, sd, mem⟩) u rfl rfl ⟨rfl, rfl, rfl, rfl, rfl⟩
            ⟨by simpa using hb, fun i hi => by
              have := hl i (by simpa using hi)
              simp only [List.map_append, List.mem_append]
              exact .inl this⟩ ptr kept (fun v hv hp => patch_fresh (by
                intro i hi p hpm hpi
                have := hl p.1 (hb p hpm).2
                rw [List.mem_map] at this
                obtain ⟨w, hw, hwt⟩ := this
                obtain ⟨id, hid⟩ := List.mem_iff_getElem?.mp hw
                have hidl := (List.getElem?_eq_some_iff.mp hid).1
                have := tag_unique hp.once (i := id) (j := us.length) (u := w) (v := v) (t := i)
                  (by rw [List.getElem?_append_left hidl, hid]) (by simp) (by rw [hwt, hpi]) hi
                omega))
          simp only [Book.handle]
          by_cases ho : u.oversize = true
          · simp only [ho, if_true]
            exact fun _ => hh.1 ho
          · simp only [ho, if_false, Bool.false_eq_true]
            intro hp
            rw [if_neg (by simp)]
            exact hh.2 (by simpa using ho) hp
  | clip p u hs hm ps pm same act fresh ptr sd md over si mi kept =>
    obtain ⟨phase, prev, g, sheets, cur, offset, wl, dt, ci, rs, bpos⟩ := s
    obtain ⟨mphase, mprev, mg, msheets, mcur, moffset, mwl, mdt, mci, mrs, sdat, mem⟩ := m
    obtain ⟨e1, e2, e3, e4, e5⟩ := same
    replace e1 := e1.symm; replace e2 := e2.symm; replace e3 := e3.symm; replace e4 := e4.symm; replace e5 := e5.symm
    simp only at hs hm ps pm e1 e2 e3 e4 e5 ptr kept act fresh sd md si mi
    subst hs hm ps pm e1 e2 e3 e4 e5 sd md si mi
    simp only [Book.pass, pass, if_true]
    intro hp
    rw [if_neg (by simp)]
    obtain ⟨m1, m2, e, a1, a2, a3, a4, a5, a6⟩ := clip_step kept over hp (fresh hp)
    obtain ⟨h4, hbig⟩ := clip_entry u over
    refine ⟨us.length, _, m2, by simp only [a1]; rfl, a2, ?_⟩
    refine .cont _ u us.length 0 e rfl rfl rfl rfl ⟨rfl, rfl, rfl, rfl, rfl⟩ ?_ (ptr hp) rfl rfl rfl rfl rfl rfl (by omega) a3 a4 a5 a6
    have : (us ++ [Book.clip u]).map (·.tag) = (us ++ [u]).map (·.tag) := by simp [Book.clip]
    rw [this]
    exact act_data act _ _ _ _ _ _
  | cont p u id k e hs hm ps pm same act ptr sd md si mi sr mr room kept obj lvl buf =>
    obtain ⟨phase, prev, g, sheets, cur, offset, wl, dt, ci, rs, bpos⟩ := s
    obtain ⟨mphase, mprev, mg, msheets, mcur, moffset, mwl, mdt, mci, mrs, sdat, mem⟩ := m
    obtain ⟨e1, e2, e3, e4, e5⟩ := same
    replace e1 := e1.symm; replace e2 := e2.symm; replace e3 := e3.symm; replace e4 := e4.symm; replace e5 := e5.symm
    simp only at hs hm ps pm e1 e2 e3 e4 e5 ptr kept act sd md si mi sr mr obj
    subst hs hm ps pm e1 e2 e3 e4 e5 sd md si mi sr mr
    have hl := kept.len
    simp only [List.length_nil, Nat.add_zero] at hl
    have hact : ∀ v : U, Act gnext ((us ++ [v]).map (·.tag)) mprev (⟨.cont, mprev, g, sheets, cur, offset, wl, some u, k + 1, u.paySize, bpos⟩ : Book.St γ σ) := by
      intro v
      cases mprev with
      | cont => exact absurd act (by simp [Act])
      | finish => trivial
      | sheets => exact ⟨act.1, fun i hi => by simp only [List.map_append, List.mem_append]; exact .inl (act.2 i hi)⟩
      | init => exact ⟨act.1, fun vs g' ht i hi => by
          have := act.2 vs g' ht i hi
          simp only [List.map_append, List.mem_append] at this ⊢
          rcases this with h | h
          · exact .inl (.inl h)
          · exact .inr h⟩
      | globals => exact ⟨act.1, fun vs g' ht i hi => by
          have := act.2 vs g' ht i hi
          simp only [List.map_append, List.mem_append] at this ⊢
          rcases this with h | h
          · exact .inl (.inl h)
          · exact .inr h⟩
    have hptr : ∀ v : U, v.tag = none → Patchable (us ++ [v]) → Ptr (us ++ [v]) sdat := by
      intro v hv hp
      have := ptr_append ptr hp
      rw [hv] at this
      exact this
    simp only [Book.pass, pass, if_neg (Nat.succ_ne_zero k)]
    by_cases hd : u.paySize / maxRec > k + 1
    · rw [if_pos hd]
      have hroom : (k + 1) * maxRec + maxRec ≤ u.paySize := by
        have h1 := Nat.div_mul_le_self u.paySize maxRec
        have h2 : (k + 1 + 1) * maxRec ≤ (u.paySize / maxRec) * maxRec := Nat.mul_le_mul_right _ (by omega)
        rw [Nat.add_mul (k + 1)] at h2
        omega
      intro hp
      obtain ⟨c1, c2⟩ := continue_step kept (k + 1) maxRec obj lvl buf (by decide) hroom hp
      by_cases hc : us.length < capAt grow c us.length
      · rw [if_neg (by simp [hc]), if_pos hd]
        obtain ⟨m1, m2, a1, a2, a3, a4⟩ := c2 hc
        refine ⟨us.length, _, m2, by simp only [a1, hl]; rfl, a2, ?_⟩
        refine .cont _ u id (k + 1) e rfl rfl rfl rfl ⟨rfl, rfl, rfl, rfl, rfl⟩ ?_ (hptr _ rfl hp) rfl rfl rfl rfl rfl rfl
          (by rw [Nat.add_mul (k + 1)]; omega) a3 a4 lvl buf
        exact act_data (hact _) _ _ _ _ _ _
      · rw [if_pos ⟨trivial, Nat.succ_ne_zero k, hc⟩, if_pos hd, c1 hc]
    · rw [if_neg hd, if_neg hd]
      by_cases hz : u.paySize - (k + 1) * maxRec ≠ 0
      · rw [if_pos hz, if_pos hz]
        intro hp
        obtain ⟨c1, c2⟩ := continue_step kept (k + 1) (u.paySize - (k + 1) * maxRec) obj lvl buf (by omega) (by omega) hp
        by_cases hc : us.length < capAt grow c us.length
        · rw [if_neg (by simp [hc])]
          obtain ⟨m1, m2, a1, a2, a3, a4⟩ := c2 hc
          refine ⟨us.length, _, m2, by simp only [a1, hl]; rfl, a2, ?_⟩
          exact .plain mprev rfl rfl ⟨rfl, rfl, rfl, rfl, rfl⟩ (act_data (hact _) _ _ _ _ _ _) (hptr _ rfl hp) a3
        · rw [if_pos ⟨trivial, Nat.succ_ne_zero k, hc⟩, c1 hc]
      · rw [if_neg hz, if_neg hz]
        intro _
        exact ⟨_, rfl, .plain mprev rfl rfl ⟨rfl, rfl, rfl, rfl, rfl⟩ (act_data act _ _ _ _ _ _) ptr kept⟩

end Xls.Store
