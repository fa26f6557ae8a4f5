import Verif.Mem.Step
namespace Xls.Mem

theorem flatMap_nodup {f : Kind → List Nat} (h1 : ∀ k, (f k).Nodup) (h2 : ∀ j k m, m ∈ f j → m ∈ f k → j = k) :
    ∀ {l : List Kind}, l.Nodup → (l.flatMap f).Nodup := by
  intro l
  induction l with
  | nil => intro _; simp
  | cons a r ih =>
    intro h
    rw [List.nodup_cons] at h
    rw [List.flatMap_cons, List.nodup_append]
    refine ⟨h1 a, ih h.2, ?_⟩
    intro x hx y hy e
    subst e
    obtain ⟨k, hk, hk'⟩ := List.mem_flatMap.1 hy
    have := h2 a k x hx hk'
    subst this
    exact h.1 hk

theorem Kind.all_nodup : Kind.all.Nodup := by decide

theorem Kind.mem_all (k : Kind) : k ∈ Kind.all := by cases k <;> decide

theorem destroys {l : List Nat} : ∀ {s : St}, s.XfRefs → s.things.Ok → l.Nodup →
    (∀ m ∈ l, ∃ t, s.things.live m = some t ∧ ∀ x ∈ t.xf, s.xfs.pool.Has x) →
    ∃ P L, l.foldlM St.destroy s = some { s with things := P, labels := L } ∧ P.Ok ∧ P.objs.length = s.things.objs.length ∧
      ∀ m, P.live m = if m ∈ l then none else s.things.live m := by
  induction l with
  | nil => intro s _ h _ _; exact ⟨s.things, s.labels, rfl, h, rfl, fun m => by simp⟩
  | cons a r ih =>
    intro s hr h hn hh
    rw [List.nodup_cons] at hn
    obtain ⟨t, ht, hx⟩ := hh a (by simp)
    obtain ⟨P, h1, h2, h3, h4, h5⟩ := destroy_some hr ht hx
    obtain ⟨Q, L, g1, g2, g3, g4⟩ := ih (s := { s with things := P, labels := if t.long then s.labels.erase a else s.labels }) hr (h.del h1) hn.2 (by
      intro m hm
      obtain ⟨u, hu, hu'⟩ := hh m (by simp [hm])
      refine ⟨u, ?_, hu'⟩
      show P.live m = _
      rw [h4, if_neg (by rintro rfl; exact hn.1 hm)]
      exact hu)
    refine ⟨Q, L, ?_, g2, by rw [g3]; exact h2, fun m => ?_⟩
    · rw [List.foldlM_cons, h5]; exact g1
    · rw [g4]
      show (if m ∈ r then none else P.live m) = _
      rw [h4]
      by_cases e : m = a
      · simp [e]
      · by_cases e' : m ∈ r <;> simp [e, e']

/-- What is left while the sheets of `l` are still to be deleted. -/
structure Left (l : List Nat) (s : St) : Prop where
  xfrefs : s.XfRefs
  things : s.things.Ok
  sheets : s.sheets.pool.Ok
  there : ∀ n ∈ l, s.sheets.pool.Has n
  member : ∀ n ∈ l, ∀ sh, s.sheets.pool.live n = some sh → ∀ k, (sh.list k).Nodup ∧
    ∀ m, m ∈ sh.list k ↔ ∃ t, s.things.live m = some t ∧ t.kind = k ∧ t.sheet = n
  home : ∀ m t, s.things.live m = some t → t.sheet ∈ l
  xf : ∀ m t, s.things.live m = some t → ∀ x ∈ t.xf, s.xfs.pool.Has x
  only : ∀ n, s.sheets.pool.Has n → n ∈ l

theorem endSheets {l : List Nat} : ∀ {s : St}, l.Nodup → Left l s →
    ∃ T L S, l.foldlM St.endSheet s = some { s with things := T, labels := L, sheets := { s.sheets with pool := S } } ∧ Gone T ∧ Gone S ∧
      T.objs.length = s.things.objs.length ∧ S.objs.length = s.sheets.pool.objs.length := by
  induction l with
  | nil =>
    intro s _ h
    refine ⟨s.things, s.labels, s.sheets.pool, rfl, gone_of h.things fun n => ?_, gone_of h.sheets fun n => ?_, rfl, rfl⟩
    · cases e : s.things.live n with
      | none => rfl
      | some t => exact absurd (h.home n t e) (by simp)
    · cases e : s.sheets.pool.live n with
      | none => rfl
      | some t => exact absurd (h.only n ⟨t, e⟩) (by simp)
  | cons a r ih =>
    intro s hn h
    rw [List.nodup_cons] at hn
    obtain ⟨sh, hsh⟩ := h.there a (by simp)
    have hm := h.member a (by simp) sh hsh
    have hmem : ∀ m, m ∈ Kind.all.flatMap sh.list ↔ ∃ t, s.things.live m = some t ∧ t.sheet = a := by
      intro m
      rw [List.mem_flatMap]
      constructor
      · rintro ⟨k, _, hk⟩
        obtain ⟨t, ht, _, hs⟩ := ((hm k).2 m).1 hk
        exact ⟨t, ht, hs⟩
      · rintro ⟨t, ht, hs⟩
        exact ⟨t.kind, Kind.mem_all _, ((hm _).2 m).2 ⟨t, ht, rfl, hs⟩⟩
    obtain ⟨P, L, h1, h2, h3, h4⟩ := destroys h.xfrefs h.things (flatMap_nodup (fun k => (hm k).1) (by
      intro j k m h1 h2
      obtain ⟨t, ht, hk, _⟩ := ((hm j).2 m).1 h1
      obtain ⟨u, hu, hk', _⟩ := ((hm k).2 m).1 h2
      rw [ht] at hu
      simp only [Option.some.injEq] at hu
      subst hu
      rw [← hk, ← hk']) Kind.all_nodup) (by
      intro m hm'
      obtain ⟨t, ht, _⟩ := (hmem m).1 hm'
      exact ⟨t, ht, h.xf m t ht⟩)
    obtain ⟨S, g1, g2, g3, g4⟩ := Pool.del_some (P := s.sheets.pool) ⟨sh, hsh⟩
    have hlive : ∀ m t, P.live m = some t ↔ s.things.live m = some t ∧ t.sheet ≠ a := by
      intro m t
      rw [h4]
      by_cases e : m ∈ Kind.all.flatMap sh.list
      · rw [if_pos e]
        obtain ⟨u, hu, hu'⟩ := (hmem m).1 e
        rw [hu]
        constructor
        · intro x; simp at x
        · rintro ⟨x, y⟩
          simp only [Option.some.injEq] at x
          subst x
          exact absurd hu' y
      · rw [if_neg e]
        constructor
        · intro x; exact ⟨x, fun y => e ((hmem m).2 ⟨t, x, y⟩)⟩
        · rintro ⟨x, _⟩; exact x
    obtain ⟨T, L', S', i1, i2, i3, i4, i5⟩ := ih (s := { s with things := P, labels := L, sheets := { s.sheets with pool := S } }) hn.2
      { xfrefs := h.xfrefs
        things := h2
        sheets := h.sheets.del g1
        there := by
          intro n hnr
          obtain ⟨b, hb⟩ := h.there n (by simp [hnr])
          refine ⟨b, ?_⟩
          show S.live n = _
          rw [g4, if_neg (by rintro rfl; exact hn.1 hnr)]
          exact hb
        member := by
          intro n hnr q hq k
          have hna : n ≠ a := by rintro rfl; exact hn.1 hnr
          have hq : S.live n = some q := hq
          rw [g4, if_neg hna] at hq
          refine ⟨(h.member n (by simp [hnr]) q hq k).1, fun m => ?_⟩
          rw [(h.member n (by simp [hnr]) q hq k).2 m]
          constructor
          · rintro ⟨t, ht, e1, e2⟩
            exact ⟨t, (hlive m t).2 ⟨ht, by rw [e2]; exact hna⟩, e1, e2⟩
          · rintro ⟨t, ht, e1, e2⟩
            exact ⟨t, ((hlive m t).1 ht).1, e1, e2⟩
        home := by
          intro m t ht
          obtain ⟨x, y⟩ := (hlive m t).1 ht
          have := h.home m t x
          simp only [List.mem_cons] at this
          exact this.resolve_left y
        xf := fun m t ht => h.xf m t ((hlive m t).1 ht).1
        only := by
          rintro n ⟨b, hb⟩
          have hb : S.live n = some b := hb
          rw [g4] at hb
          by_cases e : n = a
          · rw [if_pos e] at hb; simp at hb
          · rw [if_neg e] at hb
            have := h.only n ⟨b, hb⟩
            simp only [List.mem_cons] at this
            exact this.resolve_left e }
    refine ⟨T, L', S', ?_, i2, i3, by rw [i4]; exact h3, by rw [i5]; exact g2⟩
    rw [List.foldlM_cons]
    have : s.endSheet a = some { s with things := P, labels := L, sheets := { s.sheets with pool := S } } := by
      unfold St.endSheet
      rw [hsh, Option.bind_some, h1, Option.bind_some, g1, Option.map_some]
    rw [this]
    exact i1

theorem finish_ok {s : St} (h : Inv s) : ∃ s', finish s = some s' ∧ Gone s'.sheets.pool ∧ Gone s'.things ∧ Gone s'.fonts.pool ∧ Gone s'.formats.pool ∧
    Gone s'.xfs.pool ∧ Gone s'.styles.pool ∧ Gone s'.bounds.pool ∧ Gone s'.items.pool := by
  obtain ⟨T, L, S, h1, h2, h3, _, _⟩ := endSheets h.sheets.nodup (s := s)
    { xfrefs := h.xfrefs
      things := h.things
      sheets := h.sheets.pool
      there := fun n hn => (h.sheets.mem n).1 hn
      member := fun n _ sh hsh k => h.member n sh hsh k
      home := fun m t ht => (h.sheets.mem _).2 (h.home m t ht)
      xf := fun m t ht => (h.refs m t ht).xf
      only := fun n hn => (h.sheets.mem n).2 hn }
  obtain ⟨it, a1, a2, _⟩ := h.items.clear
  obtain ⟨fo, b1, b2, _⟩ := h.fonts.clear
  obtain ⟨fm, c1, c2, _⟩ := h.formats.clear
  obtain ⟨xf, d1, d2, _⟩ := h.xfs.clear
  obtain ⟨st, e1, e2, _⟩ := h.styles.clear
  obtain ⟨bo, f1, f2, _⟩ := h.bounds.clear
  refine ⟨{ s with things := T, labels := L, sheets := ⟨S, []⟩, items := it, fonts := fo, formats := fm, xfs := xf, styles := st, bounds := bo },
    ?_, h3, h2, b2, c2, d2, e2, f2, a2⟩
  unfold finish
  rw [h1, Option.bind_some]
  dsimp only
  rw [a1, Option.bind_some, b1, Option.bind_some, c1, Option.bind_some, d1, Option.bind_some, e1, Option.bind_some, f1, Option.map_some]

end Xls.Mem
