import Verif.Mem.Lemmas
namespace Xls.Mem

/-- Kinds kept in sets. -/
def Kind.keyed (k : Kind) : Prop := k = .cell ∨ k = .note ∨ k = .col ∨ k = .row

/-- The font and the number format of each format are there. -/
def St.XfRefs (s : St) : Prop :=
  ∀ x X, s.xfs.pool.live x = some X → (∀ f ∈ X.font, s.fonts.pool.Has f) ∧ ∀ f ∈ X.format, s.formats.pool.Has f

/-- What the pointers of an object need. -/
structure Thing.Refs (s : St) (t : Thing) : Prop where
  xf : ∀ x ∈ t.xf, s.xfs.pool.Has x
  stacks : ∀ m ∈ t.stacks, ∃ u, s.things.live m = some u ∧ u.kind = .stack
  some : t.kind = .cell ∨ t.kind = .note → t.xf ≠ none
  long : t.long = true → t.kind = .cell

structure Inv (s : St) : Prop where
  sheets : s.sheets.Ok
  all : ∀ n, n < s.sheets.pool.objs.length → s.sheets.pool.Has n
  things : s.things.Ok
  fonts : s.fonts.Ok
  formats : s.formats.Ok
  xfs : s.xfs.Ok
  styles : s.styles.Ok
  bounds : s.bounds.Ok
  items : s.items.Ok
  font0 : s.fonts.pool.Has 0
  font5 : 5 ≤ s.fonts.list.length
  xf15 : s.xfs.pool.Has 15
  xfrefs : s.XfRefs
  member : ∀ n sh, s.sheets.pool.live n = some sh → ∀ k, (sh.list k).Nodup ∧
    ∀ m, m ∈ sh.list k ↔ ∃ t, s.things.live m = some t ∧ t.kind = k ∧ t.sheet = n
  home : ∀ m t, s.things.live m = some t → s.sheets.pool.Has t.sheet
  uniq : ∀ m m' t t', s.things.live m = some t → s.things.live m' = some t' → t.kind.keyed → t.kind = t'.kind → t.sheet = t'.sheet →
    t.key = t'.key → m = m'
  refs : ∀ m t, s.things.live m = some t → t.Refs s
  hints : ∀ n sh, s.sheets.pool.live n = some sh → (∀ h ∈ sh.hint, h ∈ sh.list .cell) ∧ ∀ h ∈ sh.noteHint, h ∈ sh.list .note
  labels : s.labels.Nodup ∧ ∀ m, m ∈ s.labels ↔ ∃ t, s.things.live m = some t ∧ t.long = true
  entries : s.bounds.list.length = s.sheets.pool.objs.length

theorem Inv.start : Inv start := by
  have hl : ∀ n, Mem.start.things.live n = none := fun n => by simp [Mem.start, Pool.live]
  have hs : ∀ n, Mem.start.sheets.pool.live n = none := fun n => by simp [Mem.start, Pool.live]
  refine ⟨⟨⟨by simp [Mem.start], fun n => by simp [Mem.start]⟩, by simp [Mem.start], fun n => ?_⟩, fun n h => by simp [Mem.start] at h,
    ⟨by simp [Mem.start], fun n => by simp [Mem.start]⟩, of_ok _, ⟨⟨by simp [Mem.start], fun n => by simp [Mem.start]⟩, by simp [Mem.start], fun n => ?_⟩,
    of_ok _, of_ok _, ⟨⟨by simp [Mem.start], fun n => by simp [Mem.start]⟩, by simp [Mem.start], fun n => ?_⟩, of_ok _, ⟨(), by decide⟩, by decide,
    ⟨⟨none, none⟩, by decide⟩, ?_, fun n sh h => ?_, fun m t h => ?_, fun m m' t t' h => ?_, fun m t h => ?_, fun n sh h => ?_,
    ⟨by simp [Mem.start], fun m => ?_⟩, rfl⟩
  · simp [Mem.start, Pool.Has, Pool.live]
  · simp [Mem.start, Pool.Has, Pool.live]
  · simp [Mem.start, Pool.Has, Pool.live]
  · intro x X h
    have hx : x < 21 := by
      have := Pool.live_lt h
      simpa [Mem.start, Own.of] using this
    have hX : X = ⟨Styles.defaultFontOf x, none⟩ := by
      have : Mem.start.xfs.pool.live x = ((List.range 21).map fun i => (⟨Styles.defaultFontOf i, none⟩ : Xf))[x]? := of_live _ _
      rw [this, List.getElem?_map, List.getElem?_range hx] at h
      simpa using h.symm
    subst hX
    refine ⟨?_, by simp⟩
    intro f hf
    have h5 : f < 5 := by
      simp only [Option.mem_def, Styles.defaultFontOf] at hf
      split at hf
      · simp at hf
      · split at hf
        · simp at hf; omega
        · split at hf
          · simp at hf; omega
          · split at hf
            · simp at hf
            · split at hf <;> (simp at hf; omega)
    refine ⟨(), ?_⟩
    show (Own.of (List.replicate 5 ())).pool.live f = _
    rw [of_live, List.getElem?_replicate, if_pos h5]
  · rw [hs] at h; simp at h
  · rw [hl] at h; simp at h
  · rw [hl] at h; simp at h
  · rw [hl] at h; simp at h
  · rw [hs] at h; simp at h
  · simp only [hl]
    simp [Mem.start]

theorem touch {s : St} (hr : s.XfRefs) {x : Nat} {X : Xf} (h : s.xfs.pool.live x = some X) : s.touchXf x = some X := by
  obtain ⟨h1, h2⟩ := hr x X h
  unfold St.touchXf
  rw [h, Option.bind_some]
  have e1 : (X.font.elim (some ()) fun f => s.fonts.pool.live f) = some () := by
    cases hf : X.font with
    | none => rfl
    | some f => obtain ⟨u, hu⟩ := h1 f hf; exact hu
  have e2 : (X.format.elim (some ()) fun f => s.formats.pool.live f) = some () := by
    cases hf : X.format with
    | none => rfl
    | some f => obtain ⟨u, hu⟩ := h2 f hf; exact hu
  rw [e1, e2]
  rfl

theorem touch_opt {s : St} (hr : s.XfRefs) {x : Option Nat} (h : ∀ y ∈ x, s.xfs.pool.Has y) :
    (x.elim (some ()) fun x => (s.touchXf x).map fun _ => ()) = some () := by
  cases x with
  | none => rfl
  | some y =>
    obtain ⟨X, hX⟩ := h y rfl
    simp [touch hr hX]

/-- Other formats, all of those before among them. -/
theorem Inv.withXfs {s : St} (h : Inv s) {o : Own Xf} (ho : o.Ok) (hm : ∀ x, s.xfs.pool.Has x → o.pool.Has x)
    (hr : { s with xfs := o }.XfRefs) : Inv { s with xfs := o } :=
  { h with
    xfs := ho
    xf15 := hm _ h.xf15
    xfrefs := hr
    refs := fun m t ht => ⟨fun x hx => hm x ((h.refs m t ht).xf x hx), (h.refs m t ht).stacks, (h.refs m t ht).some, (h.refs m t ht).long⟩ }

theorem Inv.addXf {s : St} (h : Inv s) {X : Xf} (hf : ∀ f ∈ X.font, s.fonts.pool.Has f) (hg : ∀ f ∈ X.format, s.formats.pool.Has f) :
    Inv { s with xfs := s.xfs.add X } := by
  refine h.withXfs (h.xfs.add X) (fun x hx => add_has hx) ?_
  intro x Y hY
  have hY : (s.xfs.add X).pool.live x = some Y := hY
  rw [add_live] at hY
  by_cases e : x = s.xfs.pool.objs.length
  · rw [if_pos e] at hY
    simp only [Option.some.injEq] at hY
    subst hY
    exact ⟨hf, hg⟩
  · rw [if_neg e] at hY
    exact h.xfrefs x Y hY

theorem Inv.addFont {s : St} (h : Inv s) : Inv { s with fonts := s.fonts.add () } :=
  { h with
    fonts := h.fonts.add ()
    font0 := add_has h.font0
    font5 := by show 5 ≤ (s.fonts.list ++ [_]).length; have := h.font5; simp only [List.length_append]; omega
    xfrefs := fun x X hX => ⟨fun f hf => add_has ((h.xfrefs x X hX).1 f hf), (h.xfrefs x X hX).2⟩
    refs := fun m t ht => ⟨(h.refs m t ht).xf, (h.refs m t ht).stacks, (h.refs m t ht).some, (h.refs m t ht).long⟩ }

theorem Inv.addFormat {s : St} (h : Inv s) : Inv { s with formats := s.formats.add () } :=
  { h with
    formats := h.formats.add ()
    xfrefs := fun x X hX => ⟨(h.xfrefs x X hX).1, fun f hf => add_has ((h.xfrefs x X hX).2 f hf)⟩
    refs := fun m t ht => ⟨(h.refs m t ht).xf, (h.refs m t ht).stacks, (h.refs m t ht).some, (h.refs m t ht).long⟩ }

theorem Inv.putXf {s : St} (h : Inv s) {x : Nat} {X : Xf} (hx : s.xfs.pool.Has x) (hf : ∀ f ∈ X.font, s.fonts.pool.Has f)
    (hg : ∀ f ∈ X.format, s.formats.pool.Has f) : ∃ P, s.xfs.pool.put x X = some P ∧ Inv { s with xfs := { s.xfs with pool := P } } ∧
    (∀ y, P.Has y ↔ s.xfs.pool.Has y) ∧ P.live x = some X := by
  obtain ⟨P, h1, h2, h3, h4⟩ := Pool.put_some X hx
  have hh : ∀ y, P.Has y ↔ s.xfs.pool.Has y := by
    intro y
    unfold Pool.Has
    simp only [h4]
    by_cases e : y = x
    · subst e; simp; exact hx
    · simp [e]
  refine ⟨P, h1, h.withXfs ⟨h.xfs.pool.put h1, h.xfs.nodup, fun n => ?_⟩ (fun y hy => (hh y).2 hy) ?_, hh, by rw [h4, if_pos rfl]⟩
  · rw [hh]; exact h.xfs.mem n
  · intro y Y hY
    have hY : P.live y = some Y := hY
    rw [h4] at hY
    by_cases e : y = x
    · rw [if_pos e] at hY
      simp only [Option.some.injEq] at hY
      subst hY
      exact ⟨hf, hg⟩
    · rw [if_neg e] at hY
      exact h.xfrefs y Y hY

theorem Inv.ret {s : St} (h : Inv s) (v : Val) : Inv (s.ret v) :=
  { h with
    xfrefs := h.xfrefs
    refs := fun m t ht => ⟨(h.refs m t ht).xf, (h.refs m t ht).stacks, (h.refs m t ht).some, (h.refs m t ht).long⟩ }

/-- An object gets another format. -/
theorem Inv.setXf {s : St} (h : Inv s) {n y : Nat} {t : Thing} (ht : s.things.live n = some t) (hy : s.xfs.pool.Has y) :
    ∃ P, s.things.put n { t with xf := some y } = some P ∧ Inv { s with things := P } ∧ P.objs.length = s.things.objs.length ∧
      ∀ m, P.live m = if m = n then some { t with xf := some y } else s.things.live m := by
  obtain ⟨P, h1, h2, h3, h4⟩ := Pool.put_some { t with xf := some y } ⟨t, ht⟩
  have back : ∀ m u, P.live m = some u → ∃ v, s.things.live m = some v ∧ u.kind = v.kind ∧ u.sheet = v.sheet ∧ u.key = v.key ∧
      u.stacks = v.stacks ∧ u.long = v.long ∧ (u.xf = v.xf ∨ u.xf = some y) := by
    intro m u hu
    rw [h4] at hu
    by_cases e : m = n
    · rw [if_pos e] at hu
      simp only [Option.some.injEq] at hu
      subst hu
      subst e
      exact ⟨t, ht, rfl, rfl, rfl, rfl, rfl, .inr rfl⟩
    · rw [if_neg e] at hu
      exact ⟨u, hu, rfl, rfl, rfl, rfl, rfl, .inl rfl⟩
  have forth : ∀ m v, s.things.live m = some v → ∃ u, P.live m = some u ∧ u.kind = v.kind ∧ u.sheet = v.sheet ∧ u.key = v.key ∧ u.long = v.long := by
    intro m v hv
    by_cases e : m = n
    · subst e
      rw [ht] at hv
      simp only [Option.some.injEq] at hv
      subst hv
      exact ⟨{ t with xf := some y }, by rw [h4, if_pos rfl], rfl, rfl, rfl, rfl⟩
    · exact ⟨v, by rw [h4, if_neg e]; exact hv, rfl, rfl, rfl, rfl⟩
  refine ⟨P, h1, { h with
    things := h.things.put h1
    xfrefs := h.xfrefs
    member := ?_
    home := ?_
    uniq := ?_
    refs := ?_
    labels := ?_ }, h2, h4⟩
  · intro k sh hk j
    refine ⟨(h.member k sh hk j).1, fun m => ?_⟩
    rw [(h.member k sh hk j).2 m]
    constructor
    · rintro ⟨v, hv, rfl, rfl⟩
      obtain ⟨u, hu, a, b, _⟩ := forth m v hv
      exact ⟨u, hu, a, b⟩
    · rintro ⟨u, hu, rfl, rfl⟩
      obtain ⟨v, hv, a, b, _⟩ := back m u hu
      exact ⟨v, hv, a.symm, b.symm⟩
  · intro m u hu
    obtain ⟨v, hv, _, b, _⟩ := back m u hu
    show s.sheets.pool.Has u.sheet
    rw [b]; exact h.home m v hv
  · intro m m' u u' hu hu' hk e1 e2 e3
    obtain ⟨v, hv, a, b, c, _⟩ := back m u hu
    obtain ⟨v', hv', a', b', c', _⟩ := back m' u' hu'
    exact h.uniq m m' v v' hv hv' (by rw [← a]; exact hk) (by rw [← a, ← a']; exact e1) (by rw [← b, ← b']; exact e2) (by rw [← c, ← c']; exact e3)
  · intro m u hu
    obtain ⟨v, hv, a, b, c, d, e, f⟩ := back m u hu
    have r := h.refs m v hv
    refine ⟨fun x hx => ?_, fun k hk => ?_, fun hk => ?_, fun hl => ?_⟩
    · rcases f with f | f
      · rw [f] at hx; exact r.xf x hx
      · rw [f] at hx
        simp only [Option.mem_def, Option.some.injEq] at hx
        subst hx
        exact hy
    · rw [d] at hk
      obtain ⟨w, hw, hk'⟩ := r.stacks k hk
      obtain ⟨w', hw', a', _⟩ := forth k w hw
      exact ⟨w', hw', by rw [a']; exact hk'⟩
    · rcases f with f | f
      · rw [f]; exact r.some (by rw [← a]; exact hk)
      · rw [f]; simp
    · rw [a]; exact r.long (by rw [← e]; exact hl)
  · refine ⟨h.labels.1, fun m => ?_⟩
    rw [h.labels.2 m]
    constructor
    · rintro ⟨v, hv, hl⟩
      obtain ⟨u, hu, _, _, _, e⟩ := forth m v hv
      exact ⟨u, hu, by rw [e]; exact hl⟩
    · rintro ⟨u, hu, hl⟩
      obtain ⟨v, hv, _, _, _, _, e, _⟩ := back m u hu
      exact ⟨v, hv, by rw [← e]; exact hl⟩

end Xls.Mem
