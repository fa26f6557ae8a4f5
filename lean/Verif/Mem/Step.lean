import Verif.Mem.Rel
namespace Xls.Mem

theorem Rel.sheet? {p : List Call} {s : St} (r : Rel p s) (h : Inv s) {i : Nat} (hi : At p .sheet i) :
    ∃ n sh, s.sheet? i = some n ∧ s.sheets.pool.live n = some sh ∧ s.res[i]? = some (.sheet n) := by
  obtain ⟨n, hn⟩ := r.sheet i hi
  obtain ⟨sh, hsh⟩ := h.all n (r.lt i n hn)
  exact ⟨n, sh, by simp [St.sheet?, hn], hsh, hn⟩

theorem Rel.font? {p : List Call} {s : St} (r : Rel p s) {i : Nat} (hi : At p .font i) : ∃ n, s.font? i = some n ∧ s.fonts.pool.Has n := by
  obtain ⟨n, hn, h⟩ := r.font i hi
  exact ⟨n, by simp [St.font?, hn], h⟩

theorem Rel.format? {p : List Call} {s : St} (r : Rel p s) {i : Nat} (hi : At p .format i) : ∃ n, s.format? i = some n ∧ s.formats.pool.Has n := by
  obtain ⟨n, hn, h⟩ := r.format i hi
  exact ⟨n, by simp [St.format?, hn], h⟩

theorem Rel.xf? {p : List Call} {s : St} (r : Rel p s) {i : Nat} (hi : At p .xf i) : ∃ n, s.xf? i = some n ∧ s.xfs.pool.Has n := by
  obtain ⟨n, hn, h⟩ := r.xf i hi
  exact ⟨n, by simp [St.xf?, hn], h⟩

theorem Rel.stack? {p : List Call} {s : St} (r : Rel p s) {i : Nat} (hi : At p .stack i) :
    ∃ n, s.thing? i = some n ∧ ∃ u, s.things.live n = some u ∧ u.kind = .stack := by
  obtain ⟨n, t, hn, h⟩ := r.stack i hi
  exact ⟨n, by simp [St.thing?, hn], t, h⟩

theorem Rel.cell? {p : List Call} {s : St} (r : Rel p s) {i : Nat} (hi : Current p i) :
    ∃ n t, s.thing? i = some n ∧ s.things.live n = some t ∧ (t.kind = .cell ∨ t.kind = .note) := by
  have hi' := hi
  obtain ⟨c, pl, h1, h2, _⟩ := hi'
  obtain ⟨n, sh, h3, _, _, h4, _⟩ := r.cell i c pl h1 h2
  obtain ⟨t, ht, hk, _⟩ := h4 hi
  refine ⟨n, t, by simp [St.thing?, h3], ht, ?_⟩
  rw [hk]; cases pl.1 <;> simp [kindOf]

theorem Rel.ready {p : List Call} {s : St} (r : Rel p s) {a : Act} (ha : a.Fine p) : a.Ready s := by
  cases a with
  | change f g found => exact ⟨fun k hk => r.font? (ha.1 k hk), fun k hk => r.format? (ha.2 k hk)⟩
  | take x => exact r.xf? ha
  | _ => trivial

theorem kills_of {s : St} (h : Inv s) {t : Thing} {sh : Sheet} (hs : s.sheets.pool.live t.sheet = some sh) {c : Call}
    {pl : Bool × Nat × (Nat × Nat)} (hw : c.writes = some pl) (hk : t.kind = kindOf pl.1) (hr : s.res[pl.2.1]? = some (.sheet t.sheet))
    (hkey : t.key = pl.2.2) : Kills s c (s.existing sh t) := by
  have hkd : t.kind.keyed := by rw [hk]; cases pl.1 <;> simp [kindOf, Kind.keyed]
  have same := h.same hs hkd
  refine ⟨fun m hm => ?_, fun pl' hw' m u hu hk' hr' hkey' => ?_⟩
  · rw [Option.mem_def] at hm
    rw [hm] at same
    obtain ⟨u, hu, e1, e2, e3, e4⟩ := same
    exact ⟨u, hu, by rw [e1]; exact e4, .inl ⟨pl, hw, by rw [e1, hk], by rw [hr, e2], by rw [e3, hkey]⟩⟩
  · rw [hw] at hw'
    simp only [Option.some.injEq] at hw'
    subst hw'
    rw [hr] at hr'
    simp only [Option.some.injEq, Val.sheet.injEq] at hr'
    cases e : s.existing sh t with
    | none =>
      rw [e] at same
      exact absurd (by rw [hkey', hkey]) (same hkd m u hu (by rw [hk', hk]) hr'.symm)
    | some m' =>
      rw [e] at same
      obtain ⟨v, hv, e1, e2, e3, e4⟩ := same
      rw [h.uniq m m' u v hu hv (by rw [hk', ← hk]; exact hkd) (by rw [hk', e1, hk]) (by rw [← hr', e2]) (by rw [hkey', e3, hkey])]

theorem kills_size {s : St} (h : Inv s) {t : Thing} {sh : Sheet} (hs : s.sheets.pool.live t.sheet = some sh) {c : Call}
    (hw : c.writes = none) (hk : t.kind = .col ∨ t.kind = .row) : Kills s c (s.existing sh t) := by
  have hkd : t.kind.keyed := by rcases hk with e | e <;> simp [Kind.keyed, e]
  have same := h.same hs hkd
  refine ⟨fun m hm => ?_, fun pl' hw' => by rw [hw] at hw'; simp at hw'⟩
  rw [Option.mem_def] at hm
  rw [hm] at same
  obtain ⟨u, hu, e1, e2, e3, e4⟩ := same
  exact ⟨u, hu, by rw [e1]; exact e4, .inr (by rw [e1]; exact hk)⟩

theorem readThing_some {s : St} (h : Inv s) {n : Nat} {t : Thing} (ht : s.things.live n = some t) : s.readThing n = some () := by
  have r := h.refs n t ht
  unfold St.readThing
  rw [ht, Option.bind_some, touch_opt h.xfrefs r.xf, Option.bind_some]
  refine readList_some fun m hm => ?_
  obtain ⟨u, hu, _⟩ := r.stacks m hm
  exact ⟨u, hu⟩

theorem readAll_some {s : St} (h : Inv s) : s.readAll = some () := by
  have h1 : (s.xfs.list.forM fun x => (s.touchXf x).map fun _ => ()) = some () := by
    refine forM_some fun x hx => ?_
    obtain ⟨X, hX⟩ := (h.xfs.mem x).1 hx
    simp [touch h.xfrefs hX]
  have h2 : s.readList s.labels = some () := readList_some fun m hm => by
    obtain ⟨t, ht, _⟩ := (h.labels.2 m).1 hm
    exact ⟨t, ht⟩
  unfold St.readAll
  rw [h.fonts.read, Option.bind_some, h.formats.read, Option.bind_some, h1, Option.bind_some, h.styles.read, Option.bind_some, h.bounds.read,
    Option.bind_some, h.items.read, Option.bind_some, h2, Option.bind_some]
  refine forM_some fun n hn => ?_
  obtain ⟨sh, hsh⟩ := (h.sheets.mem n).1 hn
  rw [hsh, Option.bind_some]
  refine forM_some fun k _ => forM_some fun m hm => ?_
  obtain ⟨t, ht, _⟩ := ((h.member n sh hsh k).2 m).1 hm
  exact readThing_some h ht

theorem append_ok {s : St} (h : Inv s) {t : Thing} {sh : Sheet} (hs : s.sheets.pool.live t.sheet = some sh) (hk : ¬ t.kind.keyed)
    (hl : t.long = false) (hx : t.xf = none) (hst : ∀ m ∈ t.stacks, ∃ u, s.things.live m = some u ∧ u.kind = .stack) :
    ∃ s', s.append t = some s' ∧ Inv s' ∧ Ext none s s' ∧ s'.things.live s.things.objs.length = some t := by
  obtain ⟨s', h1, h2⟩ := append_some h hs hk hl
  refine ⟨s', h1, h2.inv h (fun hk' => absurd hk' hk) ⟨by simp [hx], hst, ?_, by simp [hl]⟩, h2.ext, by rw [h2.live, if_pos rfl]⟩
  intro hk'
  exact absurd (by rcases hk' with e | e <;> simp [Kind.keyed, e]) hk

theorem Ext.of {s s' : St} (hr : s'.res = s.res) (hf : ∀ n, s.fonts.pool.Has n → s'.fonts.pool.Has n)
    (hg : ∀ n, s.formats.pool.Has n → s'.formats.pool.Has n) (hx : ∀ n, s.xfs.pool.Has n → s'.xfs.pool.Has n)
    (hs : s'.sheets = s.sheets) (ht : s'.things = s.things) : Ext none s s' :=
  ⟨hr, hf, hg, hx, by rw [hs]; exact Nat.le_refl _, fun m t h _ => ⟨t, by rw [ht]; exact h, rfl, rfl, rfl⟩,
    fun m _ h => by rw [ht]; exact h.resolve_right (by simp), by rw [ht]; exact Nat.le_refl _⟩

theorem Own.Ok.bound {s : St} (h : Inv s) {n : Nat} (hn : n < s.sheets.pool.objs.length) :
    (s.bounds.list[n]?.bind fun b => s.bounds.pool.live b) = some () := by
  have hlt : n < s.bounds.list.length := by rw [h.entries]; exact hn
  rw [List.getElem?_eq_getElem hlt, Option.bind_some]
  obtain ⟨u, hu⟩ := (h.bounds.mem _).1 (List.getElem_mem hlt)
  exact hu

theorem step_ok {p : List Call} {s : St} {c : Call} (h : Inv s) (r : Rel p s) (f : Fine p c) :
    ∃ s', step s c = some s' ∧ Inv s' ∧ Rel (p ++ [c]) s' := by
  cases c with
  | sheet =>
    obtain ⟨h1, h2⟩ := newSheet h
    refine ⟨_, rfl, h1.ret _, r.snoc h2 (.none rfl) ?_⟩
    refine ⟨fun _ => ⟨_, rfl⟩, ?_, ?_, ?_, ?_, ?_, ?_, ?_⟩ <;> try simp [Call.gives, Call.place]
    simp [Own.add, Pool.add]
  | font =>
    refine ⟨_, rfl, h.addFont.ret _, r.snoc (addFont_ext s) (.none rfl) ?_⟩
    refine ⟨?_, ?_, fun _ => ⟨_, rfl, add_new _ _⟩, ?_, ?_, ?_, ?_, ?_⟩ <;> simp [Call.gives, Call.place]
  | fontNo n =>
    have f : n < 5 := f
    have hlt : n < s.fonts.list.length := by have := h.font5; omega
    obtain ⟨u, hu⟩ := (h.fonts.mem _).1 (List.getElem_mem hlt)
    refine ⟨{ s with fonts := s.fonts.add () }.ret (.font s.fonts.pool.objs.length), ?_, h.addFont.ret _, r.snoc (addFont_ext s) (.none rfl) ?_⟩
    · simp only [step]
      rw [if_pos f, List.getElem?_eq_getElem hlt, Option.bind_some, hu, Option.map_some]
    · refine ⟨?_, ?_, fun _ => ⟨_, rfl, add_new _ _⟩, ?_, ?_, ?_, ?_, ?_⟩ <;> simp [Call.gives, Call.place]
  | format =>
    refine ⟨_, rfl, h.addFormat.ret _, r.snoc (Ext.of rfl (fun _ h => h) (fun _ h => add_has h) (fun _ h => h) rfl rfl) (.none rfl) ?_⟩
    refine ⟨?_, ?_, ?_, fun _ => ⟨_, rfl, add_new _ _⟩, ?_, ?_, ?_, ?_⟩ <;> simp [Call.gives, Call.place]
  | xformat a b =>
    obtain ⟨a', h1, h2⟩ := opt_some fun k hk => r.font? (f.1 k hk)
    obtain ⟨b', h3, h4⟩ := opt_some fun k hk => r.format? (f.2 k hk)
    have hi := h.addXf (X := ⟨a', b'⟩) h2 h4
    refine ⟨{ s with xfs := s.xfs.add ⟨a', b'⟩ }.ret (.xf s.xfs.pool.objs.length), ?_, hi.ret _, r.snoc (withXfs_ext fun x hx => add_has hx) (.none rfl) ?_⟩
    · simp only [step]
      rw [h1, Option.bind_some, h3, Option.bind_some, touch (s := { s with xfs := s.xfs.add ⟨a', b'⟩ }) hi.xfrefs (X := ⟨a', b'⟩)
        (by show (s.xfs.add _).pool.live _ = _; rw [add_live, if_pos rfl]), Option.map_some]
    · refine ⟨?_, ?_, ?_, ?_, fun _ => ⟨_, rfl, add_new _ _⟩, ?_, ?_, ?_⟩ <;> simp [Call.gives, Call.place]
  | setFont i a =>
    obtain ⟨x, h1, X, hX⟩ := r.xf? f.1
    obtain ⟨a', h2, h3⟩ := opt_some fun k hk => r.font? (f.2 k hk)
    obtain ⟨P, g1, g2, g3, g4⟩ := h.putXf (X := { X with font := a' }) ⟨X, hX⟩ h3 (h.xfrefs x X hX).2
    refine ⟨{ s with xfs := { s.xfs with pool := P } }.ret .nothing, ?_, g2.ret _, r.snoc (withXfs_ext fun y hy => (g3 y).2 hy) (.none rfl) (.nothing rfl rfl)⟩
    simp only [step]
    rw [h1, Option.bind_some, h2, Option.bind_some, touch h.xfrefs hX, Option.bind_some, g1, Option.bind_some,
      touch (s := { s with xfs := { s.xfs with pool := P } }) g2.xfrefs g4, Option.map_some]
  | setFormat i a =>
    obtain ⟨x, h1, X, hX⟩ := r.xf? f.1
    obtain ⟨a', h2, h3⟩ := opt_some fun k hk => r.format? (f.2 k hk)
    obtain ⟨P, g1, g2, g3, g4⟩ := h.putXf (X := { X with format := a' }) ⟨X, hX⟩ (h.xfrefs x X hX).1 h3
    refine ⟨{ s with xfs := { s.xfs with pool := P } }.ret .nothing, ?_, g2.ret _, r.snoc (withXfs_ext fun y hy => (g3 y).2 hy) (.none rfl) (.nothing rfl rfl)⟩
    simp only [step]
    rw [h1, Option.bind_some, h2, Option.bind_some, touch h.xfrefs hX, Option.bind_some, g1, Option.bind_some,
      touch (s := { s with xfs := { s.xfs with pool := P } }) g2.xfrefs g4, Option.map_some]
  | onXf i =>
    obtain ⟨x, h1, X, hX⟩ := r.xf? f
    refine ⟨s.ret .nothing, ?_, h.ret _, r.snoc (Ext.refl s) (.none rfl) (.nothing rfl rfl)⟩
    simp only [step]
    rw [h1, Option.bind_some, touch h.xfrefs hX, Option.map_some]
  | onFont i =>
    obtain ⟨x, h1, u, hu⟩ := r.font? f
    refine ⟨s.ret .nothing, ?_, h.ret _, r.snoc (Ext.refl s) (.none rfl) (.nothing rfl rfl)⟩
    simp only [step]
    rw [h1, Option.bind_some, hu, Option.map_some]
  | cell i key x long st =>
    obtain ⟨n, sh, h1, h2, h3⟩ := r.sheet? h f.1
    obtain ⟨x', h4, h5⟩ := opt_some fun k hk => r.xf? (f.2.1 k hk)
    obtain ⟨st', h6, h7⟩ := opt_some fun k hk => r.stack? (f.2.2 k hk)
    have hx : s.xfs.pool.Has (x'.getD 15) := by
      cases x' with
      | none => exact h.xf15
      | some y => exact h5 y rfl
    obtain ⟨s', g1, g2⟩ := addCell_some h (t := { kind := .cell, sheet := n, key := key, long := long, stacks := st'.toList }) h2 (.inl rfl) hx
    have same := h.same (t := { kind := .cell, sheet := n, key := key, long := long, stacks := st'.toList }) h2 (.inl rfl)
    refine ⟨s'.ret (.thing s.things.objs.length), ?_, Inv.ret (g2.inv h ?_ ⟨?_, ?_, by simp, by simp⟩) _, r.snoc g2.ext (kills_of h h2 rfl rfl h3 rfl) ?_⟩
    · simp only [step]
      rw [h1, Option.bind_some, h4, Option.bind_some, h6, Option.bind_some, g1, Option.map_some]
    · exact same
    · intro y hy
      simp only [Option.mem_def, Option.some.injEq] at hy
      subst hy
      exact hx
    · intro m hm
      exact h7 m (by simpa using hm)
    · refine ⟨?_, ?_, ?_, ?_, ?_, ?_, ?_, fun pl hpl => ?_⟩
      case refine_8 =>
        simp only [Call.place, Option.some.injEq] at hpl
        subst hpl
        exact ⟨_, _, rfl, h3, by rw [g2.live, if_pos rfl], rfl, rfl⟩
      all_goals simp [Call.gives]
  | find i key =>
    obtain ⟨n, sh, h1, h2, h3⟩ := r.sheet? h f
    obtain ⟨s', m, t, g1, g2, g3, g4, g5, g6, g7⟩ := find_some h ⟨sh, h2⟩ key
    refine ⟨s'.ret (.thing m), ?_, g2.ret _, r.snoc g3 (.none rfl) ?_⟩
    · simp only [step]
      rw [h1, Option.bind_some, g1, Option.map_some]
    · refine ⟨?_, ?_, ?_, ?_, ?_, ?_, ?_, fun pl hpl => ?_⟩
      case refine_8 =>
        simp only [Call.place, Option.some.injEq] at hpl
        subst hpl
        exact ⟨_, t, rfl, by rw [h3, g6], g4, g5, g7⟩
      all_goals simp [Call.gives]
  | note i key x =>
    obtain ⟨n, sh, h1, h2, h3⟩ := r.sheet? h f.1
    obtain ⟨x', h4, h5⟩ := opt_some fun k hk => r.xf? (f.2 k hk)
    have hx : s.xfs.pool.Has (x'.getD 15) := by
      cases x' with
      | none => exact h.xf15
      | some y => exact h5 y rfl
    obtain ⟨s', g1, g2⟩ := addCell_some h (t := { kind := .note, sheet := n, key := key }) h2 (.inr rfl) hx
    have same := h.same (t := { kind := .note, sheet := n, key := key }) h2 (.inr (.inl rfl))
    have hi : Inv s' := g2.inv h same ⟨by
      intro y hy
      simp only [Option.mem_def, Option.some.injEq] at hy
      subst hy
      exact hx, by simp, by simp, by simp⟩
    refine ⟨s'.ret (.thing s.things.objs.length), ?_, hi.ret _, r.snoc g2.ext (kills_of h h2 rfl rfl h3 rfl) ?_⟩
    · simp only [step]
      rw [h1, Option.bind_some, h4, Option.bind_some, g1, Option.bind_some, Own.Ok.bound hi (by rw [g2.sheetsLen]; exact Pool.live_lt h2), Option.map_some]
    · refine ⟨?_, ?_, ?_, ?_, ?_, ?_, ?_, fun pl hpl => ?_⟩
      case refine_8 =>
        simp only [Call.place, Option.some.injEq] at hpl
        subst hpl
        exact ⟨_, _, rfl, h3, by rw [g2.live, if_pos rfl], rfl, rfl⟩
      all_goals simp [Call.gives]
  | colwidth i k x =>
    obtain ⟨n, sh, h1, h2, h3⟩ := r.sheet? h f.1
    obtain ⟨x', h4, h5⟩ := opt_some fun k hk => r.xf? (f.2 k hk)
    obtain ⟨s', g1, g2⟩ := addSize_some h (t := { kind := .col, sheet := n, key := (0, k), xf := x' }) h2 (.inl rfl) rfl h5
    have same := h.same (t := { kind := .col, sheet := n, key := (0, k), xf := x' }) h2 (.inr (.inr (.inl rfl)))
    refine ⟨s'.ret .nothing, ?_, Inv.ret (g2.inv h same ⟨h5, by simp, by simp, by simp⟩) _, r.snoc g2.ext (kills_size h h2 rfl (.inl rfl)) (.nothing rfl rfl)⟩
    simp only [step]
    rw [h1, Option.bind_some, h4, Option.bind_some, g1, Option.map_some]
  | rowheight i k x =>
    obtain ⟨n, sh, h1, h2, h3⟩ := r.sheet? h f.1
    obtain ⟨x', h4, h5⟩ := opt_some fun k hk => r.xf? (f.2 k hk)
    obtain ⟨s', g1, g2⟩ := addSize_some h (t := { kind := .row, sheet := n, key := (k, 0), xf := x' }) h2 (.inr rfl) rfl h5
    have same := h.same (t := { kind := .row, sheet := n, key := (k, 0), xf := x' }) h2 (.inr (.inr (.inr rfl)))
    refine ⟨s'.ret .nothing, ?_, Inv.ret (g2.inv h same ⟨h5, by simp, by simp, by simp⟩) _, r.snoc g2.ext (kills_size h h2 rfl (.inr rfl)) (.nothing rfl rfl)⟩
    simp only [step]
    rw [h1, Option.bind_some, h4, Option.bind_some, g1, Option.map_some]
  | merge i =>
    obtain ⟨n, sh, h1, h2, h3⟩ := r.sheet? h f
    obtain ⟨s', g1, g2, g3, _⟩ := append_ok h (t := { kind := .merged, sheet := n }) h2 (by simp [Kind.keyed]) rfl rfl (by simp)
    refine ⟨s'.ret .nothing, ?_, g2.ret _, r.snoc g3 (.none rfl) (.nothing rfl rfl)⟩
    simp only [step]
    rw [h1, Option.bind_some, g1, Option.map_some]
  | range i =>
    obtain ⟨n, sh, h1, h2, h3⟩ := r.sheet? h f
    obtain ⟨s', g1, g2, g3, g4⟩ := append_ok h (t := { kind := .range, sheet := n }) h2 (by simp [Kind.keyed]) rfl rfl (by simp)
    refine ⟨s'.ret (.thing s.things.objs.length), ?_, g2.ret _, r.snoc g3 (.none rfl) ?_⟩
    · simp only [step]
      rw [h1, Option.bind_some, g1, Option.map_some]
    · refine ⟨?_, ?_, ?_, ?_, ?_, ?_, fun _ => ⟨_, _, rfl, g4, rfl⟩, ?_⟩ <;> simp [Call.gives, Call.place]
  | stack i =>
    obtain ⟨n, sh, h1, h2, h3⟩ := r.sheet? h f
    obtain ⟨s', g1, g2, g3, g4⟩ := append_ok h (t := { kind := .stack, sheet := n }) h2 (by simp [Kind.keyed]) rfl rfl (by simp)
    refine ⟨s'.ret (.thing s.things.objs.length), ?_, g2.ret _, r.snoc g3 (.none rfl) ?_⟩
    · simp only [step]
      rw [h1, Option.bind_some, g1, Option.map_some]
    · refine ⟨?_, ?_, ?_, ?_, ?_, fun _ => ⟨_, _, rfl, g4, rfl⟩, ?_, ?_⟩ <;> simp [Call.gives, Call.place]
  | push i =>
    obtain ⟨n, h1, u, hu, _⟩ := r.stack? f
    refine ⟨s.ret .nothing, ?_, h.ret _, r.snoc (Ext.refl s) (.none rfl) (.nothing rfl rfl)⟩
    simp only [step]
    rw [h1, Option.bind_some, hu, Option.map_some]
  | validate i a b =>
    obtain ⟨n, sh, h1, h2, h3⟩ := r.sheet? h f.1
    obtain ⟨a', h4, h5⟩ := opt_some fun k hk => r.stack? (f.2.1 k hk)
    obtain ⟨b', h6, h7⟩ := opt_some fun k hk => r.stack? (f.2.2 k hk)
    obtain ⟨s', g1, g2, g3, g4⟩ := append_ok h (t := { kind := .dval, sheet := n, stacks := a'.toList ++ b'.toList }) h2 (by simp [Kind.keyed]) rfl rfl (by
      intro m hm
      rcases List.mem_append.1 hm with hm | hm
      · exact h5 m (by simpa using hm)
      · exact h7 m (by simpa using hm))
    refine ⟨s'.ret .nothing, ?_, g2.ret _, r.snoc g3 (.none rfl) (.nothing rfl rfl)⟩
    simp only [step]
    rw [h1, Option.bind_some, h4, Option.bind_some, h6, Option.bind_some, g1, Option.map_some]
  | link i c =>
    obtain ⟨n, sh, h1, h2, h3⟩ := r.sheet? h f.1
    obtain ⟨m, t, h4, h5, _⟩ := r.cell? f.2
    obtain ⟨s', g1, g2, g3, _⟩ := append_ok h (t := { kind := .link, sheet := n }) h2 (by simp [Kind.keyed]) rfl rfl (by simp)
    refine ⟨s'.ret .nothing, ?_, g2.ret _, r.snoc g3 (.none rfl) (.nothing rfl rfl)⟩
    simp only [step]
    rw [h1, Option.bind_some, h4, Option.bind_some, h5, Option.bind_some, g1, Option.map_some]
  | act i a =>
    obtain ⟨n, t, h1, h2, h3⟩ := r.cell? f.1
    obtain ⟨s', g1, g2, g3⟩ := act_some h h2 h3 (r.ready f.2)
    refine ⟨s'.ret .nothing, ?_, g2.ret _, r.snoc g3 (.none rfl) (.nothing rfl rfl)⟩
    simp only [step]
    rw [h1, Option.bind_some, g1, Option.map_some]
  | over i l =>
    obtain ⟨n, t, h1, h2, h3⟩ := r.range i f.1
    obtain ⟨s', g1, g2, g3⟩ := over_some (l := l) h (h.home n t h2) (fun q hq => r.ready (f.2 q hq))
    refine ⟨s'.ret .nothing, ?_, g2.ret _, r.snoc g3 (.none rfl) (.nothing rfl rfl)⟩
    simp only [step]
    rw [show s.thing? i = some n by simp [St.thing?, h1], Option.bind_some, h2, Option.bind_some, g1, Option.map_some]
  | property k =>
    obtain ⟨s', g1, g2, g3⟩ := setItem_some h k
    refine ⟨s'.ret .nothing, ?_, g2.ret _, r.snoc g3 (.none rfl) (.nothing rfl rfl)⟩
    simp only [step]
    rw [g1, Option.map_some]
  | save =>
    refine ⟨s.ret .nothing, ?_, h.ret _, r.snoc (Ext.refl s) (.none rfl) (.nothing rfl rfl)⟩
    simp only [step]
    rw [readAll_some h, Option.map_some]

theorem Rel.start : Rel [] start := by
  have hat : ∀ w i, ¬ At [] w i := by rintro w i ⟨c, h, _⟩; simp at h
  refine ⟨rfl, fun i h => absurd h (hat _ _), ?_, ?_, fun i h => absurd h (hat _ _), fun i h => absurd h (hat _ _), fun i h => absurd h (hat _ _),
    fun i h => absurd h (hat _ _), fun i h => absurd h (hat _ _), by simp⟩
  · intro i n h; simp [Mem.start] at h
  · intro i j n h; simp [Mem.start] at h

theorem run_ok {p : List Call} (h : Good p) : ∃ s, run p = some s ∧ Inv s ∧ Rel p s := by
  induction h with
  | nil => exact ⟨start, rfl, Inv.start, Rel.start⟩
  | snoc h f ih =>
    obtain ⟨s, h1, h2, h3⟩ := ih
    obtain ⟨s', g1, g2, g3⟩ := step_ok h2 h3 f
    refine ⟨s', ?_, g2, g3⟩
    unfold run at *
    rw [List.foldlM_append, h1]
    simpa using g1

end Xls.Mem
