import Verif.Mem.Inv
namespace Xls.Mem

/-- `s'` is `s` with the new object `t` in a list of its sheet, and `e` gone from it. -/
structure Put (s : St) (t : Thing) (e : Option Nat) (s' : St) : Prop where
  fonts : s'.fonts = s.fonts
  formats : s'.formats = s.formats
  xfs : s'.xfs = s.xfs
  styles : s'.styles = s.styles
  bounds : s'.bounds = s.bounds
  items : s'.items = s.items
  res : s'.res = s.res
  thingsOk : s'.things.Ok
  length : s'.things.objs.length = s.things.objs.length + 1
  live : ∀ m, s'.things.live m = if m = s.things.objs.length then some t else if some m = e then none else s.things.live m
  sheetsOk : s'.sheets.Ok
  sheetsLen : s'.sheets.pool.objs.length = s.sheets.pool.objs.length
  sheets : ∃ sh sh', s.sheets.pool.live t.sheet = some sh ∧
    (∀ n, s'.sheets.pool.live n = if n = t.sheet then some sh' else s.sheets.pool.live n) ∧
    (∀ k, sh'.list k = if k = t.kind then e.elim (sh.list k) (sh.list k).erase ++ [s.things.objs.length] else sh.list k) ∧
    (∀ h ∈ sh'.hint, (h ∈ sh.hint ∧ t.kind ≠ .cell) ∨ (h = s.things.objs.length ∧ t.kind = .cell)) ∧
    (∀ h ∈ sh'.noteHint, (h ∈ sh.noteHint ∧ t.kind ≠ .note) ∨ (h = s.things.objs.length ∧ t.kind = .note))
  labels : s'.labels.Nodup ∧ ∀ m, m ∈ s'.labels ↔ (m ∈ s.labels ∧ some m ≠ e) ∨ (m = s.things.objs.length ∧ t.long = true)

/-- `e` is the object at that place. -/
def Same (s : St) (t : Thing) : Option Nat → Prop
  | none => t.kind.keyed → ∀ m u, s.things.live m = some u → u.kind = t.kind → u.sheet = t.sheet → u.key ≠ t.key
  | some m => ∃ u, s.things.live m = some u ∧ u.kind = t.kind ∧ u.sheet = t.sheet ∧ u.key = t.key ∧ t.kind.keyed

theorem Put.inv {s s' : St} {t : Thing} {e : Option Nat} (p : Put s t e s') (h : Inv s) (he : Same s t e) (hr : t.Refs s) : Inv s' := by
  have fresh : ∀ m u, s.things.live m = some u → m ≠ s.things.objs.length := fun m u hm => by have := Pool.live_lt hm; omega
  have nst : ∀ m u, s.things.live m = some u → u.kind = .stack → some m ≠ e := by
    rintro m u hm hk rfl
    obtain ⟨u', hu', hk', _, _, hkey⟩ := he
    rw [hm] at hu'
    simp only [Option.some.injEq] at hu'
    subst hu'
    rw [← hk', hk] at hkey
    simp [Kind.keyed] at hkey
  have old : ∀ m u, s'.things.live m = some u → m ≠ s.things.objs.length → s.things.live m = some u ∧ some m ≠ e := by
    intro m u hm hne
    rw [p.live, if_neg hne] at hm
    by_cases hE : some m = e
    · rw [if_pos hE] at hm; simp at hm
    · rw [if_neg hE] at hm; exact ⟨hm, hE⟩
  have keep : ∀ m u, s.things.live m = some u → some m ≠ e → s'.things.live m = some u := by
    intro m u hm hE
    rw [p.live, if_neg (fresh m u hm), if_neg hE]; exact hm
  have new : s'.things.live s.things.objs.length = some t := by rw [p.live, if_pos rfl]
  have refs' : ∀ u : Thing, u.Refs s → u.Refs s' := by
    intro u r
    refine ⟨fun x hx => by rw [p.xfs]; exact r.xf x hx, fun m hm => ?_, r.some, r.long⟩
    obtain ⟨v, hv, hk⟩ := r.stacks m hm
    exact ⟨v, keep m v hv (nst m v hv hk), hk⟩
  obtain ⟨sh, sh', hsh, hlive, hlist, hh1, hh2⟩ := p.sheets
  have has : ∀ n, s'.sheets.pool.Has n ↔ s.sheets.pool.Has n := by
    intro n
    unfold Pool.Has
    simp only [hlive]
    by_cases hn : n = t.sheet
    · subst hn; simp [hsh]
    · simp [hn]
  have mem' : ∀ k m, m ∈ sh'.list k ↔ ∃ u, s'.things.live m = some u ∧ u.kind = k ∧ u.sheet = t.sheet := by
    intro k m
    have hm := h.member t.sheet sh hsh k
    by_cases hk : k = t.kind
    · rw [hlist, if_pos hk, List.mem_append, List.mem_singleton]
      have : m ∈ e.elim (sh.list k) (sh.list k).erase ↔ m ∈ sh.list k ∧ some m ≠ e := by
        cases e with
        | none => simp
        | some x =>
          simp only [Option.elim_some, ne_eq, Option.some.injEq]
          rw [hm.1.mem_erase_iff]
          exact and_comm
      rw [this]
      constructor
      · rintro (⟨h1, h2⟩ | h1)
        · obtain ⟨u, hu, a, b⟩ := (hm.2 m).1 h1
          exact ⟨u, keep m u hu h2, a, b⟩
        · rw [h1]; exact ⟨t, new, hk.symm, rfl⟩
      · rintro ⟨u, hu, a, b⟩
        by_cases hne : m = s.things.objs.length
        · exact .inr hne
        · obtain ⟨h1, h2⟩ := old m u hu hne
          exact .inl ⟨(hm.2 m).2 ⟨u, h1, a, b⟩, h2⟩
    · rw [hlist, if_neg hk, hm.2 m]
      constructor
      · rintro ⟨u, hu, a, b⟩
        refine ⟨u, keep m u hu ?_, a, b⟩
        rintro rfl
        obtain ⟨u', hu', hk', _⟩ := he
        rw [hu] at hu'
        simp only [Option.some.injEq] at hu'
        subst hu'
        exact hk (by rw [← a, hk'])
      · rintro ⟨u, hu, a, b⟩
        by_cases hne : m = s.things.objs.length
        · rw [hne, new] at hu
          simp only [Option.some.injEq] at hu
          subst hu
          exact absurd a.symm hk
        · exact ⟨u, (old m u hu hne).1, a, b⟩
  exact
  { sheets := p.sheetsOk
    all := fun n hn => (has n).2 (h.all n (by rw [p.sheetsLen] at hn; exact hn))
    things := p.thingsOk
    fonts := by rw [p.fonts]; exact h.fonts
    formats := by rw [p.formats]; exact h.formats
    xfs := by rw [p.xfs]; exact h.xfs
    styles := by rw [p.styles]; exact h.styles
    bounds := by rw [p.bounds]; exact h.bounds
    items := by rw [p.items]; exact h.items
    font0 := by rw [p.fonts]; exact h.font0
    font5 := by rw [p.fonts]; exact h.font5
    xf15 := by rw [p.xfs]; exact h.xf15
    xfrefs := by
      intro x X hX
      rw [p.xfs] at hX
      rw [p.fonts, p.formats]
      exact h.xfrefs x X hX
    member := by
      intro n q hq k
      rw [hlive] at hq
      by_cases hn : n = t.sheet
      · rw [if_pos hn] at hq
        simp only [Option.some.injEq] at hq
        subst hq
        subst hn
        refine ⟨?_, mem' k⟩
        have hm := h.member t.sheet sh hsh k
        rw [hlist]
        by_cases hk : k = t.kind
        · rw [if_pos hk, List.nodup_append]
          have hsub : ∀ m, m ∈ e.elim (sh.list k) (sh.list k).erase → m ∈ sh.list k := by
            intro m hm'
            cases e with
            | none => exact hm'
            | some x => exact List.mem_of_mem_erase hm'
          refine ⟨?_, by simp, ?_⟩
          · cases e with
            | none => exact hm.1
            | some x => exact hm.1.erase x
          · intro a ha b hb e'
            simp only [List.mem_singleton] at hb
            obtain ⟨u, hu, _⟩ := (hm.2 a).1 (hsub a ha)
            exact fresh a u hu (by rw [e', hb])
        · rw [if_neg hk]; exact hm.1
      · rw [if_neg hn] at hq
        refine ⟨(h.member n q hq k).1, fun m => ?_⟩
        rw [(h.member n q hq k).2 m]
        constructor
        · rintro ⟨u, hu, a, b⟩
          refine ⟨u, keep m u hu ?_, a, b⟩
          rintro rfl
          obtain ⟨u', hu', _, hs', _⟩ := he
          rw [hu] at hu'
          simp only [Option.some.injEq] at hu'
          subst hu'
          exact hn (by rw [← b, hs'])
        · rintro ⟨u, hu, a, b⟩
          by_cases hne : m = s.things.objs.length
          · rw [hne, new] at hu
            simp only [Option.some.injEq] at hu
            subst hu
            exact absurd b.symm hn
          · exact ⟨u, (old m u hu hne).1, a, b⟩
    home := by
      intro m u hu
      rw [has]
      by_cases hne : m = s.things.objs.length
      · rw [hne, new] at hu
        simp only [Option.some.injEq] at hu
        subst hu
        exact ⟨sh, hsh⟩
      · exact h.home m u (old m u hu hne).1
    uniq := by
      have key : ∀ m u, s'.things.live m = some u → m ≠ s.things.objs.length → t.kind.keyed → u.kind = t.kind → u.sheet = t.sheet →
          u.key ≠ t.key := by
        intro m u hu hne hk e1 e2 e3
        obtain ⟨h1, h2⟩ := old m u hu hne
        cases e with
        | none => exact he hk m u h1 e1 e2 e3
        | some x =>
          obtain ⟨v, hv, a, b, c, _⟩ := he
          have := h.uniq m x u v h1 hv (by rw [e1]; exact hk) (by rw [e1, a]) (by rw [e2, b]) (by rw [e3, c])
          exact h2 (by rw [this])
      intro m m' u u' hu hu' hk e1 e2 e3
      by_cases hne : m = s.things.objs.length
      · by_cases hne' : m' = s.things.objs.length
        · rw [hne, hne']
        · rw [hne, new] at hu
          simp only [Option.some.injEq] at hu
          subst hu
          exact absurd e3.symm (key m' u' hu' hne' hk e1.symm e2.symm)
      · by_cases hne' : m' = s.things.objs.length
        · rw [hne', new] at hu'
          simp only [Option.some.injEq] at hu'
          subst hu'
          exact absurd e3 (key m u hu hne (by rw [← e1]; exact hk) e1 e2)
        · exact h.uniq m m' u u' (old m u hu hne).1 (old m' u' hu' hne').1 hk e1 e2 e3
    refs := by
      intro m u hu
      by_cases hne : m = s.things.objs.length
      · rw [hne, new] at hu
        simp only [Option.some.injEq] at hu
        subst hu
        exact refs' _ hr
      · exact refs' u (h.refs m u (old m u hu hne).1)
    hints := by
      intro n q hq
      rw [hlive] at hq
      by_cases hn : n = t.sheet
      · rw [if_pos hn] at hq
        simp only [Option.some.injEq] at hq
        subst hq
        have hints := h.hints t.sheet sh hsh
        refine ⟨fun x hx => ?_, fun x hx => ?_⟩
        · rcases hh1 x hx with ⟨h1, h2⟩ | ⟨h1, h2⟩
          · rw [hlist, if_neg (fun e => h2 e.symm)]; exact hints.1 x h1
          · rw [hlist, if_pos h2.symm, h1]; simp
        · rcases hh2 x hx with ⟨h1, h2⟩ | ⟨h1, h2⟩
          · rw [hlist, if_neg (fun e => h2 e.symm)]; exact hints.2 x h1
          · rw [hlist, if_pos h2.symm, h1]; simp
      · rw [if_neg hn] at hq
        exact h.hints n q hq
    labels := by
      refine ⟨p.labels.1, fun m => ?_⟩
      rw [p.labels.2]
      constructor
      · rintro (⟨h1, h2⟩ | ⟨h1, h2⟩)
        · obtain ⟨u, hu, hl⟩ := (h.labels.2 m).1 h1
          exact ⟨u, keep m u hu h2, hl⟩
        · exact ⟨t, by rw [h1]; exact new, h2⟩
      · rintro ⟨u, hu, hl⟩
        by_cases hne : m = s.things.objs.length
        · rw [hne, new] at hu
          simp only [Option.some.injEq] at hu
          subst hu
          exact .inr ⟨hne, hl⟩
        · obtain ⟨h1, h2⟩ := old m u hu hne
          exact .inl ⟨(h.labels.2 m).2 ⟨u, h1, hl⟩, h2⟩
    entries := by rw [p.bounds, p.sheetsLen]; exact h.entries }

/-- Lists whose pointers are all good. -/
theorem readList_some {s : St} {l : List Nat} (h : ∀ m ∈ l, s.things.Has m) : s.readList l = some () := by
  refine forM_some fun m hm => ?_
  obtain ⟨t, ht⟩ := h m hm
  simp [ht]

theorem Inv.readSet {s : St} (h : Inv s) {n : Nat} {sh : Sheet} (hs : s.sheets.pool.live n = some sh) (k : Kind) : s.readList (sh.list k) = some () := by
  refine readList_some fun m hm => ?_
  obtain ⟨t, ht, _⟩ := ((h.member n sh hs k).2 m).1 hm
  exact ⟨t, ht⟩

theorem Inv.same {s : St} (h : Inv s) {t : Thing} {sh : Sheet} (hs : s.sheets.pool.live t.sheet = some sh) (hk : t.kind.keyed) :
    Same s t (s.existing sh t) := by
  unfold St.existing
  cases e : (sh.list t.kind).find? fun n => ((s.things.live n).map (·.key)) = some t.key with
  | none =>
    intro _ m u hu e1 e2 e3
    rw [List.find?_eq_none] at e
    have := e m (((h.member t.sheet sh hs t.kind).2 m).2 ⟨u, hu, e1, e2⟩)
    simp [hu, e3] at this
  | some m =>
    have hm := List.mem_of_find?_eq_some e
    have hp := List.find?_some e
    obtain ⟨u, hu, e1, e2⟩ := ((h.member t.sheet sh hs t.kind).2 m).1 hm
    refine ⟨u, hu, e1, e2, ?_, hk⟩
    simpa [hu] using hp

end Xls.Mem
