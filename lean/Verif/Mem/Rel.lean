import Verif.Mem.Acts
namespace Xls.Mem

/-- The kind of object at a place. -/
def kindOf (b : Bool) : Kind := if b then .note else .cell

/-- What the calls of `p` returned, and which of it is there still. -/
structure Rel (p : List Call) (s : St) : Prop where
  length : s.res.length = p.length
  sheet : ∀ i, At p .sheet i → ∃ n, s.res[i]? = some (.sheet n)
  lt : ∀ (i n : Nat), s.res[i]? = some (.sheet n) → n < s.sheets.pool.objs.length
  uniq : ∀ (i j n : Nat), s.res[i]? = some (.sheet n) → s.res[j]? = some (.sheet n) → i = j
  font : ∀ i, At p .font i → ∃ n, s.res[i]? = some (.font n) ∧ s.fonts.pool.Has n
  format : ∀ i, At p .format i → ∃ n, s.res[i]? = some (.format n) ∧ s.formats.pool.Has n
  xf : ∀ i, At p .xf i → ∃ n, s.res[i]? = some (.xf n) ∧ s.xfs.pool.Has n
  stack : ∀ i, At p .stack i → ∃ n t, s.res[i]? = some (.thing n) ∧ s.things.live n = some t ∧ t.kind = .stack
  range : ∀ i, At p .range i → ∃ n t, s.res[i]? = some (.thing n) ∧ s.things.live n = some t ∧ t.kind = .range
  cell : ∀ i c pl, p[i]? = some c → c.place = some pl → ∃ n sh, s.res[i]? = some (.thing n) ∧ n < s.things.objs.length ∧
    s.res[pl.2.1]? = some (.sheet sh) ∧
    (Current p i → ∃ t, s.things.live n = some t ∧ t.kind = kindOf pl.1 ∧ t.sheet = sh ∧ t.key = pl.2.2) ∧
    (Replaced p i → s.things.live n = none)

/-- What call `c` deleted is what was at the place it wrote, or the size of a column or row. -/
structure Kills (s : St) (c : Call) (e : Option Nat) : Prop where
  only : ∀ m ∈ e, ∃ u, s.things.live m = some u ∧ u.kind.keyed ∧ ((∃ pl, c.writes = some pl ∧ u.kind = kindOf pl.1 ∧
    s.res[pl.2.1]? = some (.sheet u.sheet) ∧ u.key = pl.2.2) ∨ u.kind = .col ∨ u.kind = .row)
  there : ∀ pl, c.writes = some pl → ∀ m u, s.things.live m = some u → u.kind = kindOf pl.1 → s.res[pl.2.1]? = some (.sheet u.sheet) →
    u.key = pl.2.2 → some m = e

theorem Kills.none {s : St} {c : Call} (h : c.writes = .none) : Kills s c .none :=
  ⟨by simp, fun pl hp => by rw [h] at hp; simp at hp⟩

/-- What call `c` returned is there. -/
structure Ret (c : Call) (v : Val) (s s' : St) : Prop where
  sheet : c.gives = some .sheet → ∃ n, v = .sheet n
  fresh : ∀ n, v = .sheet n → s.sheets.pool.objs.length ≤ n ∧ n < s'.sheets.pool.objs.length
  font : c.gives = some .font → ∃ n, v = .font n ∧ s'.fonts.pool.Has n
  format : c.gives = some .format → ∃ n, v = .format n ∧ s'.formats.pool.Has n
  xf : c.gives = some .xf → ∃ n, v = .xf n ∧ s'.xfs.pool.Has n
  stack : c.gives = some .stack → ∃ n t, v = .thing n ∧ s'.things.live n = some t ∧ t.kind = .stack
  range : c.gives = some .range → ∃ n t, v = .thing n ∧ s'.things.live n = some t ∧ t.kind = .range
  cell : ∀ pl, c.place = some pl → ∃ n t, v = .thing n ∧ s.res[pl.2.1]? = some (.sheet t.sheet) ∧ s'.things.live n = some t ∧
    t.kind = kindOf pl.1 ∧ t.key = pl.2.2

theorem Ret.nothing {c : Call} {s s' : St} (hg : c.gives = none) (hp : c.place = none) : Ret c .nothing s s' := by
  refine ⟨?_, ?_, ?_, ?_, ?_, ?_, ?_, ?_⟩ <;> simp [hg, hp]

theorem at_snoc {p : List Call} {c : Call} {w : What} {i : Nat} (h : At (p ++ [c]) w i) : At p w i ∨ (i = p.length ∧ c.gives = some w) := by
  obtain ⟨d, h1, h2⟩ := h
  rw [List.getElem?_append] at h1
  by_cases e : i < p.length
  · rw [if_pos e] at h1; exact .inl ⟨d, h1, h2⟩
  · rw [if_neg e] at h1
    have : i - p.length = 0 := by
      have := (List.getElem?_eq_some_iff.1 h1).1
      simpa using this
    rw [this] at h1
    simp only [List.getElem?_cons_zero, Option.some.injEq] at h1
    subst h1
    exact .inr ⟨by omega, h2⟩

theorem get_old {α : Type} {l : List α} {a b : α} {i : Nat} (h : l[i]? = some b) : (l ++ [a])[i]? = some b := by
  rw [List.getElem?_append_left (List.getElem?_eq_some_iff.1 h).1]; exact h

theorem get_last {α : Type} (l : List α) (a : α) : (l ++ [a])[l.length]? = some a := by simp

theorem get_snoc {α : Type} {l : List α} {a b : α} {i : Nat} (h : (l ++ [a])[i]? = some b) : l[i]? = some b ∨ (i = l.length ∧ b = a) := by
  rw [List.getElem?_append] at h
  by_cases e : i < l.length
  · rw [if_pos e] at h; exact .inl h
  · rw [if_neg e] at h
    have h0 : i - l.length = 0 := by
      have := (List.getElem?_eq_some_iff.1 h).1
      simpa using this
    rw [h0] at h
    simp only [List.getElem?_cons_zero, Option.some.injEq] at h
    exact .inr ⟨by omega, h.symm⟩

theorem kindOf_inj {a b : Bool} (h : kindOf a = kindOf b) : a = b := by
  revert h; cases a <;> cases b <;> decide

theorem current_or {p : List Call} {i : Nat} {c : Call} {pl : Bool × Nat × (Nat × Nat)} (h : p[i]? = some c) (hp : c.place = some pl) :
    Current p i ∨ Replaced p i := by
  by_cases e : ∃ j d, i < j ∧ p[j]? = some d ∧ d.writes = some pl
  · obtain ⟨j, d, h1, h2, h3⟩ := e
    exact .inr ⟨c, pl, j, d, h, hp, h1, h2, h3⟩
  · exact .inl ⟨c, pl, h, hp, fun j d h1 h2 h3 => e ⟨j, d, h1, h2, h3⟩⟩

theorem Rel.snoc {p : List Call} {s s' : St} {c : Call} {e : Option Nat} {v : Val} (r : Rel p s) (x : Ext e s s') (k : Kills s c e) (q : Ret c v s s') :
    Rel (p ++ [c]) (s'.ret v) := by
  have hres : (s'.ret v).res = s.res ++ [v] := by show s'.res ++ [v] = _; rw [x.res]
  have hlast : ∀ i, i = p.length → (s'.ret v).res[i]? = some v := by
    rintro i rfl
    rw [hres, ← r.length]; exact get_last _ _
  have hold : ∀ {i b}, s.res[i]? = some b → (s'.ret v).res[i]? = some b := fun h => by rw [hres]; exact get_old h
  refine ⟨by rw [hres]; simp [r.length], ?_, ?_, ?_, ?_, ?_, ?_, ?_, ?_, ?_⟩
  · intro i hi
    rcases at_snoc hi with h | ⟨h, hg⟩
    · obtain ⟨n, hn⟩ := r.sheet i h; exact ⟨n, hold hn⟩
    · obtain ⟨n, hn⟩ := q.sheet hg; exact ⟨n, by rw [hlast i h, hn]⟩
  · intro i n hi
    rw [hres] at hi
    rcases get_snoc hi with h | ⟨_, h⟩
    · exact Nat.lt_of_lt_of_le (r.lt i n h) x.sheets
    · exact (q.fresh n h.symm).2
  · intro i j n hi hj
    rw [hres] at hi hj
    rcases get_snoc hi with h | ⟨h0, h⟩
    · rcases get_snoc hj with g | ⟨_, g⟩
      · exact r.uniq i j n h g
      · have := r.lt i n h; have := (q.fresh n g.symm).1; omega
    · rcases get_snoc hj with g | ⟨g0, g⟩
      · have := r.lt j n g; have := (q.fresh n h.symm).1; omega
      · omega
  · intro i hi
    rcases at_snoc hi with h | ⟨h, hg⟩
    · obtain ⟨n, hn, hh⟩ := r.font i h; exact ⟨n, hold hn, x.fonts n hh⟩
    · obtain ⟨n, hn, hh⟩ := q.font hg; exact ⟨n, by rw [hlast i h, hn], hh⟩
  · intro i hi
    rcases at_snoc hi with h | ⟨h, hg⟩
    · obtain ⟨n, hn, hh⟩ := r.format i h; exact ⟨n, hold hn, x.formats n hh⟩
    · obtain ⟨n, hn, hh⟩ := q.format hg; exact ⟨n, by rw [hlast i h, hn], hh⟩
  · intro i hi
    rcases at_snoc hi with h | ⟨h, hg⟩
    · obtain ⟨n, hn, hh⟩ := r.xf i h; exact ⟨n, hold hn, x.xfs n hh⟩
    · obtain ⟨n, hn, hh⟩ := q.xf hg; exact ⟨n, by rw [hlast i h, hn], hh⟩
  · intro i hi
    rcases at_snoc hi with h | ⟨h, hg⟩
    · obtain ⟨n, t, hn, ht, hk⟩ := r.stack i h
      obtain ⟨t', ht', hk', _⟩ := x.things n t ht (by
        rintro rfl
        obtain ⟨u, hu, hu', _⟩ := k.only n rfl
        rw [ht] at hu
        simp only [Option.some.injEq] at hu
        subst hu
        rw [hk] at hu'
        simp [Kind.keyed] at hu')
      exact ⟨n, t', hold hn, ht', by rw [hk', hk]⟩
    · obtain ⟨n, t, hn, hh⟩ := q.stack hg; exact ⟨n, t, by rw [hlast i h, hn], hh⟩
  · intro i hi
    rcases at_snoc hi with h | ⟨h, hg⟩
    · obtain ⟨n, t, hn, ht, hk⟩ := r.range i h
      obtain ⟨t', ht', hk', _⟩ := x.things n t ht (by
        rintro rfl
        obtain ⟨u, hu, hu', _⟩ := k.only n rfl
        rw [ht] at hu
        simp only [Option.some.injEq] at hu
        subst hu
        rw [hk] at hu'
        simp [Kind.keyed] at hu')
      exact ⟨n, t', hold hn, ht', by rw [hk', hk]⟩
    · obtain ⟨n, t, hn, hh⟩ := q.range hg; exact ⟨n, t, by rw [hlast i h, hn], hh⟩
  · intro i d pl hd hpl
    rcases get_snoc hd with h | ⟨h, hc⟩
    · have hi := (List.getElem?_eq_some_iff.1 h).1
      obtain ⟨n, sh, h1, h2, h3, h4, h5⟩ := r.cell i d pl h hpl
      refine ⟨n, sh, hold h1, Nat.lt_of_lt_of_le h2 x.length, hold h3, ?_, ?_⟩
      · rintro ⟨d', pl', e1, e2, e3⟩
        rw [hd] at e1
        simp only [Option.some.injEq] at e1
        subst e1
        rw [hpl] at e2
        simp only [Option.some.injEq] at e2
        subst e2
        obtain ⟨t, ht, a, b, f⟩ := h4 ⟨d, pl, h, hpl, fun j c' hj hc' => e3 j c' hj (get_old hc')⟩
        obtain ⟨t', ht', a', b', f'⟩ := x.things n t ht (by
          rintro rfl
          obtain ⟨u, hu, _, hw⟩ := k.only n rfl
          rw [ht] at hu
          simp only [Option.some.injEq] at hu
          subst hu
          rcases hw with ⟨pl', w1, w2, w3, w4⟩ | w
          · apply e3 p.length c hi (get_last _ _)
            rw [w1]
            have g1 : pl'.1 = pl.1 := kindOf_inj (by rw [← w2, a])
            have g2 : pl'.2.1 = pl.2.1 := r.uniq _ _ sh (by rw [w3, b]) h3
            have g3 : pl'.2.2 = pl.2.2 := by rw [← w4, f]
            exact congrArg some (Prod.ext g1 (Prod.ext g2 g3))
          · rw [a] at w
            cases hb : pl.1 <;> simp [kindOf, hb] at w)
        exact ⟨t', ht', a'.trans a, b'.trans b, f'.trans f⟩
      · rintro ⟨d', pl', j, c', e1, e2, e3, e4, e5⟩
        rw [hd] at e1
        simp only [Option.some.injEq] at e1
        subst e1
        rw [hpl] at e2
        simp only [Option.some.injEq] at e2
        subst e2
        rcases current_or h hpl with hc | hr
        · obtain ⟨t, ht, a, b, f⟩ := h4 hc
          rcases get_snoc e4 with g | ⟨_, g⟩
          · obtain ⟨d'', pl'', c1, c2, c3⟩ := hc
            rw [h] at c1
            simp only [Option.some.injEq] at c1
            subst c1
            rw [hpl] at c2
            simp only [Option.some.injEq] at c2
            subst c2
            exact absurd e5 (c3 j c' e3 g)
          · subst g
            exact x.dead n h2 (.inr (k.there pl e5 n t ht a (by rw [h3, b]) f))
        · exact x.dead n h2 (.inl (h5 hr))
    · subst hc
      obtain ⟨n, t, g1, g2, g3, g4, g5⟩ := q.cell pl hpl
      refine ⟨n, t.sheet, by rw [hlast i h, g1], Pool.live_lt g3, hold g2, fun _ => ⟨t, g3, g4, rfl, g5⟩, ?_⟩
      rintro ⟨_, _, j, c', _, _, e3, e4, _⟩
      have := (List.getElem?_eq_some_iff.1 e4).1
      simp at this
      omega

end Xls.Mem
