import Verif.Mem.Insert
namespace Xls.Mem

theorem destroy_some {s : St} (hr : s.XfRefs) {n : Nat} {t : Thing} (ht : s.things.live n = some t) (hx : ∀ x ∈ t.xf, s.xfs.pool.Has x) :
    ∃ P, s.things.del n = some P ∧ P.objs.length = s.things.objs.length ∧ P.log = s.things.log ++ [n] ∧
      (∀ m, P.live m = if m = n then none else s.things.live m) ∧
      s.destroy n = some { s with things := P, labels := if t.long then s.labels.erase n else s.labels } := by
  obtain ⟨P, h1, h2, h3, h4⟩ := Pool.del_some ⟨t, ht⟩
  refine ⟨P, h1, h2, h3, h4, ?_⟩
  unfold St.destroy
  rw [ht, Option.bind_some, h1, touch_opt hr hx, ite_self, Option.bind_some, Option.map_some]

theorem Inv.label_lt {s : St} (h : Inv s) {m : Nat} (hm : m ∈ s.labels) : m < s.things.objs.length := by
  obtain ⟨t, ht, _⟩ := (h.labels.2 m).1 hm
  exact Pool.live_lt ht

theorem Inv.labels_add {s : St} (h : Inv s) (b : Bool) :
    (if b then s.labels ++ [s.things.objs.length] else s.labels).Nodup ∧
    ∀ m, m ∈ (if b then s.labels ++ [s.things.objs.length] else s.labels) ↔ m ∈ s.labels ∨ (m = s.things.objs.length ∧ b = true) := by
  cases b with
  | false => exact ⟨by simpa using h.labels.1, fun m => by simp⟩
  | true =>
    refine ⟨?_, fun m => by simp⟩
    rw [if_pos rfl, List.nodup_append]
    refine ⟨h.labels.1, by simp, ?_⟩
    intro a ha b hb e
    simp only [List.mem_singleton] at hb
    have := h.label_lt ha
    omega

/-- The labels when one object is added and another deleted. -/
theorem Inv.labels_put {s : St} (h : Inv s) (b : Bool) {e : Nat} {o : Thing} (he : s.things.live e = some o) :
    let L := if b then s.labels ++ [s.things.objs.length] else s.labels
    (if o.long then L.erase e else L).Nodup ∧
    ∀ m, m ∈ (if o.long then L.erase e else L) ↔ (m ∈ s.labels ∧ some m ≠ some e) ∨ (m = s.things.objs.length ∧ b = true) := by
  intro L
  have hL := h.labels_add b
  have hlt := Pool.live_lt he
  cases ho : o.long with
  | false =>
    refine ⟨by simpa using hL.1, fun m => ?_⟩
    have : m ∈ s.labels → m ≠ e := by
      rintro hm rfl
      obtain ⟨t, ht, hl⟩ := (h.labels.2 m).1 hm
      rw [he] at ht
      simp only [Option.some.injEq] at ht
      subst ht
      rw [ho] at hl; simp at hl
    rw [if_neg (by simp), hL.2]
    constructor
    · rintro (h1 | h1)
      · exact .inl ⟨h1, by simpa using this h1⟩
      · exact .inr h1
    · rintro (⟨h1, _⟩ | h1)
      · exact .inl h1
      · exact .inr h1
  | true =>
    rw [if_pos rfl]
    refine ⟨hL.1.erase e, fun m => ?_⟩
    rw [hL.1.mem_erase_iff, hL.2]
    constructor
    · rintro ⟨h0, h1 | h1⟩
      · exact .inl ⟨h1, by simpa using h0⟩
      · exact .inr h1
    · rintro (⟨h1, h0⟩ | h1)
      · exact ⟨by simpa using h0, .inl h1⟩
      · exact ⟨by omega, .inr h1⟩

theorem put_ok {s : St} (h : Inv s) {n : Nat} {sh : Sheet} {P : Pool Sheet} (hp : s.sheets.pool.put n sh = some P)
    (hl : ∀ m, P.live m = if m = n then some sh else s.sheets.pool.live m) (hn : s.sheets.pool.Has n) : Own.Ok { s.sheets with pool := P } := by
  refine ⟨h.sheets.pool.put hp, h.sheets.nodup, fun m => ?_⟩
  rw [h.sheets.mem]
  unfold Pool.Has
  simp only [hl]
  by_cases e : m = n
  · subst e; simp; exact hn
  · simp [e]

theorem append_some {s : St} (h : Inv s) {t : Thing} {sh : Sheet} (hs : s.sheets.pool.live t.sheet = some sh) (hk : ¬ t.kind.keyed)
    (hl : t.long = false) : ∃ s', s.append t = some s' ∧ Put s t none s' := by
  obtain ⟨P, h1, h2, h3, h4⟩ := Pool.put_some (sh.setList t.kind (sh.list t.kind ++ [s.things.objs.length])) ⟨sh, hs⟩
  refine ⟨{ s with things := s.things.add t, sheets := { s.sheets with pool := P } }, ?_, ?_⟩
  · unfold St.append
    rw [hs, Option.bind_some, h1, Option.map_some]
  · exact
    { fonts := rfl, formats := rfl, xfs := rfl, styles := rfl, bounds := rfl, items := rfl, res := rfl
      thingsOk := h.things.add t
      length := by simp [Pool.add]
      live := fun m => by rw [Pool.live_add]; simp
      sheetsOk := put_ok h h1 h4 ⟨sh, hs⟩
      sheetsLen := h2
      sheets := by
        refine ⟨sh, _, hs, h4, fun k => ?_, fun x hx => .inl ⟨hx, fun e => hk (by rw [e]; simp [Kind.keyed])⟩,
          fun x hx => .inl ⟨hx, fun e => hk (by rw [e]; simp [Kind.keyed])⟩⟩
        by_cases e : k = t.kind
        · subst e; simp [Sheet.setList]
        · simp [Sheet.setList, e]
      labels := ⟨h.labels.1, fun m => by simp [hl]⟩ }

theorem addCell_some {s : St} (h : Inv s) {t : Thing} {x : Nat} {sh : Sheet} (hs : s.sheets.pool.live t.sheet = some sh)
    (hk : t.kind = .cell ∨ t.kind = .note) (hx : s.xfs.pool.Has x) :
    ∃ s', s.addCell t x = some s' ∧ Put s { t with xf := some x } (s.existing sh t) s' := by
  obtain ⟨X, hX⟩ := hx
  have hhint : ((if t.kind = .cell then sh.hint else sh.noteHint).elim (some ()) fun h => (s.things.live h).map fun _ => ()) = some () := by
    have key : ∀ (o : Option Nat) (k : Kind), (∀ m ∈ o, m ∈ sh.list k) → (o.elim (some ()) fun h => (s.things.live h).map fun _ => ()) = some () := by
      intro o k ho
      cases o with
      | none => rfl
      | some m =>
        obtain ⟨u, hu, _⟩ := ((h.member t.sheet sh hs k).2 m).1 (ho m rfl)
        simp [hu]
    by_cases e : t.kind = .cell
    · rw [if_pos e]; exact key _ _ (h.hints t.sheet sh hs).1
    · rw [if_neg e]; exact key _ _ (h.hints t.sheet sh hs).2
  have hkey : t.kind.keyed := by rcases hk with e | e <;> simp [Kind.keyed, e]
  have hsame := h.same hs hkey
  unfold St.addCell
  rw [touch h.xfrefs hX, Option.bind_some, hs, Option.bind_some, hhint, Option.bind_some, h.readSet hs, Option.bind_some]
  dsimp only
  cases e : s.existing sh t with
  | none =>
    dsimp only
    obtain ⟨P, h1, h2, h3, h4⟩ := Pool.put_some (if t.kind = .cell then { sh.setList .cell (sh.list .cell ++ [s.things.objs.length]) with hint := some s.things.objs.length }
      else { sh.setList t.kind (sh.list t.kind ++ [s.things.objs.length]) with noteHint := some s.things.objs.length }) ⟨sh, hs⟩
    rw [h1, Option.map_some]
    refine ⟨_, rfl, ?_⟩
    exact
    { fonts := rfl, formats := rfl, xfs := rfl, styles := rfl, bounds := rfl, items := rfl, res := rfl
      thingsOk := h.things.add _
      length := by simp [Pool.add]
      live := fun m => by rw [Pool.live_add]; simp
      sheetsOk := put_ok h h1 h4 ⟨sh, hs⟩
      sheetsLen := h2
      sheets := by
        refine ⟨sh, _, hs, h4, fun k => ?_, ?_, ?_⟩
        · by_cases e' : t.kind = .cell
          · by_cases ek : k = t.kind
            · simp [e', ek, Sheet.setList]
            · have : k ≠ .cell := by rw [← e']; exact ek
              simp [e', this, Sheet.setList]
          · by_cases ek : k = t.kind
            · simp [e', ek, Sheet.setList]
            · simp [e', ek, Sheet.setList]
        · intro m hm
          by_cases e' : t.kind = .cell
          · rw [if_pos e'] at hm; exact .inr ⟨by simpa using hm.symm, e'⟩
          · rw [if_neg e'] at hm; exact .inl ⟨hm, e'⟩
        · intro m hm
          by_cases e' : t.kind = .cell
          · rw [if_pos e'] at hm; exact .inl ⟨hm, by show t.kind ≠ _; rw [e']; decide⟩
          · rw [if_neg e'] at hm; exact .inr ⟨by simpa using hm.symm, hk.resolve_left e'⟩
      labels := by
        refine ⟨(h.labels_add t.long).1, fun m => ?_⟩
        rw [(h.labels_add t.long).2]
        simp }
  | some m =>
    dsimp only
    rw [e] at hsame
    obtain ⟨u, hu, _⟩ := hsame
    have hne : m ≠ s.things.objs.length := by have := Pool.live_lt hu; omega
    have hu' : (s.things.add { t with xf := some x }).live m = some u := by rw [Pool.live_add, if_neg hne]; exact hu
    obtain ⟨P, h1, h2, h3, h4, h5⟩ := destroy_some (s := { s with things := s.things.add { t with xf := some x }, labels := if t.long then s.labels ++ [s.things.objs.length] else s.labels }) h.xfrefs hu' (h.refs m u hu).xf
    rw [h5, Option.bind_some]
    dsimp only
    obtain ⟨Q, g1, g2, g3, g4⟩ := Pool.put_some (if t.kind = .cell then { sh.setList .cell ((sh.list .cell).erase m ++ [s.things.objs.length]) with hint := some s.things.objs.length }
      else { sh.setList t.kind ((sh.list t.kind).erase m ++ [s.things.objs.length]) with noteHint := some s.things.objs.length }) ⟨sh, hs⟩
    rw [g1, Option.map_some]
    refine ⟨_, rfl, ?_⟩
    exact
    { fonts := rfl, formats := rfl, xfs := rfl, styles := rfl, bounds := rfl, items := rfl, res := rfl
      thingsOk := (h.things.add _).del h1
      length := by rw [h2]; simp [Pool.add]
      live := fun k => by
        rw [h4, Pool.live_add]
        by_cases ek : k = s.things.objs.length
        · rw [if_neg (by omega), if_pos ek, if_pos ek]
        · rw [if_neg ek, if_neg ek]
          by_cases ek' : k = m <;> simp [ek']
      sheetsOk := put_ok h g1 g4 ⟨sh, hs⟩
      sheetsLen := g2
      sheets := by
        refine ⟨sh, _, hs, g4, fun k => ?_, ?_, ?_⟩
        · by_cases e' : t.kind = .cell
          · by_cases ek : k = t.kind
            · simp [e', ek, Sheet.setList]
            · have : k ≠ .cell := by rw [← e']; exact ek
              simp [e', this, Sheet.setList]
          · by_cases ek : k = t.kind
            · simp [e', ek, Sheet.setList]
            · simp [e', ek, Sheet.setList]
        · intro m hm
          by_cases e' : t.kind = .cell
          · rw [if_pos e'] at hm; exact .inr ⟨by simpa using hm.symm, e'⟩
          · rw [if_neg e'] at hm; exact .inl ⟨hm, e'⟩
        · intro m hm
          by_cases e' : t.kind = .cell
          · rw [if_pos e'] at hm; exact .inl ⟨hm, by show t.kind ≠ _; rw [e']; decide⟩
          · rw [if_neg e'] at hm; exact .inr ⟨by simpa using hm.symm, hk.resolve_left e'⟩
      labels := h.labels_put t.long hu }

theorem addSize_some {s : St} (h : Inv s) {t : Thing} {sh : Sheet} (hs : s.sheets.pool.live t.sheet = some sh)
    (hk : t.kind = .col ∨ t.kind = .row) (hl : t.long = false) (hx : ∀ x ∈ t.xf, s.xfs.pool.Has x) :
    ∃ s', s.addSize t = some s' ∧ Put s t (s.existing sh t) s' := by
  have hkey : t.kind.keyed := by rcases hk with e | e <;> simp [Kind.keyed, e]
  have hc : t.kind ≠ .cell := by rcases hk with e | e <;> simp [e]
  have hn : t.kind ≠ .note := by rcases hk with e | e <;> simp [e]
  have hsame := h.same hs hkey
  unfold St.addSize
  rw [touch_opt h.xfrefs hx, Option.bind_some, hs, Option.bind_some, h.readSet hs, Option.bind_some]
  dsimp only
  cases e : s.existing sh t with
  | none =>
    dsimp only
    obtain ⟨P, h1, h2, h3, h4⟩ := Pool.put_some (sh.setList t.kind (sh.list t.kind ++ [s.things.objs.length])) ⟨sh, hs⟩
    rw [h1, Option.map_some]
    refine ⟨_, rfl, ?_⟩
    exact
    { fonts := rfl, formats := rfl, xfs := rfl, styles := rfl, bounds := rfl, items := rfl, res := rfl
      thingsOk := h.things.add _
      length := by simp [Pool.add]
      live := fun m => by rw [Pool.live_add]; simp
      sheetsOk := put_ok h h1 h4 ⟨sh, hs⟩
      sheetsLen := h2
      sheets := by
        refine ⟨sh, _, hs, h4, fun k => ?_, fun x hx => .inl ⟨hx, hc⟩, fun x hx => .inl ⟨hx, hn⟩⟩
        by_cases e : k = t.kind
        · subst e; simp [Sheet.setList]
        · simp [Sheet.setList, e]
      labels := ⟨h.labels.1, fun m => by simp [hl]⟩ }
  | some m =>
    dsimp only
    rw [e] at hsame
    obtain ⟨u, hu, _⟩ := hsame
    have hne : m ≠ s.things.objs.length := by have := Pool.live_lt hu; omega
    have hu' : (s.things.add t).live m = some u := by rw [Pool.live_add, if_neg hne]; exact hu
    obtain ⟨P, h1, h2, h3, h4, h5⟩ := destroy_some (s := { s with things := s.things.add t }) h.xfrefs hu' (h.refs m u hu).xf
    rw [hu', Option.bind_some, touch_opt (s := { s with things := s.things.add t }) h.xfrefs (h.refs m u hu).xf, Option.bind_some, h5, Option.bind_some]
    dsimp only
    obtain ⟨Q, g1, g2, g3, g4⟩ := Pool.put_some (sh.setList t.kind ((sh.list t.kind).erase m ++ [s.things.objs.length])) ⟨sh, hs⟩
    rw [g1, Option.map_some]
    refine ⟨_, rfl, ?_⟩
    exact
    { fonts := rfl, formats := rfl, xfs := rfl, styles := rfl, bounds := rfl, items := rfl, res := rfl
      thingsOk := (h.things.add _).del h1
      length := by rw [h2]; simp [Pool.add]
      live := fun k => by
        rw [h4, Pool.live_add]
        by_cases ek : k = s.things.objs.length
        · rw [if_neg (by omega), if_pos ek, if_pos ek]
        · rw [if_neg ek, if_neg ek]
          by_cases ek' : k = m <;> simp [ek']
      sheetsOk := put_ok h g1 g4 ⟨sh, hs⟩
      sheetsLen := g2
      sheets := by
        refine ⟨sh, _, hs, g4, fun k => ?_, fun x hx => .inl ⟨hx, hc⟩, fun x hx => .inl ⟨hx, hn⟩⟩
        by_cases e : k = t.kind
        · subst e; simp [Sheet.setList]
        · simp [Sheet.setList, e]
      labels := by
        have := h.labels_put false hu
        simp only [hl]
        simpa using this }

/-- What one call leaves as it was: all objects are still there but perhaps `e`, and what is gone stays gone. -/
structure Ext (e : Option Nat) (s s' : St) : Prop where
  res : s'.res = s.res
  fonts : ∀ n, s.fonts.pool.Has n → s'.fonts.pool.Has n
  formats : ∀ n, s.formats.pool.Has n → s'.formats.pool.Has n
  xfs : ∀ n, s.xfs.pool.Has n → s'.xfs.pool.Has n
  sheets : s.sheets.pool.objs.length ≤ s'.sheets.pool.objs.length
  things : ∀ m t, s.things.live m = some t → some m ≠ e → ∃ t', s'.things.live m = some t' ∧ t'.kind = t.kind ∧ t'.sheet = t.sheet ∧ t'.key = t.key
  dead : ∀ m, m < s.things.objs.length → s.things.live m = none ∨ some m = e → s'.things.live m = none
  length : s.things.objs.length ≤ s'.things.objs.length

theorem Ext.refl (s : St) : Ext none s s :=
  ⟨rfl, fun _ h => h, fun _ h => h, fun _ h => h, Nat.le_refl _, fun m t h _ => ⟨t, h, rfl, rfl, rfl⟩, fun m _ h => h.resolve_right (by simp), Nat.le_refl _⟩

theorem Ext.trans {a b c : St} {e : Option Nat} (h : Ext e a b) (g : Ext none b c) : Ext e a c :=
  ⟨g.res.trans h.res, fun n x => g.fonts n (h.fonts n x), fun n x => g.formats n (h.formats n x), fun n x => g.xfs n (h.xfs n x),
    Nat.le_trans h.sheets g.sheets, fun m t ht he => by
      obtain ⟨u, hu, a, b, c⟩ := h.things m t ht he
      obtain ⟨v, hv, a', b', c'⟩ := g.things m u hu (by simp)
      exact ⟨v, hv, a'.trans a, b'.trans b, c'.trans c⟩,
    fun m hm x => g.dead m (Nat.lt_of_lt_of_le hm h.length) (.inl (h.dead m hm x)), Nat.le_trans h.length g.length⟩

theorem Put.ext {s s' : St} {t : Thing} {e : Option Nat} (p : Put s t e s') : Ext e s s' := by
  refine ⟨p.res, fun n h => by rw [p.fonts]; exact h, fun n h => by rw [p.formats]; exact h, fun n h => by rw [p.xfs]; exact h, Nat.le_of_eq p.sheetsLen.symm,
    fun m t ht he => ⟨t, ?_, rfl, rfl, rfl⟩, fun m hm he => ?_, by rw [p.length]; omega⟩
  · rw [p.live, if_neg (by have := Pool.live_lt ht; omega), if_neg he]; exact ht
  · rw [p.live, if_neg (by omega)]
    by_cases h : some m = e
    · rw [if_pos h]
    · rw [if_neg h]; exact he.resolve_right h

end Xls.Mem
