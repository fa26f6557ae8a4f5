import Verif.Mem.Steps
namespace Xls.Mem

theorem withXfs_ext {s : St} {o : Own Xf} (hm : ∀ x, s.xfs.pool.Has x → o.pool.Has x) : Ext none s { s with xfs := o } :=
  ⟨rfl, fun _ h => h, fun _ h => h, hm, Nat.le_refl _, fun m t h _ => ⟨t, h, rfl, rfl, rfl⟩, fun m _ h => h.resolve_right (by simp), Nat.le_refl _⟩

theorem addFont_ext (s : St) : Ext none s { s with fonts := s.fonts.add () } :=
  ⟨rfl, fun _ h => add_has h, fun _ h => h, fun _ h => h, Nat.le_refl _, fun m t h _ => ⟨t, h, rfl, rfl, rfl⟩,
    fun m _ h => h.resolve_right (by simp), Nat.le_refl _⟩

/-- Another format for an object: what happens. -/
theorem Inv.give {s : St} (h : Inv s) {n y : Nat} {t : Thing} (ht : s.things.live n = some t) (hy : s.xfs.pool.Has y) :
    ∃ s', ((s.touchXf y).bind fun _ => (s.things.put n { t with xf := some y }).map fun P => { s with things := P }) = some s' ∧ Inv s' ∧ Ext none s s' := by
  obtain ⟨P, h1, h2, h3, h4⟩ := h.setXf ht hy
  obtain ⟨Y, hY⟩ := hy
  refine ⟨{ s with things := P }, by rw [touch h.xfrefs hY, Option.bind_some, h1, Option.map_some], h2, rfl, fun _ h => h, fun _ h => h, fun _ h => h,
    Nat.le_refl _, fun m u hu _ => ?_, fun m _ hd => ?_, Nat.le_of_eq h3.symm⟩
  · by_cases e : m = n
    · subst e
      rw [ht] at hu
      simp only [Option.some.injEq] at hu
      subst hu
      exact ⟨{ t with xf := some y }, by show P.live m = _; rw [h4, if_pos rfl], rfl, rfl, rfl⟩
    · exact ⟨u, by show P.live m = _; rw [h4, if_neg e]; exact hu, rfl, rfl, rfl⟩
  · have hd := hd.resolve_right (by simp)
    show P.live m = none
    rw [h4]
    by_cases e : m = n
    · rw [e, ht] at hd; simp at hd
    · rw [if_neg e]; exact hd

theorem findXf_some {s : St} (h : Inv s) {X : Xf} (hf : ∀ f ∈ X.font, s.fonts.pool.Has f) (hg : ∀ f ∈ X.format, s.formats.pool.Has f) (found : Nat) :
    ∃ o y, { s with xfs := s.xfs.add X }.findXf s.xfs.pool.objs.length found = some ({ s with xfs := o }, y) ∧ Inv { s with xfs := o } ∧
      (∀ x, s.xfs.pool.Has x → o.pool.Has x) ∧ o.pool.Has y := by
  have h1 := h.addXf hf hg
  have hl : (s.xfs.add X).pool.live s.xfs.pool.objs.length = some X := by rw [add_live, if_pos rfl]
  have keep : ∃ o y, some ({ s with xfs := s.xfs.add X }, s.xfs.pool.objs.length) = some ({ s with xfs := o }, y) ∧ Inv { s with xfs := o } ∧
      (∀ x, s.xfs.pool.Has x → o.pool.Has x) ∧ o.pool.Has y := ⟨_, _, rfl, h1, fun x hx => add_has hx, ⟨X, hl⟩⟩
  unfold St.findXf
  rw [show (s.xfs.add X).read = some () from h1.xfs.read, Option.bind_some]
  dsimp only
  rw [hl, Option.bind_some]
  cases e : ((s.xfs.add X).list.drop 21)[found]? with
  | none => exact keep
  | some y =>
    dsimp only
    have hy : y ∈ (s.xfs.add X).list := List.mem_of_mem_drop (List.mem_of_getElem? e)
    obtain ⟨Y, hY⟩ := (h1.xfs.mem y).1 hy
    have hY : (s.xfs.add X).pool.live y = some Y := hY
    rw [hY, Option.bind_some]
    by_cases hc : Y = X ∧ y ≠ s.xfs.pool.objs.length
    · rw [if_pos hc]
      obtain ⟨o, h2, h3, h4, h5, h6⟩ := add_pop h.xfs X
      have hh : ∀ x, o.pool.Has x ↔ s.xfs.pool.Has x := fun x => by unfold Pool.Has; simp only [h6]
      refine ⟨o, y, by rw [h2, Option.map_some], h.withXfs h3 (fun x hx => (hh x).2 hx) ?_, fun x hx => (hh x).2 hx, Y, ?_⟩
      · intro x Z hZ
        exact h.xfrefs x Z (by rw [← h6]; exact hZ)
      · rw [h6]
        rw [add_live, if_neg hc.2] at hY
        exact hY
    · rw [if_neg hc]; exact keep

theorem renew_some {s : St} (h : Inv s) {n x : Nat} {t : Thing} {X : Xf} (ht : s.things.live n = some t) (hx : s.xfs.pool.Has x)
    (hf : ∀ f ∈ X.font, s.fonts.pool.Has f) (hg : ∀ f ∈ X.format, s.formats.pool.Has f) (found : Nat) :
    ∃ s', s.renew n t x X found = some s' ∧ Inv s' ∧ Ext none s s' := by
  have h1 := h.addXf hf hg
  obtain ⟨o, y, h2, h3, h4, h5⟩ := findXf_some h hf hg found
  obtain ⟨Z, hZ⟩ : (s.xfs.add X).pool.Has x := add_has hx
  obtain ⟨s', g1, g2, g3⟩ := h3.give (n := n) (y := y) (t := t) ht h5
  refine ⟨s', ?_, g2, (withXfs_ext h4).trans g3⟩
  unfold St.renew
  dsimp only
  rw [touch (s := { s with xfs := s.xfs.add X }) h1.xfrefs (x := s.xfs.pool.objs.length) (X := X) (by show (s.xfs.add X).pool.live _ = _; rw [add_live, if_pos rfl]),
    Option.bind_some, touch (s := { s with xfs := s.xfs.add X }) h1.xfrefs hZ, Option.bind_some, h2, Option.bind_some]
  exact g1

/-- The pointers among the arguments are good. -/
def Act.Ready (s : St) : Act → Prop
  | .change f g _ => (∀ k ∈ f, ∃ n, s.font? k = some n ∧ s.fonts.pool.Has n) ∧ ∀ k ∈ g.join, ∃ n, s.format? k = some n ∧ s.formats.pool.Has n
  | .take x => ∃ n, s.xf? x = some n ∧ s.xfs.pool.Has n
  | _ => True

theorem Ext.ready {e : Option Nat} {s s' : St} (h : Ext e s s') {a : Act} (r : a.Ready s) : a.Ready s' := by
  cases a with
  | change f g found =>
    refine ⟨fun k hk => ?_, fun k hk => ?_⟩
    · obtain ⟨n, h1, h2⟩ := r.1 k hk
      exact ⟨n, by unfold St.font? at *; rw [h.res]; exact h1, h.fonts n h2⟩
    · obtain ⟨n, h1, h2⟩ := r.2 k hk
      exact ⟨n, by unfold St.format? at *; rw [h.res]; exact h1, h.formats n h2⟩
  | take x =>
    obtain ⟨n, h1, h2⟩ := r
    exact ⟨n, by unfold St.xf? at *; rw [h.res]; exact h1, h.xfs n h2⟩
  | _ => trivial

theorem opt_some {α β : Type} {f : α → Option β} {P : β → Prop} {o : Option α} (h : ∀ k ∈ o, ∃ n, f k = some n ∧ P n) :
    ∃ o', opt f o = some o' ∧ (∀ n ∈ o', P n) := by
  cases o with
  | none => exact ⟨none, rfl, by simp⟩
  | some k =>
    obtain ⟨n, h1, h2⟩ := h k rfl
    refine ⟨some n, by simp [opt, h1], ?_⟩
    intro m hm
    simp only [Option.mem_def, Option.some.injEq] at hm
    subst hm
    exact h2

theorem act_some {s : St} (h : Inv s) {n : Nat} {t : Thing} (ht : s.things.live n = some t) (hk : t.kind = .cell ∨ t.kind = .note) {a : Act}
    (ha : a.Ready s) : ∃ s', s.act n a = some s' ∧ Inv s' ∧ Ext none s s' := by
  have r := h.refs n t ht
  cases hx : t.xf with
  | none => exact absurd hx (r.some hk)
  | some x =>
    have hX := r.xf x hx
    obtain ⟨X, hX'⟩ := hX
    obtain ⟨rf, rg⟩ := h.xfrefs x X hX'
    unfold St.act
    rw [ht, Option.bind_some, hx, Option.bind_some, touch h.xfrefs hX', Option.bind_some]
    cases a with
    | change f g found =>
      dsimp only
      obtain ⟨f', h1, h2⟩ := opt_some ha.1
      have hg : ∃ g', opt (opt s.format?) g = some g' ∧ ∀ k ∈ g'.join, s.formats.pool.Has k := by
        cases g with
        | none => exact ⟨none, rfl, by simp⟩
        | some g =>
          obtain ⟨g', g1, g2⟩ := opt_some (P := s.formats.pool.Has) (f := s.format?) (o := g) (by intro k hk; exact ha.2 k (by simpa using hk))
          exact ⟨some g', by show (opt s.format? g).map some = _; rw [g1]; rfl, by simpa using g2⟩
      obtain ⟨g', g1, g2⟩ := hg
      rw [h1, Option.bind_some, g1, Option.bind_some]
      refine renew_some h ht ⟨X, hX'⟩ ?_ ?_ found
      · cases f' with
        | none => exact rf
        | some f => exact h2
      · cases g' with
        | none => exact rg
        | some g => simpa using g2
    | own fresh found =>
      dsimp only
      by_cases hc : fresh = true ∨ X.font = none
      · rw [if_pos hc]
        have hf0 : s.fonts.pool.Has (X.font.getD 0) := by
          cases e : X.font with
          | none => exact h.font0
          | some f => exact rf f e
        obtain ⟨u, hu⟩ := hf0
        rw [hu, Option.bind_some]
        obtain ⟨s', g1, g2, g3⟩ := renew_some h.addFont (n := n) (x := x) (t := t) (X := ⟨some s.fonts.pool.objs.length, X.format⟩) ht ⟨X, hX'⟩
          (by intro f hf; simp only [Option.mem_def, Option.some.injEq] at hf; subst hf; exact add_new _ _) rg found
        exact ⟨s', g1, g2, (addFont_ext s).trans g3⟩
      · rw [if_neg hc]
        exact renew_some h ht ⟨X, hX'⟩ rf rg found
    | take i =>
      dsimp only
      obtain ⟨y, h1, h2⟩ := ha
      rw [h1, Option.bind_some]
      exact h.give ht h2
    | same p =>
      dsimp only
      cases e : (s.xfs.list.drop 21)[p]? with
      | none => exact ⟨s, rfl, h, Ext.refl s⟩
      | some y => exact h.give ht ((h.xfs.mem y).1 (List.mem_of_mem_drop (List.mem_of_getElem? e)))
    | look => exact ⟨s, rfl, h, Ext.refl s⟩

theorem find_some {s : St} (h : Inv s) {sh : Nat} (hs : s.sheets.pool.Has sh) (key : Nat × Nat) :
    ∃ s' n t, s.find sh key = some (s', n) ∧ Inv s' ∧ Ext none s s' ∧ s'.things.live n = some t ∧ t.kind = .cell ∧ t.sheet = sh ∧ t.key = key := by
  obtain ⟨S, hS⟩ := hs
  obtain ⟨X, hX⟩ := h.xf15
  have hsame := h.same (t := { kind := .cell, sheet := sh, key := key }) hS (.inl rfl)
  unfold St.find
  rw [touch h.xfrefs hX, Option.bind_some, hS, Option.bind_some, h.readSet hS, Option.bind_some]
  cases e : s.existing S { kind := .cell, sheet := sh, key := key } with
  | some n =>
    rw [e] at hsame
    obtain ⟨u, hu, h1, h2, h3, _⟩ := hsame
    exact ⟨s, n, u, rfl, h, Ext.refl s, hu, h1, h2, h3⟩
  | none =>
    obtain ⟨s', h1, h2⟩ := addCell_some h (t := { kind := .cell, sheet := sh, key := key }) hS (.inl rfl) h.xf15
    rw [e] at h2 hsame
    refine ⟨s', s.things.objs.length, { kind := .cell, sheet := sh, key := key, xf := some 15 }, ?_, ?_, h2.ext, ?_, rfl, rfl, rfl⟩
    · dsimp only
      rw [h1, Option.map_some]
    · refine h2.inv h hsame ⟨?_, by simp, by simp, by simp⟩
      intro x hx
      simp only [Option.mem_def, Option.some.injEq] at hx
      subst hx
      exact h.xf15
    · rw [h2.live, if_pos rfl]

theorem over_some {l : List ((Nat × Nat) × Act)} : ∀ {s : St} {sh : Nat}, Inv s → s.sheets.pool.Has sh → (∀ q ∈ l, q.2.Ready s) →
    ∃ s', St.over sh l s = some s' ∧ Inv s' ∧ Ext none s s' := by
  induction l with
  | nil => intro s sh h _ _; exact ⟨s, rfl, h, Ext.refl s⟩
  | cons q r ih =>
    intro s sh h hs hr
    obtain ⟨k, a⟩ := q
    obtain ⟨s1, n, t, h1, h2, h3, h4, h5, _⟩ := find_some h hs k
    obtain ⟨s2, g1, g2, g3⟩ := act_some h2 h4 (.inl h5) (h3.ready (hr (k, a) (by simp)))
    have hx := h3.trans g3
    obtain ⟨s3, i1, i2, i3⟩ := ih g2 (g2.all sh (Nat.lt_of_lt_of_le hs.lt hx.sheets)) (fun q hq => hx.ready (hr q (by simp [hq])))
    refine ⟨s3, ?_, i2, hx.trans i3⟩
    show (s.find sh k).bind _ = _
    rw [h1, Option.bind_some, g1, Option.bind_some]
    exact i1

theorem setItem_some {s : St} (h : Inv s) (key : Nat) : ∃ s', s.setItem key = some s' ∧ Inv s' ∧ Ext none s s' := by
  have fin : ∀ o : Own Nat, o.Ok → Inv { s with items := o } ∧ Ext none s { s with items := o } := fun o ho =>
    ⟨{ h with
        items := ho
        xfrefs := h.xfrefs
        refs := fun m t ht => ⟨(h.refs m t ht).xf, (h.refs m t ht).stacks, (h.refs m t ht).some, (h.refs m t ht).long⟩ },
      ⟨rfl, fun _ h => h, fun _ h => h, fun _ h => h, Nat.le_refl _, fun m t h _ => ⟨t, h, rfl, rfl, rfl⟩, fun m _ h => h.resolve_right (by simp), Nat.le_refl _⟩⟩
  unfold St.setItem
  rw [h.items.read, Option.bind_some]
  cases e : s.items.list.find? fun n => s.items.pool.live n = some key with
  | none => exact ⟨_, rfl, fin _ (h.items.add key)⟩
  | some m =>
    dsimp only
    have hm := (h.items.mem m).1 (List.mem_of_find?_eq_some e)
    have hlt := hm.lt
    have hm' : (s.items.pool.add key).Has m := add_has (o := s.items) hm
    obtain ⟨P, h1, h2, h3, h4⟩ := Pool.del_some hm'
    rw [h1, Option.map_some]
    refine ⟨_, rfl, fin _ ⟨(h.items.pool.add key).del h1, ?_, fun n => ?_⟩⟩
    · show (s.items.list.erase m ++ [_]).Nodup
      rw [List.nodup_append]
      refine ⟨h.items.nodup.erase m, by simp, ?_⟩
      intro a ha b hb e'
      simp only [List.mem_singleton] at hb
      have := ((h.items.mem a).1 (List.mem_of_mem_erase ha)).lt
      omega
    · show n ∈ s.items.list.erase m ++ [_] ↔ P.Has n
      rw [List.mem_append, List.mem_singleton, h.items.nodup.mem_erase_iff, h.items.mem]
      unfold Pool.Has
      simp only [h4, Pool.live_add]
      by_cases e1 : n = s.items.pool.objs.length
      · rw [if_neg (by omega)]; simp [e1]
      · by_cases e2 : n = m
        · simp [e2]; omega
        · simp [e1, e2]

theorem newSheet {s : St} (h : Inv s) : Inv { s with sheets := s.sheets.add {}, bounds := s.bounds.add () } ∧
    Ext none s { s with sheets := s.sheets.add {}, bounds := s.bounds.add () } := by
  have hl : ∀ n, (s.sheets.add {}).pool.live n = if n = s.sheets.pool.objs.length then some {} else s.sheets.pool.live n := add_live _ _
  have hlen : (s.sheets.add {}).pool.objs.length = s.sheets.pool.objs.length + 1 := by simp [Own.add, Pool.add]
  refine ⟨{ h with
    sheets := h.sheets.add {}
    bounds := h.bounds.add ()
    all := ?_
    xfrefs := h.xfrefs
    member := ?_
    home := fun m t ht => add_has (h.home m t ht)
    refs := fun m t ht => ⟨(h.refs m t ht).xf, (h.refs m t ht).stacks, (h.refs m t ht).some, (h.refs m t ht).long⟩
    hints := ?_
    entries := ?_ },
    ⟨rfl, fun _ h => h, fun _ h => h, fun _ h => h, by show _ ≤ (s.sheets.add {}).pool.objs.length; omega, fun m t h _ => ⟨t, h, rfl, rfl, rfl⟩,
      fun m _ h => h.resolve_right (by simp), Nat.le_refl _⟩⟩
  · intro n hn
    have hn : n < (s.sheets.add {}).pool.objs.length := hn
    by_cases e : n = s.sheets.pool.objs.length
    · rw [e]; exact add_new _ _
    · exact add_has (h.all n (by omega))
  · intro n sh hsh k
    have hsh : (s.sheets.add {}).pool.live n = some sh := hsh
    rw [hl] at hsh
    by_cases e : n = s.sheets.pool.objs.length
    · rw [if_pos e] at hsh
      simp only [Option.some.injEq] at hsh
      subst hsh
      refine ⟨List.nodup_nil, fun m => ⟨fun hm => by simp at hm, ?_⟩⟩
      rintro ⟨t, ht, _, h2⟩
      have := (h.home m t ht).lt
      omega
    · rw [if_neg e] at hsh
      exact h.member n sh hsh k
  · intro n sh hsh
    have hsh : (s.sheets.add {}).pool.live n = some sh := hsh
    rw [hl] at hsh
    by_cases e : n = s.sheets.pool.objs.length
    · rw [if_pos e] at hsh
      simp only [Option.some.injEq] at hsh
      subst hsh
      exact ⟨by simp, by simp⟩
    · rw [if_neg e] at hsh
      exact h.hints n sh hsh
  · show (s.bounds.list ++ [_]).length = (s.sheets.add {}).pool.objs.length
    rw [hlen, List.length_append, h.entries]; rfl

end Xls.Mem
