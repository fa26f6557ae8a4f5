import Verif.Dir.Effects
import Verif.Ole.Props
/-
Helper lemmas: the tree stands for the table, after any program.
-/
namespace Xls.Dir
open Xls.Ole

theorem children_snoc (t : Table) (p : Path) (w : What) (q : Path) :
    (t ++ [(p, w)]).children q =
      t.children q ++ (match p.getLast? with
        | some nm => if p.dropLast = q then [(t.length + 1, nm)] else []
        | none => []) := by
  unfold Table.children
  rw [List.zipIdx_append, List.filterMap_append]
  congr 1
  simp only [List.zipIdx_cons, List.zipIdx_nil, Nat.zero_add]
  cases hl : p.getLast? with
  | none => simp [hl]
  | some nm =>
    by_cases h : p.dropLast = q
    · simp [hl, h, List.filterMap_cons]
    · simp [hl, h, List.filterMap_cons]

theorem mem_children {t : Table} {q : Path} {i : Nat} {nm : Bytes} :
    (i, nm) ∈ t.children q ↔ ∃ j w, i = j + 1 ∧ t[j]? = some (q ++ [nm], w) := by
  unfold Table.children
  rw [List.mem_filterMap]
  constructor
  · rintro ⟨⟨⟨p, w⟩, j⟩, hm, h⟩
    rw [List.mem_zipIdx_iff_getElem?] at hm
    simp only at h hm
    cases hl : p.getLast? with
    | none => rw [hl] at h; cases h
    | some x =>
      rw [hl] at h
      by_cases hd : p.dropLast = q
      · simp only [if_pos hd, Option.some.injEq, Prod.mk.injEq] at h
        refine ⟨j, w, h.1.symm, ?_⟩
        rw [hm, ← hd, ← h.2]
        obtain ⟨pre, rfl⟩ := List.getLast?_eq_some_iff.mp hl
        simp
      · simp [hd] at h
  · rintro ⟨j, w, rfl, h⟩
    refine ⟨((q ++ [nm], w), j), List.mem_zipIdx_iff_getElem?.mpr h, ?_⟩
    simp

theorem get_eq {t : Table} {p : Path} (hp : p ≠ []) : t.get p = (t.find? fun x => x.1 == p).map Prod.snd := if_neg hp

theorem get_none {t : Table} {p : Path} (hp : p ≠ []) : t.get p = none ↔ p ∉ t.map Prod.fst := by
  rw [get_eq hp]
  simp only [Option.map_eq_none_iff, List.find?_eq_none, List.mem_map, not_exists, not_and]
  constructor
  · intro h x hx he; exact h x hx (by simpa using he)
  · intro h x hx he; exact h x hx (by simpa using he)

theorem get_some {t : Table} {p : Path} {w : What} (hp : p ≠ []) (h : t.get p = some w) :
    ∃ j : Nat, t[j]? = some (p, w) := by
  rw [get_eq hp] at h
  obtain ⟨⟨q, w'⟩, h1, h2⟩ := Option.map_eq_some_iff.mp h
  have h3 : q = p := by simpa using List.find?_some h1
  subst h3
  cases h2
  obtain ⟨j, hj⟩ := List.getElem?_of_mem (List.mem_of_find?_eq_some h1)
  exact ⟨j, hj⟩

theorem get_of_mem {t : Table} {p : Path} {w : What} (hn : (t.map Prod.fst).Nodup) (hp : p ≠ []) (h : (p, w) ∈ t) :
    t.get p = some w := by
  rw [get_eq hp]
  induction t with
  | nil => cases h
  | cons a r ih =>
    rw [List.map_cons, List.nodup_cons] at hn
    rcases List.mem_cons.mp h with rfl | hr
    · simp
    · have : a.1 ≠ p := by
        intro he
        exact hn.1 (he ▸ List.mem_map_of_mem (f := Prod.fst) hr)
      rw [List.find?_cons_of_neg (by simpa using this)]
      exact ih hn.2 hr

theorem Describes.congr {e e' : Entry} {i : Nat} {p : Path} {w : What} (h : Describes e i p w) (hc : core e' = core e) :
    Describes e' i p w := by
  simp only [core, Prod.mk.injEq] at hc
  obtain ⟨h1, h2, h3, h4, h5⟩ := hc
  exact ⟨by rw [h1]; exact h.number, by rw [h2]; exact h.name, by rw [h3, h4, h5]; exact h.dir,
    by rw [h3, h4, h5]; exact h.file⟩

/-- The entries a node has below it, as numbers and names. -/
def names (m : Node) : List (Nat × Bytes) := m.kids.map fun k => (k.e.index, k.e.name)

/-- The tree stands for the table. -/
structure Inv (fs : Fs) (t : Table) : Prop where
  count : fs.count = t.length
  rootE : core fs.root.e = core Fs.init.root.e
  rootK : names fs.root = t.children []
  here : ∀ (j : Nat) (q : Path) (w : What), t[j]? = some (q, w) →
    q ≠ [] ∧ ∃ m, nodeAt q fs.root = some m ∧ Describes m.e (j + 1) q w ∧ names m = t.children q
  gone : ∀ q, q ≠ [] → q ∉ t.map Prod.fst → nodeAt q fs.root = none
  nodup : (t.map Prod.fst).Nodup
  closed : ∀ (q : Path) (w : What), (q, w) ∈ t → t.get q.dropLast = some .dir
  links : AllLinks fs.root
  indexes : ((allNodes fs.root).map Entry.index).Perm (List.range' 1 t.length)

theorem inv_init : Inv Fs.init [] where
  count := rfl
  rootE := rfl
  rootK := rfl
  here := fun j q w h => by simp at h
  gone := fun q hq _ => by
    cases q with
    | nil => exact absurd rfl hq
    | cons a r => rfl
  nodup := List.nodup_nil
  closed := fun q w h => by cases h
  links := fun q m h => by
    cases q with
    | nil => cases h; exact ⟨rfl, fun j x hx => by cases hx⟩
    | cons a r => cases h
  indexes := by show List.Perm [] []; exact List.Perm.nil

theorem view_of_nodeAt {q : Path} {n m : Node} (h : nodeAt q n = some m) : view q n = some (core m.e, names m) := by
  rw [view, h]; rfl

theorem nodeAt_of_view {q : Path} {n : Node} {c} {l : List (Nat × Bytes)} (h : view q n = some (c, l)) :
    ∃ m, nodeAt q n = some m ∧ core m.e = c ∧ names m = l := by
  rw [view] at h
  obtain ⟨m, h1, h2⟩ := Option.map_eq_some_iff.mp h
  simp only [Prod.mk.injEq] at h2
  exact ⟨m, h1, h2.1, h2.2⟩

theorem nodeAt_none_of_view {q : Path} {n : Node} (h : view q n = none) : nodeAt q n = none := by
  rw [view] at h
  exact Option.map_eq_none_iff.mp h

theorem names_empty {m : Node} : m.kids.isEmpty = (names m).isEmpty := by
  cases h : m.kids with
  | nil => simp [names, h]
  | cons a r => simp [names, h]

/-- A call answers as the table says. -/
theorem Inv.answer {fs : Fs} {t : Table} (I : Inv fs t) (f : Entry → Entry) (p : Path) :
    match t.answer p with
    | none => addWith (fs.count + 1) f p fs.root = .ub
    | some c => if c = 0 then (∃ n', addWith (fs.count + 1) f p fs.root = .ok n') ∧ p ≠ [] ∧ t.get p = none ∧
          t.get p.dropLast = some .dir
        else addWith (fs.count + 1) f p fs.root = .err c := by
  have hout := addWith_outcome (fs.count + 1) f p fs.root
  unfold Table.answer
  by_cases hp : p = []
  · subst hp
    have hn : nodeAt [] fs.root = some fs.root := rfl
    rw [hn] at hout
    simp only [] at hout
    rw [names_empty, I.rootK] at hout
    have : ((Table.get t []).isSome) = true := by simp [Table.get]
    rw [if_pos this]
    cases hc : (t.children []).isEmpty with
    | true => rw [hc] at hout; simp only [if_true]; rw [if_neg (by decide)]; exact hout
    | false => rw [hc] at hout; simp only [Bool.false_eq_true, if_false]; exact hout
  · cases hg : t.get p with
    | some w =>
      rw [if_pos (show (some w).isSome = true from rfl)]
      obtain ⟨j, hj⟩ := get_some hp hg
      obtain ⟨_, m, hm, _, hk⟩ := I.here j p w hj
      rw [hm] at hout
      simp only [] at hout
      rw [names_empty, hk] at hout
      cases hc : (t.children p).isEmpty with
      | true => rw [hc] at hout; simp only [if_true]; rw [if_neg (by decide)]; exact hout
      | false => rw [hc] at hout; simp only [Bool.false_eq_true, if_false]; exact hout
    | none =>
      rw [if_neg (by simp)]
      have hno := I.gone p hp ((get_none hp).mp hg)
      rw [hno] at hout
      simp only [] at hout
      by_cases hd : p.dropLast = []
      · rw [hd] at hout ⊢
        have hn : nodeAt [] fs.root = some fs.root := rfl
        rw [hn] at hout
        simp only [] at hout
        have ht : fs.root.e.typ = 5 := by
          have := I.rootE
          simp only [core, Prod.mk.injEq] at this
          rw [this.2.2.1]; rfl
        rw [if_pos (Or.inr ht)] at hout
        have hgd : t.get [] = some .dir := rfl
        rw [hgd]
        exact ⟨hout, hp, rfl, rfl⟩
      · cases hgd : t.get p.dropLast with
        | none =>
          rw [I.gone _ hd ((get_none hd).mp hgd)] at hout
          exact hout
        | some w =>
          obtain ⟨j, hj⟩ := get_some hd hgd
          obtain ⟨_, m, hm, hdes, hk⟩ := I.here j _ w hj
          rw [hm] at hout
          simp only [] at hout
          cases w with
          | dir =>
            rw [if_pos (Or.inl (hdes.dir rfl).1)] at hout
            exact ⟨hout, hp, rfl, rfl⟩
          | file b =>
            have h2 : m.e.typ = 2 := (hdes.file b rfl).1
            rw [if_neg (by rw [h2]; decide)] at hout
            exact hout

/-- A successful call keeps the correspondence. -/
theorem Inv.add {fs : Fs} {t : Table} (I : Inv fs t) {ty : UInt8} {sz : Nat} {d : Option (List Bytes)} {p : Path}
    {n' : Node} (h : addWith (fs.count + 1) (setup ty sz d) p fs.root = .ok n') (hp : p ≠ []) (hg : t.get p = none)
    (hgd : t.get p.dropLast = some .dir) (w : What)
    (hdes : ∀ e : Entry, core e = (fs.count + 1, p.getLast hp, ty, sz, d) → Describes e (t.length + 1) p w) :
    Inv { root := n', count := fs.count + 1 } (t ++ [(p, w)]) := by
  have hlast : p.getLast? = some (p.getLast hp) := List.getLast?_eq_some_getLast hp
  have hv := fun q => view_add h q _ hlast
  have hpt : p ∉ t.map Prod.fst := (get_none hp).mp hg
  have hpd : p.dropLast ≠ p := by
    intro he
    have := congrArg List.length he
    rw [List.length_dropLast] at this
    have : 0 < p.length := List.length_pos_iff.mpr hp
    omega
  have hnod : ((t ++ [(p, w)]).map Prod.fst).Nodup := by
    rw [List.map_append, List.nodup_append]
    refine ⟨I.nodup, by simp, ?_⟩
    intro a ha b hb
    simp only [List.map_cons, List.map_nil, List.mem_singleton] at hb
    subst hb
    rintro rfl
    exact hpt ha
  have hch : ∀ q, (t ++ [(p, w)]).children q =
      if p.dropLast = q then t.children q ++ [(t.length + 1, p.getLast hp)] else t.children q := by
    intro q
    rw [children_snoc, hlast]
    simp only []
    split
    · rfl
    · simp
  have hnone : t.children p = [] := by
    cases hc : t.children p with
    | nil => rfl
    | cons x r =>
      exfalso
      have hx : (x.1, x.2) ∈ t.children p := by rw [hc]; simp
      obtain ⟨j, w', _, hj⟩ := mem_children.mp hx
      have := I.closed _ _ (List.mem_of_getElem? hj)
      rw [List.dropLast_concat] at this
      rw [hg] at this
      cases this
  constructor
  · show fs.count + 1 = _
    rw [I.count]; simp
  · obtain ⟨c, hc⟩ := addWith_head h
    show core n'.e = _
    rw [hc]; exact I.rootE
  · show names n' = _
    have h0 : view [] n' = some (core n'.e, names n') := view_of_nodeAt rfl
    have h1 : view [] fs.root = some (core fs.root.e, names fs.root) := view_of_nodeAt rfl
    rw [hv [], if_neg (fun he => hp he.symm), h1] at h0
    rw [hch]
    by_cases hd : ([] : Path) = p.dropLast
    · rw [if_pos hd] at h0
      simp only [Option.map_some, Option.some.injEq, Prod.mk.injEq] at h0
      rw [← h0.2, I.rootK, I.count, if_pos hd.symm]
    · rw [if_neg hd] at h0
      simp only [Option.some.injEq, Prod.mk.injEq] at h0
      rw [← h0.2, I.rootK, if_neg (fun he => hd he.symm)]
  · intro j q w' hj
    by_cases hlt : j < t.length
    · rw [List.getElem?_append_left hlt] at hj
      obtain ⟨hq, m, hm, hds, hk⟩ := I.here j q w' hj
      have hqp : q ≠ p := by
        rintro rfl
        exact hpt (List.mem_map_of_mem (f := Prod.fst) (List.mem_of_getElem? hj))
      have h0 := hv q
      rw [if_neg hqp, view_of_nodeAt hm] at h0
      refine ⟨hq, ?_⟩
      rw [hch]
      by_cases hd : q = p.dropLast
      · rw [if_pos hd, Option.map_some] at h0
        obtain ⟨m', h1, h2, h3⟩ := nodeAt_of_view h0
        exact ⟨m', h1, hds.congr h2, by rw [h3, hk, I.count, if_pos hd.symm]⟩
      · rw [if_neg hd] at h0
        obtain ⟨m', h1, h2, h3⟩ := nodeAt_of_view h0
        exact ⟨m', h1, hds.congr h2, by rw [h3, hk, if_neg (fun he => hd he.symm)]⟩
    · rw [List.getElem?_append_right (by omega)] at hj
      have hjj : j = t.length := by
        obtain ⟨hl, _⟩ := List.getElem?_eq_some_iff.mp hj
        simp at hl
        omega
      subst hjj
      rw [Nat.sub_self] at hj
      cases hj
      have h0 := hv p
      rw [if_pos rfl] at h0
      obtain ⟨m', h1, h2, h3⟩ := nodeAt_of_view h0
      exact ⟨hp, m', h1, hdes _ h2, by rw [h3, hch, if_neg hpd, hnone]⟩
  · intro q hq hnin
    have hqp : q ≠ p := by
      rintro rfl; exact hnin (by simp)
    have hqt : q ∉ t.map Prod.fst := fun hh => hnin (by rw [List.map_append]; exact List.mem_append_left _ hh)
    have h0 := hv q
    have hvn : view q fs.root = none := by rw [view, I.gone q hq hqt]; rfl
    rw [if_neg hqp, hvn] at h0
    apply nodeAt_none_of_view
    show view q n' = none
    rw [h0]
    split <;> rfl
  · exact hnod
  · intro q w' hm
    have hmono : ∀ (r : Path), t.get r = some .dir → (t ++ [(p, w)]).get r = some .dir := by
      intro r hr
      by_cases hr0 : r = []
      · subst hr0; rfl
      · obtain ⟨j, hj⟩ := get_some hr0 hr
        exact get_of_mem hnod hr0 (List.mem_append_left _ (List.mem_of_getElem? hj))
    rcases List.mem_append.mp hm with h1 | h1
    · exact hmono _ (I.closed q w' h1)
    · simp only [List.mem_singleton, Prod.mk.injEq] at h1
      rw [h1.1]
      exact hmono _ hgd
  · exact allLinks_add h I.links
  · have := indexes_add h
    show ((allNodes n').map Entry.index).Perm _
    refine this.trans ?_
    rw [List.length_append, List.length_singleton, List.range'_concat]
    rw [I.count]
    refine (List.Perm.cons _ I.indexes).trans ?_
    have : t.length + 1 = 1 + 1 * t.length := by omega
    rw [this]
    exact (List.perm_append_singleton _ _).symm

theorem addFile_with (fs : Fs) (path : Bytes) (us : List Bytes) :
    addFile fs path us =
      match addWith (fs.count + 1) (setup 2 (nodeSize (dataSize us)) (some (padUnits us))) (stringtok path) fs.root with
      | .ub => .ub
      | .err c => .err c
      | .ok r => .ok { root := r, count := fs.count + 1 } := by
  rw [addNode_with, addFile]
  cases addNode (fs.count + 1) (stringtok path) fs.root <;> rfl

theorem addDirectory_with (fs : Fs) (path : Bytes) :
    addDirectory fs path =
      match addWith (fs.count + 1) (setup 1 0 none) (stringtok path) fs.root with
      | .ub => .ub
      | .err c => .err c
      | .ok r => .ok { root := r, count := fs.count + 1 } := by
  rw [addNode_with, addDirectory]
  cases addNode (fs.count + 1) (stringtok path) fs.root <;> rfl

theorem stored_pad (us : List Bytes) : Stored us.flatten (padUnits us).flatten ∧
    nodeSize (dataSize us) = (padUnits us).flatten.length := by
  obtain ⟨k, h1, ⟨⟨_, h3, h4⟩, h5⟩, h6⟩ := c13_padding us
  refine ⟨⟨k, h1, h4, h3, ?_⟩, ?_⟩
  · intro j hj1 hj2
    have := h5 (us.flatten.length + j) (by omega) hj2 hj1
    omega
  · rw [h6, h1]; simp

/-- One call. -/
theorem Inv.call {fs : Fs} {t : Table} (I : Inv fs t) (o : Op) :
    match t.answer o.made.1 with
    | none => call fs o = .ub
    | some c => if c = 0 then ∃ fs', call fs o = .ok fs' ∧ Inv fs' (t ++ [o.made]) else call fs o = .err c := by
  cases o with
  | dir path =>
    have ha := I.answer (setup 1 0 none) (stringtok path)
    show match t.answer (stringtok path) with
      | none => addDirectory fs path = .ub
      | some c => if c = 0 then ∃ fs', addDirectory fs path = .ok fs' ∧ Inv fs' (t ++ [(stringtok path, .dir)])
          else addDirectory fs path = .err c
    rw [addDirectory_with]
    cases hans : t.answer (stringtok path) with
    | none => rw [hans] at ha; simp only [] at ha ⊢; rw [ha]
    | some c =>
      rw [hans] at ha
      simp only [] at ha ⊢
      by_cases hc : c = 0
      · rw [if_pos hc] at ha ⊢
        obtain ⟨⟨n', h1⟩, hp, hg, hgd⟩ := ha
        rw [h1]
        refine ⟨_, rfl, I.add h1 hp hg hgd .dir ?_⟩
        intro e he
        simp only [core, Prod.mk.injEq] at he
        obtain ⟨e1, e2, e3, e4, e5⟩ := he
        exact ⟨by rw [e1, I.count], by rw [e2]; exact List.getLast?_eq_some_getLast hp, fun _ => ⟨e3, e4, e5⟩,
          fun b hb => by cases hb⟩
      · rw [if_neg hc] at ha ⊢
        rw [ha]
  | file path us =>
    have ha := I.answer (setup 2 (nodeSize (dataSize us)) (some (padUnits us))) (stringtok path)
    show match t.answer (stringtok path) with
      | none => addFile fs path us = .ub
      | some c => if c = 0 then ∃ fs', addFile fs path us = .ok fs' ∧ Inv fs' (t ++ [(stringtok path, .file us.flatten)])
          else addFile fs path us = .err c
    rw [addFile_with]
    cases hans : t.answer (stringtok path) with
    | none => rw [hans] at ha; simp only [] at ha ⊢; rw [ha]
    | some c =>
      rw [hans] at ha
      simp only [] at ha ⊢
      by_cases hc : c = 0
      · rw [if_pos hc] at ha ⊢
        obtain ⟨⟨n', h1⟩, hp, hg, hgd⟩ := ha
        rw [h1]
        refine ⟨_, rfl, I.add h1 hp hg hgd (.file us.flatten) ?_⟩
        intro e he
        simp only [core, Prod.mk.injEq] at he
        obtain ⟨e1, e2, e3, e4, e5⟩ := he
        refine ⟨by rw [e1, I.count], by rw [e2]; exact List.getLast?_eq_some_getLast hp, (fun hb => by cases hb), ?_⟩
        intro b hb
        cases hb
        exact ⟨e3, padUnits us, e5, (stored_pad us).1, by rw [e4]; exact (stored_pad us).2⟩
      · rw [if_neg hc] at ha ⊢
        rw [ha]

/-- Any program. -/
theorem Inv.run {fs : Fs} {t : Table} (I : Inv fs t) (os : List Op) :
    match Table.runFrom t os with
    | none => runFrom fs os = none
    | some (cs, t') => ∃ fs', runFrom fs os = some (cs, fs') ∧ Inv fs' t' := by
  induction os generalizing fs t with
  | nil => exact ⟨fs, rfl, I⟩
  | cons o r ih =>
    have hc := I.call o
    rw [Table.runFrom]
    cases hans : t.answer o.made.1 with
    | none =>
      rw [hans] at hc
      simp only [] at hc ⊢
      rw [Dir.runFrom, hc]
    | some c =>
      rw [hans] at hc
      simp only [] at hc ⊢
      by_cases h0 : c = 0
      · rw [if_pos h0] at hc ⊢
        obtain ⟨fs', hok, I'⟩ := hc
        have := ih I'
        cases hr : Table.runFrom (t ++ [o.made]) r with
        | none => rw [hr] at this; simp only [] at this; simp only [Option.map_none]; rw [Dir.runFrom, hok]; simp [this]
        | some x =>
          obtain ⟨cs, t'⟩ := x
          rw [hr] at this
          obtain ⟨fs'', h1, h2⟩ := this
          refine ⟨fs'', ?_, h2⟩
          rw [Dir.runFrom, hok]
          simp [h1, h0]
      · rw [if_neg h0] at hc ⊢
        have := ih I
        cases hr : Table.runFrom t r with
        | none => rw [hr] at this; simp only [] at this; simp only [Option.map_none]; rw [Dir.runFrom, hc]; simp [this]
        | some x =>
          obtain ⟨cs, t'⟩ := x
          rw [hr] at this
          obtain ⟨fs'', h1, h2⟩ := this
          refine ⟨fs'', ?_, h2⟩
          rw [Dir.runFrom, hc]
          simp [h1]

theorem run_inv {os : List Op} {cs : List Int} {fs : Fs} (h : Dir.run os = some (cs, fs)) :
    ∃ t, Table.run os = some (cs, t) ∧ Inv fs t := by
  have := inv_init.run os
  unfold Table.run
  cases hr : Table.runFrom [] os with
  | none => rw [hr] at this; simp only [] at this; rw [Dir.run] at h; rw [this] at h; cases h
  | some x =>
    obtain ⟨cs', t'⟩ := x
    rw [hr] at this
    obtain ⟨fs', h1, h2⟩ := this
    rw [Dir.run, h1] at h
    cases h
    exact ⟨t', rfl, h2⟩

end Xls.Dir
