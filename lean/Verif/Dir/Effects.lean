import Verif.Dir.Lemmas
/-
Helper lemmas: the tree after a successful call.
-/
namespace Xls.Dir
open Xls.Ole

/-- The settings `AddFile` and `AddDirectory` make. -/
def setup (t : UInt8) (sz : Nat) (d : Option (List Bytes)) (e : Entry) : Entry :=
  { e with typ := t, child := -1, size := sz, data := d }

/-- The fields of an entry other than the links. -/
def core (e : Entry) : Nat × Bytes × UInt8 × Nat × Option (List Bytes) := (e.index, e.name, e.typ, e.size, e.data)

/-- What is seen at a path: the entry and the children. -/
def view (q : Path) (n : Node) : Option ((Nat × Bytes × UInt8 × Nat × Option (List Bytes)) × List (Nat × Bytes)) :=
  (nodeAt q n).map fun m => (core m.e, m.kids.map fun k => (k.e.index, k.e.name))

theorem addWith_head {idx : Nat} {f : Entry → Entry} {p : Path} {n n' : Node} (h : addWith idx f p n = .ok n') :
    ∃ c, n'.e = { n.e with child := c } := by
  cases p with
  | nil => rw [addWith] at h; split at h <;> cases h
  | cons a r =>
    rw [addWith] at h
    cases hk : kid a n.kids with
    | some k =>
      simp only [hk] at h
      cases ha : addWith idx f r k with
      | ok k' => simp only [ha, AddRes.ok.injEq] at h; subst h; exact ⟨n.e.child, rfl⟩
      | ub => simp [ha] at h
      | err c => simp [ha] at h
    | none =>
      simp only [hk] at h
      split at h
      · split at h
        · cases h; exact ⟨_, rfl⟩
        · cases h
      · cases h

/-- A successful call either goes down or links a new node here. -/
theorem addWith_cases {idx : Nat} {f : Entry → Entry} {p : Path} {n n' : Node} (h : addWith idx f p n = .ok n') :
    (∃ a r k k', p = a :: r ∧ r ≠ [] ∧ kid a n.kids = some k ∧ addWith idx f r k = .ok k' ∧
      n' = .mk n.e (repl a k' n.kids)) ∨
    (∃ a, p = [a] ∧ kid a n.kids = none ∧ (n.e.typ = 1 ∨ n.e.typ = 5) ∧
      n' = .mk { n.e with child := if n.kids.length < 2 then (idx : Int) else n.e.child }
        (relink n.kids idx ++ [.mk (f (freshEntry idx a (newPrev n.kids))) []])) := by
  cases p with
  | nil => rw [addWith] at h; split at h <;> cases h
  | cons a r =>
    rw [addWith] at h
    cases hk : kid a n.kids with
    | some k =>
      simp only [hk] at h
      cases ha : addWith idx f r k with
      | ok k' =>
        simp only [ha, AddRes.ok.injEq] at h
        refine Or.inl ⟨a, r, k, k', rfl, ?_, hk, ha, h.symm⟩
        rintro rfl
        rw [addWith] at ha
        split at ha <;> cases ha
      | ub => simp [ha] at h
      | err c => simp [ha] at h
    | none =>
      simp only [hk] at h
      cases r with
      | cons b s => simp at h
      | nil =>
        simp only [List.isEmpty_nil, if_true] at h
        by_cases ht : n.e.typ = 1 ∨ n.e.typ = 5
        · rw [if_pos ht] at h
          cases h
          exact Or.inr ⟨a, rfl, hk, ht, rfl⟩
        · rw [if_neg ht] at h; cases h

theorem kid_relink (b : Bytes) (kids : List Node) (idx : Nat) :
    (kid b kids = none ∧ kid b (relink kids idx) = none) ∨
    ∃ e ks i, kid b kids = some (.mk e ks) ∧ kid b (relink kids idx) = some (.mk { e with next := i } ks) := by
  by_cases h0 : kid b kids = none
  · exact Or.inl ⟨h0, (kid_relink_none idx).mpr h0⟩
  · obtain ⟨⟨e, ks⟩, hk⟩ := Option.ne_none_iff_exists'.mp h0
    refine Or.inr ?_
    rw [relink]
    by_cases hl : kids.length < 2
    · rw [if_pos hl]; exact ⟨e, ks, e.next, hk, hk⟩
    · rw [if_neg hl]
      obtain h | ⟨a, l, h⟩ := List.eq_nil_or_concat kids
      · subst h; simp at hl
      · rw [List.concat_eq_append] at h
        subst h
        obtain ⟨e', ks'⟩ := l
        have : setLastNext (a ++ [.mk e' ks']) idx = a ++ [.mk { e' with next := (idx : Int) } ks'] := by simp [setLastNext]
        rw [this]
        simp only [kid_append] at hk ⊢
        cases ha : kid b a with
        | some x =>
          rw [ha] at hk
          simp only [Option.some_or, Option.some.injEq] at hk
          subst hk
          exact ⟨e, ks, e.next, rfl, rfl⟩
        | none =>
          rw [ha] at hk
          simp only [Option.none_or] at hk
          have hb : (e'.name == b) = true := by
            by_cases hb : (e'.name == b) = true
            · exact hb
            · rw [kid_neg (by exact hb)] at hk; simp [kid] at hk
          rw [kid_pos (by exact hb)] at hk
          cases hk
          refine ⟨e, ks, idx, by rw [Option.none_or, kid_pos (by exact hb)], ?_⟩
          rw [Option.none_or, kid_pos (by exact hb)]

/-- What every path shows after a successful call. -/
theorem view_add {idx : Nat} {t : UInt8} {sz : Nat} {d : Option (List Bytes)} {p : Path} {n n' : Node}
    (h : addWith idx (setup t sz d) p n = .ok n') (q : Path) (nm : Bytes) (hnm : p.getLast? = some nm) :
    view q n' =
      if q = p then some ((idx, nm, t, sz, d), [])
      else if q = p.dropLast then (view q n).map fun v => (v.1, v.2 ++ [(idx, nm)])
      else view q n := by
  induction p generalizing n n' q with
  | nil => simp at hnm
  | cons a r ih =>
    rcases addWith_cases h with ⟨a', r', k, k', hp, hr, hk, hadd, rfl⟩ | ⟨a', hp, hk, ht, rfl⟩
    · cases hp
      obtain ⟨c, hc⟩ := addWith_head hadd
      have hkn : k'.e.name = a := by rw [hc]; exact kid_name hk
      obtain ⟨b, s, hbs⟩ : ∃ b s, r = b :: s := List.exists_cons_of_ne_nil hr
      have hnm' : r.getLast? = some nm := by rw [hbs] at hnm ⊢; rw [List.getLast?_cons_cons] at hnm; exact hnm
      have hdl : (a :: r).dropLast = a :: r.dropLast := by rw [hbs]; rfl
      rw [hdl]
      cases q with
      | nil =>
        rw [if_neg (by simp), if_neg (by simp)]
        simp only [view, nodeAt, Option.map_some, mk_e, mk_kids]
        rw [map_repl (fun k => (k.e.index, k.e.name)) hk (by rw [hc])]
      | cons b' s' =>
        by_cases hb : b' = a
        · subst hb
          have h1 : view (b' :: s') (.mk n.e (repl b' k' n.kids)) = view s' k' := by
            simp only [view, nodeAt, mk_kids]
            rw [kid_repl_self hk hkn]; rfl
          have h2 : view (b' :: s') n = view s' k := by
            simp only [view, nodeAt, hk]; rfl
          rw [h1, h2, ih hadd s' hnm']
          by_cases e1 : s' = r
          · rw [if_pos e1, if_pos (by rw [e1])]
          · rw [if_neg e1, if_neg (show ¬ (b' :: s' = b' :: r) by simpa using e1)]
            by_cases e2 : s' = r.dropLast
            · rw [if_pos e2, if_pos (by rw [e2])]
            · rw [if_neg e2, if_neg (by simpa using e2)]
        · rw [if_neg (by simp [hb]), if_neg (by simp [hb])]
          simp only [view, nodeAt, mk_kids]
          rw [kid_repl_other hkn hb]
    · cases hp
      cases hnm
      have h0 := (kid_relink_none (p := a) (kids := n.kids) idx).mpr hk
      cases q with
      | nil =>
        rw [if_neg (show ¬ ([] : Path) = [a] by simp), if_pos (show ([] : Path) = [a].dropLast from rfl)]
        simp only [view, nodeAt, Option.map_some, mk_e, mk_kids, List.map_append]
        rw [map_relink (fun k => (k.e.index, k.e.name)) (fun _ _ _ => rfl)]
        rfl
      | cons b s =>
        by_cases hb : b = a
        · subst hb
          have hnew : kid b (relink n.kids idx ++ [.mk (setup t sz d (freshEntry idx b (newPrev n.kids))) []]) =
              some (.mk (setup t sz d (freshEntry idx b (newPrev n.kids))) []) := by
            rw [kid_append, h0, Option.none_or, kid_pos]
            simp [setup, freshEntry, mk_e]
          cases s with
          | nil =>
            rw [if_pos (show [b] = [b] from rfl)]
            simp only [view, nodeAt, mk_kids, hnew]
            rfl
          | cons b2 s2 =>
            rw [if_neg (show ¬ b :: b2 :: s2 = [b] by simp), if_neg (show ¬ b :: b2 :: s2 = [b].dropLast by simp)]
            simp only [view, nodeAt, mk_kids, hnew, hk]
            rfl
        · rw [if_neg (show ¬ b :: s = [a] by simp [hb]), if_neg (show ¬ b :: s = [a].dropLast by simp)]
          have hother : kid b [Node.mk (setup t sz d (freshEntry idx a (newPrev n.kids))) []] = none := by
            rw [kid_neg]
            · rfl
            · show ¬ ((a == b) = true)
              simpa using fun h => hb h.symm
          simp only [view, nodeAt, mk_kids, kid_append, hother, Option.or_none]
          rcases kid_relink b n.kids idx with ⟨h1, h2⟩ | ⟨e, ks, i, h1, h2⟩
          · rw [h1, h2]
          · rw [h1, h2]
            cases s with
            | nil => rfl
            | cons b2 s2 => rfl

/-! ### Links -/

/-- The number of the entry at a position, −1 beyond the end. -/
def idxAt (l : List (Nat × Int × Int)) (j : Nat) : Int := match l[j]? with | some x => x.1 | none => -1

def links (kids : List Node) : List (Nat × Int × Int) := kids.map fun k => (k.e.index, k.e.prev, k.e.next)

/-- The links between the children of a directory. -/
def Good (l : List (Nat × Int × Int)) : Prop :=
  ∀ (j : Nat) (x : Nat × Int × Int), l[j]? = some x → x.2.1 = (if j = 1 then idxAt l 0 else -1) ∧
    x.2.2 = (if 1 ≤ j then idxAt l (j + 1) else -1)

def LinkOK (m : Node) : Prop :=
  m.e.child = (if m.kids.length < 2 then idxAt (links m.kids) 0 else idxAt (links m.kids) 1) ∧ Good (links m.kids)

def AllLinks (n : Node) : Prop := ∀ q m, nodeAt q n = some m → LinkOK m

theorem links_relink_get (kids : List Node) (idx j : Nat) :
    (links (relink kids idx))[j]? = ((links kids)[j]?).map fun x =>
      if 2 ≤ kids.length ∧ j + 1 = kids.length then (x.1, x.2.1, (idx : Int)) else x := by
  rw [links, links, List.getElem?_map, List.getElem?_map, relink_get]
  cases kids[j]? with
  | none => rfl
  | some k =>
    simp only [Option.map_some]
    split <;> rfl

theorem idxAt_append_lt {l r : List (Nat × Int × Int)} {j : Nat} (h : j < l.length) : idxAt (l ++ r) j = idxAt l j := by
  simp only [idxAt, List.getElem?_append_left h]

theorem idxAt_relink (kids : List Node) (idx j : Nat) : idxAt (links (relink kids idx)) j = idxAt (links kids) j := by
  simp only [idxAt, links_relink_get]
  cases (links kids)[j]? with
  | none => rfl
  | some x => simp only [Option.map_some]; split <;> simp_all <;> (split <;> rfl)

theorem links_length (kids : List Node) : (links kids).length = kids.length := by simp [links]

theorem newPrev_eq (kids : List Node) : newPrev kids = if kids.length = 1 then idxAt (links kids) 0 else -1 := by
  match kids with
  | [] => rfl
  | [k] => rfl
  | k :: l :: r => simp [newPrev]

theorem good_link {kids : List Node} (h : Good (links kids)) (idx : Nat) (e : Entry) (he : e.index = idx)
    (hp : e.prev = newPrev kids) (hn : e.next = -1) : Good (links (relink kids idx ++ [.mk e []])) := by
  have hsplit : links (relink kids idx ++ [.mk e []]) = links (relink kids idx) ++ [(idx, newPrev kids, -1)] := by
    simp [links, mk_e, he, hp, hn]
  have hlen : (links (relink kids idx)).length = kids.length := by rw [links_length, relink_length]
  rw [hsplit]
  intro j x hx
  have hat0 : 0 < kids.length → idxAt (links (relink kids idx) ++ [(idx, newPrev kids, -1)]) 0 = idxAt (links kids) 0 := by
    intro h0; rw [idxAt_append_lt (by omega), idxAt_relink]
  by_cases hj : j < kids.length
  · rw [List.getElem?_append_left (by omega), links_relink_get] at hx
    cases hy : (links kids)[j]? with
    | none => rw [hy] at hx; cases hx
    | some y =>
      rw [hy, Option.map_some, Option.some.injEq] at hx
      obtain ⟨h1, h2⟩ := h j y hy
      rw [hat0 (by omega)]
      by_cases hlast : 2 ≤ kids.length ∧ j + 1 = kids.length
      · rw [if_pos hlast] at hx
        subst hx
        refine ⟨h1, ?_⟩
        rw [if_pos (by omega)]
        have : (links (relink kids idx) ++ [(idx, newPrev kids, -1)])[j + 1]? = some (idx, newPrev kids, -1) := by
          rw [List.getElem?_append_right (by omega), hlen, hlast.2, Nat.sub_self]; rfl
        simp only [idxAt, this]
      · rw [if_neg hlast] at hx
        subst hx
        refine ⟨h1, ?_⟩
        rw [h2]
        by_cases h1j : 1 ≤ j
        · rw [if_pos h1j, if_pos h1j, idxAt_append_lt (by omega), idxAt_relink]
        · rw [if_neg h1j, if_neg h1j]
  · have hjj : j = kids.length := by
      have := List.getElem?_eq_some_iff.mp hx
      obtain ⟨hlt, _⟩ := this
      rw [List.length_append, hlen] at hlt
      simp at hlt
      omega
    subst hjj
    rw [List.getElem?_append_right (by omega), hlen, Nat.sub_self] at hx
    cases hx
    constructor
    · show newPrev kids = _
      have hnp := newPrev_eq kids
      by_cases h1 : kids.length = 1
      · rw [if_pos h1] at hnp
        rw [if_pos h1, hat0 (by omega)]; exact hnp
      · rw [if_neg h1] at hnp
        rw [if_neg h1]; exact hnp
    · show (-1 : Int) = _
      have : (links (relink kids idx) ++ [(idx, newPrev kids, -1)])[kids.length + 1]? = none := by
        rw [List.getElem?_eq_none_iff, List.length_append, hlen]; simp
      simp only [idxAt, this]
      split <;> rfl

theorem allLinks_add {idx : Nat} {t : UInt8} {sz : Nat} {d : Option (List Bytes)} {p : Path} {n n' : Node}
    (h : addWith idx (setup t sz d) p n = .ok n') (hl : AllLinks n) : AllLinks n' := by
  induction p generalizing n n' with
  | nil => rw [addWith] at h; split at h <;> cases h
  | cons a r ih =>
    rcases addWith_cases h with ⟨a', r', k, k', hp, hr, hk, hadd, rfl⟩ | ⟨a', hp, hk, ht, rfl⟩
    · cases hp
      obtain ⟨c, hc⟩ := addWith_head hadd
      have hkn : k'.e.name = a := by rw [hc]; exact kid_name hk
      have hlk : AllLinks k := fun q m hm => hl (a :: q) m (by rw [nodeAt, hk]; exact hm)
      intro q m hm
      cases q with
      | nil =>
        rw [nodeAt] at hm
        cases hm
        have h0 := hl [] n rfl
        have hlinks : links (repl a k' n.kids) = links n.kids :=
          map_repl (fun k => (k.e.index, k.e.prev, k.e.next)) hk (by rw [hc])
        have hlen : (repl a k' n.kids).length = n.kids.length := by
          rw [← links_length, hlinks, links_length]
        unfold LinkOK at h0 ⊢
        rw [mk_e, mk_kids, hlinks, hlen]
        exact h0
      | cons b s =>
        rw [nodeAt, mk_kids] at hm
        by_cases hb : b = a
        · subst hb
          rw [kid_repl_self hk hkn] at hm
          exact ih hadd hlk s m hm
        · rw [kid_repl_other hkn hb] at hm
          exact hl (b :: s) m hm
    · cases hp
      have h0 := (kid_relink_none (p := a) (kids := n.kids) idx).mpr hk
      intro q m hm
      cases q with
      | nil =>
        rw [nodeAt] at hm
        cases hm
        obtain ⟨hc, hg⟩ := hl [] n rfl
        refine ⟨?_, good_link hg idx _ rfl rfl rfl⟩
        rw [mk_e, mk_kids]
        show (if n.kids.length < 2 then (idx : Int) else n.e.child) = _
        rw [List.length_append, relink_length]
        have hsplit : links (relink n.kids idx ++ [.mk (setup t sz d (freshEntry idx a (newPrev n.kids))) []]) =
            links (relink n.kids idx) ++ [(idx, newPrev n.kids, -1)] := by
          simp [links, mk_e, setup, freshEntry]
        have hlen : (links (relink n.kids idx)).length = n.kids.length := by rw [links_length, relink_length]
        rw [hsplit]
        have hlast : idxAt (links (relink n.kids idx) ++ [(idx, newPrev n.kids, -1)]) n.kids.length = idx := by
          rw [idxAt, List.getElem?_append_right (by omega), hlen, Nat.sub_self]; rfl
        by_cases h2 : n.kids.length < 2
        · rw [if_pos h2]
          by_cases h1 : n.kids.length = 0
          · rw [if_pos (by simp [h1]), ← hlast, h1]
          · have h11 : n.kids.length = 1 := by omega
            rw [if_neg (by simp [h11]), ← hlast, h11]
        · rw [if_neg h2, if_neg (by simp; omega), hc, if_neg h2, idxAt_append_lt (by omega), idxAt_relink]
      | cons b s =>
        rw [nodeAt, mk_kids, kid_append] at hm
        by_cases hb : b = a
        · subst hb
          rw [h0, Option.none_or, kid_pos (by simp [setup, freshEntry, mk_e])] at hm
          cases s with
          | nil =>
            cases hm
            exact ⟨rfl, fun j x hx => by simp [links, mk_kids] at hx⟩
          | cons b2 s2 => cases hm
        · have hother : kid b [Node.mk (setup t sz d (freshEntry idx a (newPrev n.kids))) []] = none := by
            rw [kid_neg]
            · rfl
            · show ¬ ((a == b) = true)
              simpa using fun h => hb h.symm
          rw [hother, Option.or_none] at hm
          rcases kid_relink b n.kids idx with ⟨h1, h2⟩ | ⟨e, ks, i, h1, h2⟩
          · rw [h2] at hm; cases hm
          · rw [h2] at hm
            cases s with
            | nil =>
              cases hm
              exact hl [b] (.mk e ks) (by rw [nodeAt, h1]; rfl)
            | cons b2 s2 => exact hl (b :: b2 :: s2) m (by rw [nodeAt, h1]; exact hm)

/-! ### All nodes -/

theorem allNodesL_append (a b : List Node) : allNodesL (a ++ b) = allNodesL a ++ allNodesL b := by
  induction a with
  | nil => simp [allNodesL]
  | cons x r ih => simp [allNodesL, ih]

theorem allNodesL_repl {p : Bytes} {kids : List Node} {k k' : Node} {idx : Nat} (h : kid p kids = some k)
    (hi : k'.e.index = k.e.index)
    (hp : ((allNodes k').map Entry.index).Perm (idx :: (allNodes k).map Entry.index)) :
    ((allNodesL (repl p k' kids)).map Entry.index).Perm (idx :: (allNodesL kids).map Entry.index) := by
  induction kids with
  | nil => simp [kid] at h
  | cons a r ih =>
    by_cases ha : (a.e.name == p) = true
    · rw [kid_pos ha] at h
      cases h
      rw [repl, if_pos ha, allNodesL, allNodesL]
      simp only [List.map_append, List.map_cons, List.map_nil, hi]
      exact (List.Perm.append_right _ (List.Perm.append_right _ hp))
    · rw [kid_neg ha] at h
      rw [repl, if_neg ha, allNodesL, allNodesL]
      simp only [List.map_append, List.map_cons, List.map_nil]
      exact (List.Perm.append_left _ (ih h)).trans List.perm_middle

theorem allNodesL_map (kids kids' : List Node) (h : kids.map (fun k => (k.e.index, k.kids)) = kids'.map (fun k => (k.e.index, k.kids))) :
    (allNodesL kids).map Entry.index = (allNodesL kids').map Entry.index := by
  induction kids generalizing kids' with
  | nil => cases kids' with | nil => rfl | cons => simp at h
  | cons a r ih =>
    cases kids' with
    | nil => simp at h
    | cons b s =>
      obtain ⟨ae, ak⟩ := a
      obtain ⟨be, bk⟩ := b
      simp only [List.map_cons, List.cons.injEq, Prod.mk.injEq, mk_e, mk_kids] at h
      obtain ⟨⟨h1, h2⟩, h3⟩ := h
      rw [allNodesL, allNodesL, allNodes, allNodes]
      simp only [List.map_append, List.map_cons, List.map_nil, mk_e, ih s h3, h1, h2]

theorem indexes_add {idx : Nat} {t : UInt8} {sz : Nat} {d : Option (List Bytes)} {p : Path} {n n' : Node}
    (h : addWith idx (setup t sz d) p n = .ok n') :
    ((allNodes n').map Entry.index).Perm (idx :: (allNodes n).map Entry.index) := by
  induction p generalizing n n' with
  | nil => rw [addWith] at h; split at h <;> cases h
  | cons a r ih =>
    rcases addWith_cases h with ⟨a', r', k, k', hp, hr, hk, hadd, rfl⟩ | ⟨a', hp, hk, ht, rfl⟩
    · cases hp
      obtain ⟨c, hc⟩ := addWith_head hadd
      obtain ⟨e, kids⟩ := n
      rw [allNodes, allNodes]
      exact allNodesL_repl hk (by rw [hc]) (ih hadd)
    · cases hp
      obtain ⟨e, kids⟩ := n
      rw [allNodes, allNodes, mk_kids, allNodesL_append]
      have h1 : (allNodesL (relink kids idx)).map Entry.index = (allNodesL kids).map Entry.index :=
        allNodesL_map _ _ (map_relink (fun k => (k.e.index, k.kids)) (fun _ _ _ => rfl) kids idx)
      rw [List.map_append, h1]
      have h2 : (allNodesL [Node.mk (setup t sz d (freshEntry idx a (newPrev kids))) []]).map Entry.index = [idx] := by
        simp [allNodesL, allNodes, mk_e, setup, freshEntry]
      rw [h2]
      exact List.perm_append_singleton _ _

theorem mem_allNodesL {e : Entry} {kids : List Node} :
    e ∈ allNodesL kids ↔ ∃ k ∈ kids, e ∈ allNodes k ∨ e = k.e := by
  induction kids with
  | nil => simp [allNodesL]
  | cons a r ih => simp [allNodesL, ih, or_assoc]

theorem mem_of_nodeAt {q : Path} {n m : Node} (h : nodeAt q n = some m) (hq : q ≠ []) : m.e ∈ allNodes n := by
  induction q generalizing n with
  | nil => exact absurd rfl hq
  | cons a r ih =>
    rw [nodeAt] at h
    cases hk : kid a n.kids with
    | none => rw [hk] at h; cases h
    | some k =>
      rw [hk, Option.bind_some] at h
      obtain ⟨e, kids⟩ := n
      rw [allNodes, mem_allNodesL]
      refine ⟨k, List.mem_of_find?_eq_some hk, ?_⟩
      cases r with
      | nil => cases h; exact Or.inr rfl
      | cons b s => exact Or.inl (ih h (by simp))

/-- The names in every directory are different. -/
def Uniq (n : Node) : Prop := ∀ q m, nodeAt q n = some m → (m.kids.map fun k => k.e.name).Nodup

theorem kid_of_mem {kids : List Node} {k : Node} (h : (kids.map fun k => k.e.name).Nodup) (hk : k ∈ kids) :
    kid k.e.name kids = some k := by
  induction kids with
  | nil => cases hk
  | cons a r ih =>
    rw [List.map_cons, List.nodup_cons] at h
    rcases List.mem_cons.mp hk with rfl | hr
    · exact kid_pos (by simp)
    · rw [kid_neg]
      · exact ih h.2 hr
      · intro he
        have he' : a.e.name = k.e.name := by simpa using he
        exact h.1 (he' ▸ List.mem_map_of_mem (f := fun k : Node => k.e.name) hr)

theorem nodeAt_of_mem (s : Nat) {n : Node} (hs : sizeOf n ≤ s) (hu : Uniq n) {e : Entry} (h : e ∈ allNodes n) :
    ∃ q m, q ≠ [] ∧ nodeAt q n = some m ∧ m.e = e := by
  induction s generalizing n with
  | zero =>
    exfalso
    obtain ⟨e, kids⟩ := n
    have : sizeOf (Node.mk e kids) = 1 + sizeOf e + sizeOf kids := by simp
    omega
  | succ s ih =>
    obtain ⟨e', kids⟩ := n
    rw [allNodes, mem_allNodesL] at h
    obtain ⟨k, hk, hor⟩ := h
    have hkid : kid k.e.name kids = some k := kid_of_mem (hu [] _ rfl) hk
    rcases hor with hin | rfl
    · have hlt : sizeOf k < sizeOf kids := List.sizeOf_lt_of_mem hk
      have hsz : sizeOf (Node.mk e' kids) = 1 + sizeOf e' + sizeOf kids := by simp
      have huk : Uniq k := fun q m hm => hu (k.e.name :: q) m (by rw [nodeAt, mk_kids, hkid]; exact hm)
      obtain ⟨q, m, _, h2, h3⟩ := ih (by omega) huk hin
      exact ⟨k.e.name :: q, m, by simp, by rw [nodeAt, mk_kids, hkid]; exact h2, h3⟩
    · exact ⟨[k.e.name], k, by simp, by rw [nodeAt, mk_kids, hkid]; rfl, rfl⟩

end Xls.Dir
