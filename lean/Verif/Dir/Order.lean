import Verif.Dir.Inv
/-
Helper lemmas: the array of entries and the links between them.
-/
namespace Xls.Dir
open Xls.Ole

theorem children_nodup {t : Table} (h : (t.map Prod.fst).Nodup) (q : Path) : ((t.children q).map Prod.snd).Nodup := by
  have hz : t.zipIdx.Pairwise (fun x y => x.1.1 ≠ y.1.1) := by
    have : (t.zipIdx.map (fun x => x.1.1)).Nodup := by
      have he : t.zipIdx.map (fun x => x.1.1) = (t.zipIdx.map Prod.fst).map Prod.fst := by rw [List.map_map]; rfl
      rw [he, List.zipIdx_map_fst]; exact h
    exact List.pairwise_map.mp this
  rw [List.Nodup, List.pairwise_map, Table.children, List.pairwise_filterMap]
  refine hz.imp ?_
  rintro ⟨⟨p1, w1⟩, j1⟩ ⟨⟨p2, w2⟩, j2⟩ hne b1 hb1 b2 hb2 he
  simp only at hne hb1 hb2
  cases h1 : p1.getLast? with
  | none => rw [h1] at hb1; cases hb1
  | some n1 =>
    cases h2 : p2.getLast? with
    | none => rw [h2] at hb2; cases hb2
    | some n2 =>
      rw [h1] at hb1
      rw [h2] at hb2
      by_cases d1 : p1.dropLast = q
      · by_cases d2 : p2.dropLast = q
        · simp only [if_pos d1, Option.some.injEq] at hb1
          simp only [if_pos d2, Option.some.injEq] at hb2
          subst hb1
          subst hb2
          simp only at he
          obtain ⟨a1, rfl⟩ := List.getLast?_eq_some_iff.mp h1
          obtain ⟨a2, rfl⟩ := List.getLast?_eq_some_iff.mp h2
          rw [List.dropLast_concat] at d1 d2
          exact hne (by rw [d1, d2, he])
        · simp [d2] at hb2
      · simp [d1] at hb1

theorem Inv.uniq {fs : Fs} {t : Table} (I : Inv fs t) : Uniq fs.root := by
  intro q m hm
  have hn : names m = t.children q := by
    by_cases hq : q = []
    · subst hq
      cases hm
      exact I.rootK
    · by_cases hin : q ∈ t.map Prod.fst
      · obtain ⟨⟨q', w⟩, hx, rfl⟩ := List.mem_map.mp hin
        obtain ⟨j, hj⟩ := List.getElem?_of_mem hx
        obtain ⟨_, m', h1, _, h3⟩ := I.here j q' w hj
        rw [hm] at h1
        cases h1
        exact h3
      · rw [I.gone q hq hin] at hm; cases hm
  have := children_nodup I.nodup q
  rw [← hn, names, List.map_map] at this
  exact this

theorem Inv.sorted {fs : Fs} {t : Table} (I : Inv fs t) :
    (getAllNodes fs).map Entry.index = List.range' 1 t.length := by
  have hp : ((getAllNodes fs).map Entry.index).Perm (List.range' 1 t.length) :=
    ((List.mergeSort_perm _ _).map _).trans I.indexes
  refine List.Perm.eq_of_pairwise (le := fun a b => a ≤ b) ?_ ?_ ?_ hp
  · intro a b _ _ h1 h2; omega
  · rw [List.pairwise_map]
    have := List.pairwise_mergeSort (le := fun a b : Entry => decide (a.index ≤ b.index))
      (by intro a b c h1 h2; simp at *; omega) (by intro a b; simp; omega) (allNodes fs.root)
    exact this.imp (fun h => by simpa using h)
  · exact (List.pairwise_lt_range' (step := 1)).imp (fun h => by omega)

/-- The directory array: the root and all other entries. -/
def entries (fs : Fs) : List Entry := fs.root.e :: getAllNodes fs

theorem mem_getAllNodes {fs : Fs} {e : Entry} : e ∈ getAllNodes fs ↔ e ∈ allNodes fs.root :=
  (List.mergeSort_perm _ _).mem_iff

theorem Inv.length {fs : Fs} {t : Table} (I : Inv fs t) : (getAllNodes fs).length = t.length := by
  have := congrArg List.length I.sorted
  simpa using this

/-- Every entry stands at its number. -/
theorem Inv.at {fs : Fs} {t : Table} (I : Inv fs t) {e : Entry} (h : e ∈ getAllNodes fs) :
    (entries fs)[e.index]? = some e := by
  obtain ⟨j, hj⟩ := List.getElem?_of_mem h
  have h1 : ((getAllNodes fs).map Entry.index)[j]? = some e.index := by rw [List.getElem?_map, hj]; rfl
  rw [I.sorted] at h1
  obtain ⟨hlt, he⟩ := List.getElem?_eq_some_iff.mp h1
  rw [List.getElem_range'] at he
  have : e.index = j + 1 := by omega
  rw [this, entries, List.getElem?_cons_succ]
  exact hj

theorem Inv.at_node {fs : Fs} {t : Table} (I : Inv fs t) {q : Path} {m : Node} (h : nodeAt q fs.root = some m) :
    (entries fs)[m.e.index]? = some m.e := by
  by_cases hq : q = []
  · subst hq
    cases h
    have := I.rootE
    simp only [core, Prod.mk.injEq] at this
    rw [this.1]
    rfl
  · exact I.at (mem_getAllNodes.mpr (mem_of_nodeAt h hq))

/-- The entries are those of the table, in its order. -/
theorem Inv.entry {fs : Fs} {t : Table} (I : Inv fs t) {j : Nat} {q : Path} {w : What} (h : t[j]? = some (q, w)) :
    ∃ m, nodeAt q fs.root = some m ∧ (getAllNodes fs)[j]? = some m.e ∧ Describes m.e (j + 1) q w ∧
      names m = t.children q := by
  obtain ⟨hq, m, h1, h2, h3⟩ := I.here j q w h
  refine ⟨m, h1, ?_, h2, h3⟩
  have := I.at_node h1
  rw [h2.number, entries, List.getElem?_cons_succ] at this
  exact this

theorem kid_node {fs : Fs} {t : Table} (I : Inv fs t) {q : Path} {m k : Node} (h : nodeAt q fs.root = some m)
    (hk : k ∈ m.kids) : nodeAt (q ++ [k.e.name]) fs.root = some k := by
  have hkid := kid_of_mem (I.uniq q m h) hk
  have happ : ∀ (q : Path) (n : Node) (r : Path), nodeAt (q ++ r) n = (nodeAt q n).bind (nodeAt r) := by
    intro q
    induction q with
    | nil => intro n r; rfl
    | cons a s ih =>
      intro n r
      rw [List.cons_append, nodeAt, nodeAt]
      cases kid a n.kids with
      | none => rfl
      | some x => exact ih x r
  rw [happ, h, Option.bind_some, nodeAt, hkid]
  rfl

/-- Following the links of a directory gives its children in order. -/
theorem walk_links {es : List Entry} {kids : List Node} (hg : Good (links kids))
    (hat : ∀ k ∈ kids, es[k.e.index]? = some k.e) :
    Walk es (if kids.length < 2 then idxAt (links kids) 0 else idxAt (links kids) 1) (kids.map fun k => k.e.index) := by
  have hget : ∀ (j : Nat) (k : Node), kids[j]? = some k → (links kids)[j]? = some (k.e.index, k.e.prev, k.e.next) := by
    intro j k h; rw [links, List.getElem?_map, h]; rfl
  have hidx : ∀ (j : Nat) (k : Node), kids[j]? = some k → idxAt (links kids) j = k.e.index := by
    intro j k h; rw [idxAt, hget j k h]
  have hend : ∀ j, kids.length ≤ j → idxAt (links kids) j = -1 := by
    intro j h
    rw [idxAt, List.getElem?_eq_none (by rw [links_length]; exact h)]
  have htail : ∀ n j, n = kids.length - j → 2 ≤ j →
      Walk es (idxAt (links kids) j) ((kids.drop j).map fun k => k.e.index) := by
    intro n
    induction n with
    | zero =>
      intro j hj _
      rw [hend j (by omega), List.drop_eq_nil_of_le (by omega)]
      exact Walk.empty
    | succ n ih =>
      intro j hj h2
      have hlt : j < kids.length := by omega
      have hk : kids[j]? = some kids[j] := List.getElem?_eq_getElem hlt
      rw [hidx j _ hk, List.drop_eq_getElem_cons hlt, List.map_cons]
      obtain ⟨g1, g2⟩ := hg j _ (hget j _ hk)
      simp only at g1 g2
      rw [if_neg (by omega)] at g1
      rw [if_pos (by omega)] at g2
      have := @Walk.node es kids[j].e.index kids[j].e [] ((kids.drop (j + 1)).map fun k => k.e.index)
        (hat _ (List.getElem_mem hlt)) (by rw [g1]; exact Walk.empty)
        (by rw [g2]; exact ih (j + 1) (by omega) (by omega))
      exact this
  rcases kids with _ | ⟨k, _ | ⟨l, r⟩⟩
  · exact Walk.empty
  · obtain ⟨g1, g2⟩ := hg 0 _ (hget 0 k rfl)
    simp only at g1 g2
    have hi := hidx 0 k rfl
    show Walk es (idxAt (links [k]) 0) [k.e.index]
    rw [hi]
    have := @Walk.node es k.e.index k.e [] [] (hat k (by simp)) (by rw [g1]; exact Walk.empty)
      (by rw [g2]; exact Walk.empty)
    exact this
  · obtain ⟨g1, g2⟩ := hg 0 _ (hget 0 k rfl)
    obtain ⟨g3, g4⟩ := hg 1 _ (hget 1 l rfl)
    simp only at g1 g2 g3 g4
    rw [if_neg (by simp)]
    rw [hidx 1 l rfl]
    rw [if_neg (by decide)] at g1
    rw [if_neg (by decide)] at g2
    rw [if_pos trivial] at g3
    rw [if_pos (Nat.le_refl 1)] at g4
    have h0 := @Walk.node es k.e.index k.e [] [] (hat k (by simp)) (by rw [g1]; exact Walk.empty)
      (by rw [g2]; exact Walk.empty)
    have := @Walk.node es l.e.index l.e [k.e.index] (r.map fun k => k.e.index) (hat l (by simp))
      (by rw [g3, hidx 0 k rfl]; exact h0)
      (by rw [g4]; exact htail _ 2 rfl (by omega))
    exact this

theorem Inv.walk {fs : Fs} {t : Table} (I : Inv fs t) {q : Path} {m : Node} (h : nodeAt q fs.root = some m)
    (hn : names m = t.children q) : Walk (entries fs) m.e.child ((t.children q).map Prod.fst) := by
  obtain ⟨h1, h2⟩ := I.links q m h
  have := walk_links (es := entries fs) h2 (fun k hk => I.at_node (kid_node I h hk))
  rw [h1]
  rw [← hn, names, List.map_map]
  exact this

/-- The look-up finds a node that exists. -/
theorem searchNode_eq {q : Path} {n m : Node} (h : nodeAt q n = some m) (hq : q ≠ []) : searchNode q n = some m := by
  induction q generalizing n with
  | nil => exact absurd rfl hq
  | cons a r ih =>
    rw [nodeAt] at h
    cases hk : kid a n.kids with
    | none => rw [hk] at h; cases h
    | some k =>
      rw [hk, Option.bind_some] at h
      obtain ⟨e, kids⟩ := n
      have hf : (a :: r).findSome? (fun nm => kids.find? (fun k => k.e.name == nm)) = some k := by
        rw [List.findSome?_cons]
        have : kids.find? (fun k => k.e.name == a) = some k := hk
        rw [this]
      rw [searchNode, hf]
      cases r with
      | nil => exact h
      | cons b s => exact ih h (by simp)

theorem searchNode_one {a : Bytes} {n : Node} (h : nodeAt [a] n = none) : searchNode [a] n = none := by
  obtain ⟨e, kids⟩ := n
  rw [nodeAt, mk_kids] at h
  have hk : kid a kids = none := by
    cases hk : kid a kids with
    | none => rfl
    | some k => rw [hk] at h; cases h
  have : kids.find? (fun k => k.e.name == a) = none := hk
  simp [searchNode, this]

end Xls.Dir
