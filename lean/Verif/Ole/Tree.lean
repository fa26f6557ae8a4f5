import Verif.Ole.Read2
/-
Helper lemmas: the directory tree after adding streams to the root storage.
-/
namespace Xls.Ole
open Xls.Cfb

/-- A stream to be added: its path and its data units. -/
structure File where
  path : Bytes
  units : List Bytes

/-- Adding streams one after the other, stopping at the first error. -/
def addFiles : Fs → List File → FsRes
  | fs, [] => .ok fs
  | fs, f :: r =>
    match addFile fs f.path f.units with
    | .ok fs' => addFiles fs' r
    | e => e

theorem addFiles_append (fs fs' : Fs) (l r : List File) (h : addFiles fs l = .ok fs') :
    addFiles fs (l ++ r) = addFiles fs' r := by
  induction l generalizing fs with
  | nil =>
    simp only [addFiles, FsRes.ok.injEq] at h
    simp [h]
  | cons f l ih =>
    simp only [addFiles, List.cons_append] at h ⊢
    cases hf : addFile fs f.path f.units with
    | ub => simp [hf] at h
    | err c => simp [hf] at h
    | ok g => simp only [hf] at h; exact ih g h

/-- The entry of the `i`-th stream (counting from 1) of `n`. -/
def ent (n i : Nat) (name : Bytes) (units : List Bytes) : Entry :=
  { index := i, name := name, typ := 2
    prev := if i = 2 then 1 else -1
    next := if 2 ≤ i ∧ i < n then ((i + 1 : Nat) : Int) else -1
    child := -1, start := 0, size := nodeSize (dataSize units), data := some (padUnits units) }

/-- The entries of streams `i`, `i+1`, … of `n`. -/
def entsFrom (n : Nat) : Nat → List (Bytes × List Bytes) → List Entry
  | _, [] => []
  | i, f :: r => ent n i f.1 f.2 :: entsFrom n (i + 1) r

/-- The root entry with `n` streams. -/
def rootEnt (n : Nat) : Entry :=
  { Fs.init.root.e with child := if n = 0 then -1 else if n = 1 then 1 else 2 }

def leaf (e : Entry) : Node := .mk e []

/-- The file system after adding these streams to the root. -/
def flatFs (fl : List (Bytes × List Bytes)) : Fs :=
  { root := .mk (rootEnt fl.length) ((entsFrom fl.length 1 fl).map leaf), count := fl.length }

theorem entsFrom_append (n i : Nat) (a b : List (Bytes × List Bytes)) :
    entsFrom n i (a ++ b) = entsFrom n i a ++ entsFrom n (i + a.length) b := by
  induction a generalizing i with
  | nil => simp [entsFrom]
  | cons x r ih => simp [entsFrom, ih, Nat.add_assoc, Nat.add_comm 1]

theorem entsFrom_length (n i : Nat) (a : List (Bytes × List Bytes)) :
    (entsFrom n i a).length = a.length := by
  induction a generalizing i with
  | nil => rfl
  | cons x r ih => simp [entsFrom, ih]

theorem entsFrom_names (n i : Nat) (a : List (Bytes × List Bytes)) :
    (entsFrom n i a).map Entry.name = a.map Prod.fst := by
  induction a generalizing i with
  | nil => rfl
  | cons x r ih => simp [entsFrom, ih, ent]

theorem entsFrom_congr (n m i : Nat) (a : List (Bytes × List Bytes)) (h : i + a.length ≤ n) (hm : n ≤ m) :
    entsFrom n i a = entsFrom m i a := by
  induction a generalizing i with
  | nil => rfl
  | cons x r ih =>
    simp only [entsFrom, List.length_cons] at h ⊢
    rw [ih (i + 1) (by omega)]
    congr 1
    simp only [ent]
    by_cases h2 : 2 ≤ i
    · have h3 : i < n := by omega
      have h4 : i < m := by omega
      simp [h2, h3, h4]
    · simp [h2]

theorem findIdx?_leaf_none (es : List Entry) (nm : Bytes) (h : nm ∉ es.map Entry.name) :
    (es.map leaf).findIdx? (fun k => k.e.name == nm) = none := by
  rw [List.findIdx?_eq_none_iff]
  intro x hx
  obtain ⟨e, he, rfl⟩ := List.mem_map.mp hx
  show (e.name == nm) = false
  rw [beq_eq_false_iff_ne]
  rintro rfl
  exact h (List.mem_map_of_mem he)

/-- One more stream with a new name. -/
theorem addFile_flat (fl : List (Bytes × List Bytes)) (path nm : Bytes) (us : List Bytes)
    (hp : stringtok path = [nm]) (hnew : nm ∉ fl.map Prod.fst) :
    addFile (flatFs fl) path us = .ok (flatFs (fl ++ [(nm, us)])) := by
  have hno := findIdx?_leaf_none (entsFrom fl.length 1 fl) nm (by rwa [entsFrom_names])
  have hadd : addNode (fl.length + 1) [nm] (flatFs fl).root =
      .ok (linkNew (rootEnt fl.length) ((entsFrom fl.length 1 fl).map leaf) (fl.length + 1) nm) := by
    simp only [flatFs, addNode, hno, List.isEmpty_nil, if_true]
    exact if_pos (Or.inr rfl)
  -- the new list of children, with the new node not yet filled in
  let fresh (p : Int) : Entry := freshEntry (fl.length + 1) nm p
  have hlink : linkNew (rootEnt fl.length) ((entsFrom fl.length 1 fl).map leaf) (fl.length + 1) nm =
      .mk (rootEnt (fl.length + 1)) ((entsFrom (fl.length + 1) 1 fl).map leaf ++
        [leaf (fresh (if fl.length + 1 = 2 then 1 else -1))]) := by
    obtain hfl | ⟨fl', l, hfl⟩ := List.eq_nil_or_concat fl
    · subst hfl; rfl
    · rw [List.concat_eq_append] at hfl
      subst hfl
      cases fl' with
      | nil => rfl
      | cons x r =>
        have hlen : (x :: r ++ [l]).length = r.length + 2 := by simp
        have hge : ∃ k1 k2 ks, (entsFrom (x :: r ++ [l]).length 1 (x :: r ++ [l])).map leaf =
            k1 :: k2 :: ks := by
          cases r with
          | nil => exact ⟨_, _, _, rfl⟩
          | cons y r => exact ⟨_, _, _, rfl⟩
        obtain ⟨k1, k2, ks, hk⟩ := hge
        have hl : linkNew (rootEnt (x :: r ++ [l]).length)
            ((entsFrom (x :: r ++ [l]).length 1 (x :: r ++ [l])).map leaf)
            ((x :: r ++ [l]).length + 1) nm = .mk (rootEnt (x :: r ++ [l]).length)
            (setLastNext ((entsFrom (x :: r ++ [l]).length 1 (x :: r ++ [l])).map leaf)
              ((x :: r ++ [l]).length + 1) ++ [.mk (freshEntry ((x :: r ++ [l]).length + 1) nm (-1)) []]) := by
          rw [hk]; rfl
        rw [hl]
        have hset : setLastNext ((entsFrom (x :: r ++ [l]).length 1 (x :: r ++ [l])).map leaf)
              ((x :: r ++ [l]).length + 1) =
            (entsFrom ((x :: r ++ [l]).length + 1) 1 (x :: r ++ [l])).map leaf := by
          rw [entsFrom_append, entsFrom_append, hlen]
          rw [entsFrom_congr (r.length + 2) (r.length + 2 + 1) 1 (x :: r) (by simp; omega) (by omega)]
          simp only [entsFrom, List.map_append, List.map_cons, List.map_nil, setLastNext,
            List.reverse_append, List.reverse_cons, List.reverse_nil, List.nil_append, leaf,
            List.singleton_append, List.reverse_reverse, List.length_cons]
          congr 3
          simp only [ent]
          rw [if_pos (c := 2 ≤ 1 + (r.length + 1) ∧ 1 + (r.length + 1) < r.length + 2 + 1) (by omega)]
          simp; omega
        rw [hset]
        have hr : rootEnt (x :: r ++ [l]).length = rootEnt ((x :: r ++ [l]).length + 1) := by
          rw [hlen]; simp [rootEnt]
        have hf : fresh (if (x :: r ++ [l]).length + 1 = 2 then 1 else -1) =
            freshEntry ((x :: r ++ [l]).length + 1) nm (-1) := by
          simp only [fresh]
          rw [if_neg (by rw [hlen]; omega)]
        rw [hr, hf]; rfl
  have hupd : ∀ f : Entry → Entry, updNode f [nm]
      (.mk (rootEnt (fl.length + 1)) ((entsFrom (fl.length + 1) 1 fl).map leaf ++
        [leaf (fresh (if fl.length + 1 = 2 then 1 else -1))])) =
      .mk (rootEnt (fl.length + 1)) ((entsFrom (fl.length + 1) 1 fl).map leaf ++
        [leaf (f (fresh (if fl.length + 1 = 2 then 1 else -1)))]) := by
    intro f
    have hno' := findIdx?_leaf_none (entsFrom (fl.length + 1) 1 fl) nm (by rwa [entsFrom_names])
    have hi : ((entsFrom (fl.length + 1) 1 fl).map leaf ++
        [leaf (fresh (if fl.length + 1 = 2 then 1 else -1))]).findIdx? (fun k => k.e.name == nm) =
        some fl.length := by
      rw [List.findIdx?_append, hno']
      simp [fresh, freshEntry, leaf, Node.e, entsFrom_length]
    have hg : ((entsFrom (fl.length + 1) 1 fl).map leaf ++
        [leaf (fresh (if fl.length + 1 = 2 then 1 else -1))])[fl.length]? =
        some (leaf (fresh (if fl.length + 1 = 2 then 1 else -1))) := by
      rw [List.getElem?_append_right (by simp [entsFrom_length])]
      simp [entsFrom_length]
    simp only [updNode, hi, hg, List.isEmpty_nil, if_true]
    rw [List.set_append_right _ _ (by simp [entsFrom_length])]
    simp [entsFrom_length, leaf, Node.e, Node.kids]
  unfold addFile
  have hc : (flatFs fl).count = fl.length := rfl
  rw [hp, hc, hadd]
  simp only [hlink, hupd]
  simp only [flatFs, entsFrom_append, List.length_append, List.length_cons, List.length_nil,
    List.map_append, Nat.zero_add, entsFrom, List.map_cons, List.map_nil]
  congr 5
  simp only [fresh, freshEntry, ent]
  rw [if_neg (c := 2 ≤ 1 + fl.length ∧ _) (by omega), Nat.add_comm 1 fl.length]

/-- The names and data of a list of files whose paths denote root entries. -/
def named (l : List File) (names : List Bytes) : List (Bytes × List Bytes) :=
  names.zip (l.map File.units)

theorem addFiles_flat (l : List File) (names : List Bytes) (fl : List (Bytes × List Bytes))
    (hp : l.map (fun f => stringtok f.path) = names.map (fun n => [n]))
    (hnd : (fl.map Prod.fst ++ names).Nodup) :
    addFiles (flatFs fl) l = .ok (flatFs (fl ++ named l names)) := by
  induction l generalizing names fl with
  | nil => simp [addFiles, named]
  | cons f r ih =>
    cases names with
    | nil => simp at hp
    | cons nm ns =>
      simp only [List.map_cons, List.cons.injEq] at hp
      have h1 := addFile_flat fl f.path nm f.units hp.1 (by
        intro hm
        have := List.nodup_append.mp hnd
        exact this.2.2 nm hm nm (by simp) rfl)
      simp only [addFiles, h1]
      rw [ih ns (fl ++ [(nm, f.units)]) hp.2 (by simpa using hnd)]
      simp [named]

theorem init_flat : Fs.init = flatFs [] := rfl

theorem allNodesL_leaf (es : List Entry) : allNodesL (es.map leaf) = es := by
  induction es with
  | nil => rfl
  | cons e r ih => simp [allNodesL, leaf, allNodes, Node.e] at ih ⊢; exact ih

theorem entsFrom_sorted (n i : Nat) (a : List (Bytes × List Bytes)) :
    (entsFrom n i a).Pairwise (fun x y => decide (x.index ≤ y.index)) ∧
      ∀ e ∈ entsFrom n i a, i ≤ e.index := by
  induction a generalizing i with
  | nil => simp [entsFrom]
  | cons x r ih =>
    obtain ⟨h1, h2⟩ := ih (i + 1)
    refine ⟨List.pairwise_cons.mpr ⟨?_, h1⟩, ?_⟩
    · intro e he
      have := h2 e he
      simp [ent]; omega
    · intro e he
      rcases List.mem_cons.mp he with rfl | he
      · simp [ent]
      · have := h2 e he; omega

theorem getAllNodes_flat (fl : List (Bytes × List Bytes)) :
    getAllNodes (flatFs fl) = entsFrom fl.length 1 fl := by
  simp only [getAllNodes, flatFs, allNodes, allNodesL_leaf]
  exact List.mergeSort_of_pairwise (entsFrom_sorted _ _ _).1

theorem trail_node (n : Nat) : n + trailSize n = nodeSize n := by
  unfold trailSize nodeSize
  simp only
  split <;> split <;> omega

theorem dataSize_pad (us : List Bytes) : dataSize (padUnits us) = nodeSize (dataSize us) := by
  rw [← trail_node]
  simp [padUnits, dataSize]

theorem nodeSize_facts (n : Nat) : nodeSize n % 512 = 0 ∧ 0x1000 ≤ nodeSize n ∧ n ≤ nodeSize n ∧
    nodeSize n ≤ n + 0x1000 ∧ (∀ m, n ≤ m → m % 512 = 0 → 0x1000 ≤ m → nodeSize n ≤ m) := by
  unfold nodeSize
  simp only
  split <;> split <;> refine ⟨by omega, by omega, by omega, by omega, fun m _ _ _ => by omega⟩

theorem ent_good (n i : Nat) (nm : Bytes) (us : List Bytes) : GoodNode (ent n i nm us) := by
  obtain ⟨h1, h2, _⟩ := nodeSize_facts (dataSize us)
  exact ⟨rfl, padUnits us, rfl, by rw [dataSize_pad]; exact h1, by rw [dataSize_pad]; exact h2,
    by rw [dataSize_pad]; rfl⟩

theorem entsFrom_good (n i : Nat) (a : List (Bytes × List Bytes)) :
    ∀ e ∈ entsFrom n i a, GoodNode e := by
  induction a generalizing i with
  | nil => simp [entsFrom]
  | cons x r ih =>
    intro e he
    rcases List.mem_cons.mp he with rfl | he
    · exact ent_good _ _ _ _
    · exact ih _ e he

end Xls.Ole
