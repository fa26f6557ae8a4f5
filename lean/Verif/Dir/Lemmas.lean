import Verif.Dir.Spec
/-
Helper lemmas: what one call does to the tree, seen through the look-up by path.
-/
namespace Xls.Dir
open Xls.Ole

theorem mk_e (e : Entry) (k : List Node) : (Node.mk e k).e = e := rfl
theorem mk_kids (e : Entry) (k : List Node) : (Node.mk e k).kids = k := rfl

/-- The first child with a name. -/
def kid (p : Bytes) (kids : List Node) : Option Node := kids.find? (fun k => k.e.name == p)

/-- The node at a path. -/
def nodeAt : Path → Node → Option Node
  | [], n => some n
  | p :: r, n => (kid p n.kids).bind (nodeAt r)

/-- The first child with a name, replaced. -/
def repl (p : Bytes) (k' : Node) : List Node → List Node
  | [] => []
  | k :: r => if k.e.name == p then k' :: r else k :: repl p k' r

theorem kid_pos {p : Bytes} {a : Node} {r : List Node} (h : (a.e.name == p) = true) : kid p (a :: r) = some a := by
  rw [kid, List.find?_cons, h]

theorem kid_neg {p : Bytes} {a : Node} {r : List Node} (h : ¬ (a.e.name == p) = true) : kid p (a :: r) = kid p r := by
  rw [kid, List.find?_cons, Bool.eq_false_iff.mpr h]; rfl

theorem kid_name {p : Bytes} {kids : List Node} {k : Node} (h : kid p kids = some k) : k.e.name = p := by
  have := List.find?_some h
  simpa using this

theorem findIdx_none {p : Bytes} {kids : List Node} :
    kids.findIdx? (fun k => k.e.name == p) = none ↔ kid p kids = none := by
  simp [kid, List.findIdx?_eq_none_iff, List.find?_eq_none]

theorem findIdx_some {p : Bytes} {kids : List Node} {i : Nat}
    (h : kids.findIdx? (fun k => k.e.name == p) = some i) :
    ∃ k, kids[i]? = some k ∧ kid p kids = some k ∧ ∀ k', kids.set i k' = repl p k' kids := by
  induction kids generalizing i with
  | nil => simp at h
  | cons a r ih =>
    rw [List.findIdx?_cons] at h
    by_cases ha : (a.e.name == p) = true
    · rw [if_pos ha] at h
      cases h
      exact ⟨a, rfl, by simp [kid, ha], fun k' => by simp [repl, ha]⟩
    · rw [if_neg ha] at h
      cases hr : r.findIdx? (fun k => k.e.name == p) with
      | none => simp [hr] at h
      | some j =>
        simp only [hr, Option.map_some, Option.some.injEq] at h
        subst h
        obtain ⟨k, h1, h2, h3⟩ := ih hr
        refine ⟨k, by simpa using h1, ?_, fun k' => ?_⟩
        · rw [kid_neg ha]; exact h2
        · rw [List.set_cons_succ, h3 k', repl, if_neg ha]

theorem addNode_nil (idx : Nat) (n : Node) : addNode idx [] n = if n.kids.isEmpty then .err (-2) else .ub := by
  cases n; rfl

theorem addNode_cons (idx : Nat) (p : Bytes) (r : Path) (n : Node) :
    addNode idx (p :: r) n =
      match kid p n.kids with
      | some k => match addNode idx r k with | .ok k' => .ok (.mk n.e (repl p k' n.kids)) | x => x
      | none => if r.isEmpty then if n.e.typ = 1 ∨ n.e.typ = 5 then .ok (linkNew n.e n.kids idx p) else .err (-3)
          else .err (-1) := by
  obtain ⟨e, kids⟩ := n
  rw [addNode]
  simp only [mk_e, mk_kids]
  cases h : kids.findIdx? (fun k => k.e.name == p) with
  | none => rw [findIdx_none.mp h]; rfl
  | some i =>
    obtain ⟨k, h1, h2, h3⟩ := findIdx_some h
    rw [h2]
    simp only [h1]
    cases addNode idx r k with
    | ub => rfl
    | err c => rfl
    | ok k' => simp [h3]

theorem updNode_cons (f : Entry → Entry) (p : Bytes) (r : Path) (n : Node) :
    updNode f (p :: r) n =
      match kid p n.kids with
      | some k => if r.isEmpty then .mk n.e (repl p (.mk (f k.e) k.kids) n.kids) else .mk n.e (repl p (updNode f r k) n.kids)
      | none => n := by
  obtain ⟨e, kids⟩ := n
  rw [updNode]
  simp only [mk_e, mk_kids]
  cases h : kids.findIdx? (fun k => k.e.name == p) with
  | none => rw [findIdx_none.mp h]
  | some i =>
    obtain ⟨k, h1, h2, h3⟩ := findIdx_some h
    rw [h2]
    simp only [h1]
    simp [h3]

theorem kid_repl_self {p : Bytes} {kids : List Node} {k k' : Node} (h : kid p kids = some k) (hn : k'.e.name = p) :
    kid p (repl p k' kids) = some k' := by
  induction kids with
  | nil => simp [kid] at h
  | cons a r ih =>
    by_cases ha : (a.e.name == p) = true
    · rw [repl, if_pos ha, kid_pos (by simpa using hn)]
    · rw [kid_neg ha] at h
      rw [repl, if_neg ha, kid_neg ha]
      exact ih h

theorem kid_repl_other {p q : Bytes} {kids : List Node} {k' : Node} (hn : k'.e.name = p) (hq : q ≠ p) :
    kid q (repl p k' kids) = kid q kids := by
  induction kids with
  | nil => rfl
  | cons a r ih =>
    by_cases ha : (a.e.name == p) = true
    · have h1 : ¬ (k'.e.name == q) = true := by rw [hn]; simpa using fun h => hq h.symm
      have h2 : ¬ (a.e.name == q) = true := by
        have : a.e.name = p := by simpa using ha
        rw [this]; simpa using fun h => hq h.symm
      rw [repl, if_pos ha, kid_neg h1, kid_neg h2]
    · rw [repl, if_neg ha]
      by_cases hb : (a.e.name == q) = true
      · rw [kid_pos hb, kid_pos hb]
      · rw [kid_neg hb, kid_neg hb]; exact ih

theorem repl_repl {p : Bytes} {k k' : Node} (kids : List Node) (hn : k.e.name = p) :
    repl p k' (repl p k kids) = repl p k' kids := by
  induction kids with
  | nil => rfl
  | cons a r ih =>
    by_cases ha : (a.e.name == p) = true
    · rw [repl, if_pos ha, repl, if_pos (by simpa using hn), repl, if_pos ha]
    · rw [repl, if_neg ha, repl, if_neg ha, ih, repl, if_neg ha]

/-- Some property of the nodes that a replacement keeps. -/
theorem map_repl {α : Type} (g : Node → α) {p : Bytes} {kids : List Node} {k k' : Node} (h : kid p kids = some k)
    (hg : g k' = g k) : (repl p k' kids).map g = kids.map g := by
  induction kids with
  | nil => rfl
  | cons a r ih =>
    by_cases ha : (a.e.name == p) = true
    · rw [kid_pos ha] at h
      cases h
      rw [repl, if_pos ha, List.map_cons, List.map_cons, hg]
    · rw [kid_neg ha] at h
      rw [repl, if_neg ha, List.map_cons, List.map_cons, ih h]

theorem kid_append {p : Bytes} {a b : List Node} : kid p (a ++ b) = (kid p a).or (kid p b) := by
  simp [kid, List.find?_append]

theorem repl_append {p : Bytes} {a b : List Node} {k' : Node} (h : kid p a = none) :
    repl p k' (a ++ b) = a ++ repl p k' b := by
  induction a with
  | nil => rfl
  | cons x r ih =>
    by_cases ha : (x.e.name == p) = true
    · rw [kid_pos ha] at h; cases h
    · rw [kid_neg ha] at h
      rw [List.cons_append, repl, if_neg ha, ih h, List.cons_append]

/-! ### A new node -/

/-- The children after linking a new node, without the node itself. -/
def relink (kids : List Node) (idx : Nat) : List Node := if kids.length < 2 then kids else setLastNext kids idx

/-- The left link of a new node. -/
def newPrev (kids : List Node) : Int := match kids with | [k] => k.e.index | _ => -1

theorem linkNew_eq (e : Entry) (kids : List Node) (idx : Nat) (nm : Bytes) :
    linkNew e kids idx nm = .mk { e with child := if kids.length < 2 then (idx : Int) else e.child }
      (relink kids idx ++ [.mk (freshEntry idx nm (newPrev kids)) []]) := by
  match kids with
  | [] => rfl
  | [k] => rfl
  | k :: l :: r =>
    rw [linkNew, relink, if_neg (by simp), if_neg (by simp), newPrev]
    all_goals intros; simp_all

theorem setLastNext_get (kids : List Node) (idx : Nat) (j : Nat) :
    (setLastNext kids idx)[j]? =
      (kids[j]?).map fun k => if j + 1 = kids.length then .mk { k.e with next := (idx : Int) } k.kids else k := by
  obtain h | ⟨a, l, h⟩ := List.eq_nil_or_concat kids
  · subst h; simp [setLastNext]
  · rw [List.concat_eq_append] at h
    subst h
    obtain ⟨e, k⟩ := l
    have : setLastNext (a ++ [.mk e k]) idx = a ++ [.mk { e with next := (idx : Int) } k] := by simp [setLastNext]
    rw [this]
    by_cases hj : j < a.length
    · rw [List.getElem?_append_left hj, List.getElem?_append_left hj]
      cases ha : a[j]? with
      | none => rfl
      | some x =>
        have : j + 1 ≠ (a ++ [Node.mk e k]).length := by simp; omega
        simp only [Option.map_some, if_neg this]
    · rw [List.getElem?_append_right (by omega), List.getElem?_append_right (by omega)]
      by_cases hj2 : j = a.length
      · subst hj2; simp [Node.e, Node.kids]
      · obtain ⟨m, hm⟩ : ∃ m, j - a.length = m + 1 := ⟨j - a.length - 1, by omega⟩
        rw [hm]; rfl

theorem setLastNext_length (kids : List Node) (idx : Nat) : (setLastNext kids idx).length = kids.length := by
  obtain h | ⟨a, l, h⟩ := List.eq_nil_or_concat kids
  · subst h; rfl
  · rw [List.concat_eq_append] at h
    subst h
    obtain ⟨e, k⟩ := l
    simp [setLastNext]

theorem relink_length (kids : List Node) (idx : Nat) : (relink kids idx).length = kids.length := by
  rw [relink]; split
  · rfl
  · exact setLastNext_length kids idx

theorem relink_get (kids : List Node) (idx : Nat) (j : Nat) :
    (relink kids idx)[j]? = (kids[j]?).map fun k =>
      if 2 ≤ kids.length ∧ j + 1 = kids.length then .mk { k.e with next := (idx : Int) } k.kids else k := by
  rw [relink]
  by_cases h : kids.length < 2
  · rw [if_pos h]
    have : ∀ k : Node, (if 2 ≤ kids.length ∧ j + 1 = kids.length then Node.mk { k.e with next := (idx : Int) } k.kids else k) = k :=
      fun k => if_neg (by omega)
    simp [this]
  · rw [if_neg h, setLastNext_get]
    congr 1
    funext k
    by_cases hj : j + 1 = kids.length
    · rw [if_pos hj, if_pos ⟨by omega, hj⟩]
    · rw [if_neg hj, if_neg (by omega)]

/-- Some property of the nodes that does not depend on the right link. -/
theorem map_relink {α : Type} (g : Node → α) (hg : ∀ e k i, g (.mk { e with next := i } k) = g (.mk e k))
    (kids : List Node) (idx : Nat) : (relink kids idx).map g = kids.map g := by
  apply List.ext_getElem?
  intro j
  rw [List.getElem?_map, List.getElem?_map, relink_get]
  cases kids[j]? with
  | none => rfl
  | some k =>
    obtain ⟨e, ks⟩ := k
    simp only [Option.map_some]
    split
    · exact congrArg some (hg e ks idx)
    · rfl

theorem kid_relink_none {p : Bytes} {kids : List Node} (idx : Nat) : kid p (relink kids idx) = none ↔ kid p kids = none := by
  have h := map_relink (fun k => k.e.name) (fun _ _ _ => rfl) kids idx
  have hm : ∀ l : List Node, kid p l = none ↔ p ∉ l.map (fun k => k.e.name) := by
    intro l
    simp only [kid, List.find?_eq_none, List.mem_map, not_exists, not_and]
    constructor
    · intro hh x hx hxp; exact hh x hx (by simpa using hxp)
    · intro hh x hx hxp; exact hh x hx (by simpa using hxp)
  rw [hm, hm, h]

/-- `addNode` and the settings made to the new node afterwards. -/
def addWith (idx : Nat) (f : Entry → Entry) : Path → Node → AddRes
  | [], n => if n.kids.isEmpty then .err (-2) else .ub
  | p :: r, n =>
    match kid p n.kids with
    | some k => match addWith idx f r k with | .ok k' => .ok (.mk n.e (repl p k' n.kids)) | x => x
    | none => if r.isEmpty then
        if n.e.typ = 1 ∨ n.e.typ = 5 then
          .ok (.mk { n.e with child := if n.kids.length < 2 then (idx : Int) else n.e.child }
            (relink n.kids idx ++ [.mk (f (freshEntry idx p (newPrev n.kids))) []]))
        else .err (-3)
      else .err (-1)

/-- What a new node keeps. -/
def Keeps (f : Entry → Entry) : Prop :=
  ∀ e, (f e).name = e.name ∧ (f e).index = e.index ∧ (f e).prev = e.prev ∧ (f e).next = e.next ∧ (f e).child = -1

theorem addNode_name {idx : Nat} {p : Path} {n n' : Node} (h : addNode idx p n = .ok n') :
    n'.e.name = n.e.name := by
  cases p with
  | nil => rw [addNode_nil] at h; split at h <;> cases h
  | cons a r =>
    rw [addNode_cons] at h
    cases hk : kid a n.kids with
    | some k =>
      simp only [hk] at h
      cases ha : addNode idx r k with
      | ok k' => simp only [ha, AddRes.ok.injEq] at h; subst h; rfl
      | ub => simp [ha] at h
      | err c => simp [ha] at h
    | none =>
      simp only [hk] at h
      split at h
      · split at h
        · cases h; rw [linkNew_eq]; rfl
        · cases h
      · cases h

theorem addNode_with (idx : Nat) (f : Entry → Entry) (p : Path) (n : Node) :
    addWith idx f p n = match addNode idx p n with | .ok n' => .ok (updNode f p n') | x => x := by
  induction p generalizing n with
  | nil =>
    rw [addNode_nil, addWith]
    split
    · rfl
    · rfl
  | cons a r ih =>
    rw [addNode_cons, addWith]
    cases hk : kid a n.kids with
    | some k =>
      simp only []
      rw [ih k]
      cases ha : addNode idx r k with
      | ub => rfl
      | err c => rfl
      | ok k' =>
        simp only [AddRes.ok.injEq]
        have hn : k'.e.name = a := by rw [addNode_name ha]; exact kid_name hk
        rw [updNode_cons]
        show _ = match kid a (repl a k' n.kids) with
          | some k => if r.isEmpty then Node.mk n.e (repl a (.mk (f k.e) k.kids) (repl a k' n.kids))
              else .mk n.e (repl a (updNode f r k) (repl a k' n.kids))
          | none => _
        rw [kid_repl_self hk hn]
        simp only [repl_repl _ hn]
        cases r with
        | nil => rw [addNode_nil] at ha; split at ha <;> cases ha
        | cons b s => rfl
    | none =>
      simp only []
      cases r with
      | cons b s => rfl
      | nil =>
        simp only [List.isEmpty_nil, if_true]
        by_cases ht : n.e.typ = 1 ∨ n.e.typ = 5
        · rw [if_pos ht, if_pos ht, linkNew_eq]
          simp only [AddRes.ok.injEq]
          rw [updNode_cons]
          have h0 := (kid_relink_none (p := a) (kids := n.kids) idx).mpr hk
          have h1 : kid a [Node.mk (freshEntry idx a (newPrev n.kids)) []] = some (.mk (freshEntry idx a (newPrev n.kids)) []) := by
            simp [kid, Node.e, freshEntry]
          have h2 : kid a (relink n.kids idx ++ [Node.mk (freshEntry idx a (newPrev n.kids)) []]) =
              some (.mk (freshEntry idx a (newPrev n.kids)) []) := by
            rw [kid_append, h0, h1]; rfl
          show _ = match kid a (relink n.kids idx ++ [Node.mk (freshEntry idx a (newPrev n.kids)) []]) with
            | some k => if ([] : Path).isEmpty then Node.mk _ (repl a (.mk (f k.e) k.kids) (relink n.kids idx ++ [Node.mk (freshEntry idx a (newPrev n.kids)) []]))
                else .mk _ (repl a (updNode f [] k) _)
            | none => _
          rw [h2]
          simp only [List.isEmpty_nil, if_true]
          rw [repl_append h0]
          simp [repl, Node.e, Node.kids, freshEntry]
        · rw [if_neg ht, if_neg ht]

/-- The outcome of `addWith`, by look-ups. -/
theorem addWith_outcome (idx : Nat) (f : Entry → Entry) (p : Path) (n : Node) :
    match nodeAt p n with
    | some m => addWith idx f p n = if m.kids.isEmpty then .err (-2) else .ub
    | none =>
      match nodeAt p.dropLast n with
      | none => addWith idx f p n = .err (-1)
      | some m => if m.e.typ = 1 ∨ m.e.typ = 5 then ∃ n', addWith idx f p n = .ok n' else addWith idx f p n = .err (-3) := by
  induction p generalizing n with
  | nil => rfl
  | cons a r ih =>
    rw [nodeAt, addWith]
    cases hk : kid a n.kids with
    | none =>
      simp only [Option.bind_none]
      cases r with
      | nil =>
        simp only [List.dropLast_singleton, nodeAt, List.isEmpty_nil, if_true]
        by_cases ht : n.e.typ = 1 ∨ n.e.typ = 5
        · rw [if_pos ht, if_pos ht]; exact ⟨_, rfl⟩
        · rw [if_neg ht, if_neg ht]
      | cons b s =>
        simp only [List.dropLast_cons_cons, nodeAt, hk, Option.bind_none, List.isEmpty_cons]
        rfl
    | some k =>
      simp only [Option.bind_some]
      have := ih k
      cases hn : nodeAt r k with
      | some m =>
        rw [hn] at this
        simp only [] at this ⊢
        rw [this]
        cases m.kids.isEmpty <;> rfl
      | none =>
        rw [hn] at this
        simp only [] at this ⊢
        cases r with
        | nil => simp [nodeAt] at hn
        | cons b s =>
          rw [List.dropLast_cons_cons, nodeAt, hk, Option.bind_some]
          cases hd : nodeAt (b :: s).dropLast k with
          | none => rw [hd] at this; simp only [] at this ⊢; rw [this]
          | some m =>
            rw [hd] at this
            simp only [] at this ⊢
            by_cases ht : m.e.typ = 1 ∨ m.e.typ = 5
            · rw [if_pos ht] at this ⊢
              obtain ⟨n', hn'⟩ := this
              rw [hn']
              exact ⟨_, rfl⟩
            · rw [if_neg ht] at this ⊢
              rw [this]

end Xls.Dir
