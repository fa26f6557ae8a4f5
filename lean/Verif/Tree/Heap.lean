import Verif.Tree.Model
/-
What is reached from an object, and what `DestroyAST` does in terms of it.
-/
namespace Xls.Tree
open Xls.Biff Xls.Formula

theorem live_lt {H : Heap} {n : Nat} {o : Obj} (h : H.live n = some o) : n < H.objs.length := by
  unfold Heap.live at h
  rcases Nat.lt_or_ge n H.objs.length with hl | hl
  · exact hl
  · rw [List.getElem?_eq_none hl] at h
    simp at h

/-- The lists of several, one after the other. -/
def all (f : Nat → Option (List Nat)) : List Nat → Option (List Nat)
  | [] => some []
  | c :: r => (f c).bind fun x => (all f r).map fun y => x ++ y

/-- The objects met from `n` on, in the order in which they are destroyed, an object as often as it is met. -/
def under : Nat → Heap → Nat → Option (List Nat)
  | 0, _, _ => none
  | k + 1, H, n => (H.live n).bind fun o => (all (under k H) o.made.kids.reverse).map fun l => l ++ [n]

theorem all_cons {f : Nat → Option (List Nat)} {c : Nat} {r l : List Nat} :
    all f (c :: r) = some l ↔ ∃ x y, f c = some x ∧ all f r = some y ∧ l = x ++ y := by
  simp only [all, Option.bind_eq_some_iff, Option.map_eq_some_iff]
  constructor
  · rintro ⟨x, hx, y, hy, rfl⟩; exact ⟨x, y, hx, hy, rfl⟩
  · rintro ⟨x, y, hx, hy, rfl⟩; exact ⟨x, hx, y, hy, rfl⟩

theorem under_succ {k : Nat} {H : Heap} {n : Nat} {l : List Nat} :
    under (k + 1) H n = some l ↔ ∃ o x, H.live n = some o ∧ all (under k H) o.made.kids.reverse = some x ∧ l = x ++ [n] := by
  simp only [under, Option.bind_eq_some_iff, Option.map_eq_some_iff]
  constructor
  · rintro ⟨o, ho, x, hx, rfl⟩; exact ⟨o, x, ho, hx, rfl⟩
  · rintro ⟨o, x, ho, hx, rfl⟩; exact ⟨o, ho, x, hx, rfl⟩

theorem all_mono {f g : Nat → Option (List Nat)} : ∀ {cs l : List Nat}, all f cs = some l →
    (∀ c ∈ cs, ∀ x, f c = some x → g c = some x) → all g cs = some l := by
  intro cs
  induction cs with
  | nil => intro l h _; exact h
  | cons c r ih =>
    intro l h hm
    obtain ⟨x, y, hx, hy, rfl⟩ := all_cons.1 h
    exact all_cons.2 ⟨x, y, hm c (by simp) x hx, ih hy (fun d hd => hm d (by simp [hd])), rfl⟩

/-- Each part of the list: that of one of them. -/
theorem all_mem {f : Nat → Option (List Nat)} : ∀ {cs l : List Nat}, all f cs = some l → ∀ {n}, n ∈ l →
    ∃ c ∈ cs, ∃ x, f c = some x ∧ n ∈ x := by
  intro cs
  induction cs with
  | nil => intro l h n hn; simp only [all, Option.some.injEq] at h; subst h; simp at hn
  | cons c r ih =>
    intro l h n hn
    obtain ⟨x, y, hx, hy, rfl⟩ := all_cons.1 h
    rcases List.mem_append.1 hn with hn | hn
    · exact ⟨c, by simp, x, hx, hn⟩
    · obtain ⟨d, hd, z, hz, hm⟩ := ih hy hn
      exact ⟨d, by simp [hd], z, hz, hm⟩

theorem all_get {f : Nat → Option (List Nat)} : ∀ {cs l : List Nat}, all f cs = some l → ∀ {c}, c ∈ cs →
    ∃ x, f c = some x ∧ (∀ n ∈ x, n ∈ l) ∧ x.length ≤ l.length ∧ (l.Nodup → x.Nodup) := by
  intro cs
  induction cs with
  | nil => intro l h c hc; simp at hc
  | cons d r ih =>
    intro l h c hc
    obtain ⟨x, y, hx, hy, rfl⟩ := all_cons.1 h
    rcases List.mem_cons.1 hc with rfl | hc
    · exact ⟨x, hx, fun n hn => by simp [hn], by simp, fun hn => (List.nodup_append.1 hn).1⟩
    · obtain ⟨z, hz, hm, hl, hn⟩ := ih hy hc
      exact ⟨z, hz, fun n h => by simp [hm n h], by simp; omega, fun h => hn (List.nodup_append.1 h).2.1⟩

theorem under_mono {H : Heap} : ∀ {k k' n : Nat} {l : List Nat}, under k H n = some l → k ≤ k' → under k' H n = some l := by
  intro k
  induction k with
  | zero => intro k' n l h; simp [under] at h
  | succ k ih =>
    intro k' n l h hk
    obtain ⟨j, rfl⟩ : ∃ j, k' = j + 1 := ⟨k' - 1, by omega⟩
    obtain ⟨o, x, ho, hx, rfl⟩ := under_succ.1 h
    exact under_succ.2 ⟨o, x, ho, all_mono hx (fun c _ y hy => ih hy (by omega)), rfl⟩

/-- What is met from `n` on. -/
def Under (H : Heap) (n : Nat) (l : List Nat) : Prop := ∃ k, under k H n = some l

theorem Under.unique {H : Heap} {n : Nat} {l l' : List Nat} (h : Under H n l) (h' : Under H n l') : l = l' := by
  obtain ⟨k, h⟩ := h
  obtain ⟨k', h'⟩ := h'
  have a := under_mono h (Nat.le_max_left k k')
  have b := under_mono h' (Nat.le_max_right k k')
  rw [a] at b
  exact Option.some.inj b

/-- No deeper than there are objects in the list. -/
theorem under_depth {H : Heap} : ∀ {k n : Nat} {l : List Nat}, under k H n = some l → under l.length H n = some l := by
  intro k
  induction k with
  | zero => intro n l h; simp [under] at h
  | succ k ih =>
    intro n l h
    obtain ⟨o, x, ho, hx, rfl⟩ := under_succ.1 h
    rw [show (x ++ [n]).length = x.length + 1 by simp]
    refine under_succ.2 ⟨o, x, ho, all_mono hx (fun c hc y hy => ?_), rfl⟩
    obtain ⟨z, hz, _, hl, _⟩ := all_get hx hc
    rw [hz] at hy
    simp only [Option.some.injEq] at hy
    subst hy
    exact under_mono (ih hz) hl

theorem under_live {H : Heap} : ∀ {k n : Nat} {l : List Nat}, under k H n = some l → ∀ {m}, m ∈ l → ∃ o, H.live m = some o := by
  intro k
  induction k with
  | zero => intro n l h; simp [under] at h
  | succ k ih =>
    intro n l h m hm
    obtain ⟨o, x, ho, hx, rfl⟩ := under_succ.1 h
    rcases List.mem_append.1 hm with hm | hm
    · obtain ⟨c, _, y, hy, hmy⟩ := all_mem hx hm
      exact ih hy hmy
    · simp only [List.mem_singleton] at hm
      subst hm
      exact ⟨o, ho⟩

theorem nodup_bound : ∀ {l : List Nat} {N : Nat}, l.Nodup → (∀ n ∈ l, n < N) → l.length ≤ N := by
  intro l N
  induction N generalizing l with
  | zero =>
    intro _ hb
    cases l with
    | nil => simp
    | cons a r => exact absurd (hb a (by simp)) (by omega)
  | succ N ih =>
    intro hn hb
    have h1 := ih (l := l.erase N) (hn.erase N) (fun n h => by
      have := (List.Nodup.mem_erase_iff hn).1 h
      have := hb n this.2
      omega)
    have h2 := List.length_erase (a := N) (l := l)
    by_cases hN : N ∈ l
    · rw [if_pos hN] at h2; omega
    · rw [if_neg hN] at h2; omega

theorem Under.at {H : Heap} {n : Nat} {l : List Nat} (h : Under H n l) (hn : l.Nodup) {k : Nat} (hk : H.objs.length ≤ k) :
    under k H n = some l := by
  obtain ⟨j, h⟩ := h
  refine under_mono (under_depth h) (Nat.le_trans (nodup_bound hn (fun m hm => ?_)) hk)
  obtain ⟨o, ho⟩ := under_live h hm
  exact live_lt ho

theorem Under.self {H : Heap} {n : Nat} {l : List Nat} (h : Under H n l) : n ∈ l := by
  obtain ⟨k, h⟩ := h
  cases k with
  | zero => simp [under] at h
  | succ k => obtain ⟨o, x, _, _, rfl⟩ := under_succ.1 h; simp

theorem Under.live {H : Heap} {n : Nat} {l : List Nat} (h : Under H n l) {m : Nat} (hm : m ∈ l) : ∃ o, H.live m = some o := by
  obtain ⟨k, h⟩ := h
  exact under_live h hm

/-- The arguments of what is met are met. -/
theorem under_closed {H : Heap} : ∀ {k n : Nat} {l : List Nat}, under k H n = some l → ∀ {m o c}, m ∈ l → H.live m = some o →
    c ∈ o.made.kids → c ∈ l := by
  intro k
  induction k with
  | zero => intro n l h; simp [under] at h
  | succ k ih =>
    intro n l h m o c hm hl hc
    obtain ⟨o', x, ho, hx, rfl⟩ := under_succ.1 h
    rcases List.mem_append.1 hm with hm | hm
    · obtain ⟨d, hd, y, hy, hmy⟩ := all_mem hx hm
      obtain ⟨z, hz, hsub, _, _⟩ := all_get hx hd
      rw [hz] at hy; simp only [Option.some.injEq] at hy; subst hy
      simp [hsub c (ih hz hmy hl hc)]
    · simp only [List.mem_singleton] at hm
      subst hm
      rw [ho] at hl; simp only [Option.some.injEq] at hl; subst hl
      obtain ⟨z, hz, hsub, _, _⟩ := all_get hx (List.mem_reverse.2 hc)
      simp [hsub c (Under.self ⟨_, hz⟩)]

/-- A change elsewhere does not matter. -/
theorem under_same {H H' : Heap} : ∀ {k n : Nat} {l : List Nat}, under k H n = some l →
    (∀ m ∈ l, (H'.live m).map Obj.made = (H.live m).map Obj.made) → under k H' n = some l := by
  intro k
  induction k with
  | zero => intro n l h; simp [under] at h
  | succ k ih =>
    intro n l h hs
    obtain ⟨o, x, ho, hx, rfl⟩ := under_succ.1 h
    have h1 := hs n (by simp)
    rw [ho] at h1
    simp only [Option.map_some, Option.map_eq_some_iff] at h1
    obtain ⟨o', ho', he⟩ := h1
    refine under_succ.2 ⟨o', x, ho', ?_, rfl⟩
    rw [he]
    refine all_mono hx (fun c hc y hy => ih hy (fun m hm => hs m ?_))
    obtain ⟨z, hz, hsub, _, _⟩ := all_get hx hc
    rw [hz] at hy; simp only [Option.some.injEq] at hy; subst hy
    simp [hsub m hm]

theorem Under.same {H H' : Heap} {n : Nat} {l : List Nat} (h : Under H n l)
    (hs : ∀ m ∈ l, (H'.live m).map Obj.made = (H.live m).map Obj.made) : Under H' n l := by
  obtain ⟨k, h⟩ := h
  exact ⟨k, under_same h hs⟩

/-- The objects without those in `D`. -/
def kill : List Nat → Heap → Heap
  | [], H => H
  | n :: r, H => kill r ⟨H.objs.set n none, H.log ++ [n]⟩

theorem kill_length : ∀ {D : List Nat} {H : Heap}, (kill D H).objs.length = H.objs.length := by
  intro D
  induction D with
  | nil => intro H; rfl
  | cons n r ih => intro H; simp [kill, ih]

theorem kill_log : ∀ {D : List Nat} {H : Heap}, (kill D H).log = H.log ++ D := by
  intro D
  induction D with
  | nil => intro H; simp [kill]
  | cons n r ih => intro H; simp [kill, ih]

theorem kill_append : ∀ {D E : List Nat} {H : Heap}, kill (D ++ E) H = kill E (kill D H) := by
  intro D
  induction D with
  | nil => intro E H; rfl
  | cons n r ih => intro E H; simp [kill, ih]

theorem set_live (H : Heap) (log : List Nat) (n m : Nat) (x : Option Obj) :
    Heap.live ⟨H.objs.set n x, log⟩ m = if n = m ∧ m < H.objs.length then x else H.live m := by
  simp only [Heap.live, List.getElem?_set]
  by_cases h : n = m
  · subst h
    by_cases hl : n < H.objs.length
    · simp [hl]
    · rw [if_pos rfl, if_neg hl, if_neg (fun h => hl h.2), List.getElem?_eq_none (by omega)]
  · simp [h]

theorem kill_live : ∀ {D : List Nat} {H : Heap} {n : Nat}, (kill D H).live n = if n ∈ D then none else H.live n := by
  intro D
  induction D with
  | nil => intro H n; simp [kill]
  | cons d r ih =>
    intro H n
    rw [kill, ih, set_live]
    by_cases h1 : n ∈ r
    · simp [h1]
    · by_cases h2 : n = d
      · subst h2
        by_cases h3 : n < H.objs.length
        · simp [h3]
        · have : H.live n = none := by
            cases h : H.live n with
            | none => rfl
            | some o => exact absurd (live_lt h) h3
          simp [this]
      · simp [h1, h2, Ne.symm h2]

theorem delete_eq {H H' : Heap} {n : Nat} : H.delete n = some H' ↔ (∃ o, H.live n = some o) ∧ H' = kill [n] H := by
  simp only [Heap.delete, Option.map_eq_some_iff, kill]
  constructor
  · rintro ⟨o, ho, rfl⟩; exact ⟨⟨o, ho⟩, rfl⟩
  · rintro ⟨⟨o, ho⟩, rfl⟩; exact ⟨o, ho, rfl⟩

theorem all_kill {f g : Nat → Option (List Nat)} {D : List Nat}
    (hfg : ∀ c l, g c = some l ↔ f c = some l ∧ ∀ n ∈ l, n ∉ D) :
    ∀ {cs l : List Nat}, all g cs = some l ↔ all f cs = some l ∧ ∀ n ∈ l, n ∉ D := by
  intro cs
  induction cs with
  | nil => intro l; simp only [all, Option.some.injEq]; exact ⟨fun h => ⟨h, by subst h; simp⟩, fun h => h.1⟩
  | cons c r ih =>
    intro l
    rw [all_cons, all_cons]
    constructor
    · rintro ⟨x, y, hx, hy, rfl⟩
      have hx := (hfg c x).1 hx
      have hy := (@ih y).1 hy
      refine ⟨⟨x, y, hx.1, hy.1, rfl⟩, fun n hn => ?_⟩
      rcases List.mem_append.1 hn with h | h
      · exact hx.2 n h
      · exact hy.2 n h
    · rintro ⟨⟨x, y, hx, hy, rfl⟩, hd⟩
      exact ⟨x, y, (hfg c x).2 ⟨hx, fun n hn => hd n (by simp [hn])⟩, (@ih y).2 ⟨hy, fun n hn => hd n (by simp [hn])⟩, rfl⟩

/-- What is met when some objects are gone: the same if none of them was met, otherwise the destroyed object is touched. -/
theorem under_kill {H : Heap} {D : List Nat} : ∀ {k n : Nat} {l : List Nat},
    under k (kill D H) n = some l ↔ under k H n = some l ∧ ∀ m ∈ l, m ∉ D := by
  intro k
  induction k with
  | zero => intro n l; simp [under]
  | succ k ih =>
    intro n l
    rw [under_succ, under_succ]
    constructor
    · rintro ⟨o, x, ho, hx, rfl⟩
      rw [kill_live] at ho
      by_cases hn : n ∈ D
      · rw [if_pos hn] at ho; simp at ho
      · rw [if_neg hn] at ho
        have hx := (all_kill (fun c l => @ih c l)).1 hx
        refine ⟨⟨o, x, ho, hx.1, rfl⟩, fun m hm => ?_⟩
        rcases List.mem_append.1 hm with h | h
        · exact hx.2 m h
        · simp only [List.mem_singleton] at h; subst h; exact hn
    · rintro ⟨⟨o, x, ho, hx, rfl⟩, hd⟩
      refine ⟨o, x, ?_, (all_kill (fun c l => @ih c l)).2 ⟨hx, fun m hm => hd m (by simp [hm])⟩, rfl⟩
      rw [kill_live, if_neg (hd n (by simp))]
      exact ho

/-- Destroying several, one after the other. -/
theorem destroys_of {k : Nat}
    (hd : ∀ H n H', destroy k H n = some H' ↔ ∃ l, under k H n = some l ∧ l.Nodup ∧ H' = kill l H) :
    ∀ (cs : List Nat) (H H' : Heap), cs.foldlM (destroy k) H = some H' ↔
      ∃ l, all (under k H) cs = some l ∧ l.Nodup ∧ H' = kill l H := by
  intro cs
  induction cs with
  | nil =>
    intro H H'
    simp only [List.foldlM_nil, all, Option.pure_def, Option.some.injEq]
    constructor
    · rintro rfl; exact ⟨[], rfl, by simp, rfl⟩
    · rintro ⟨l, rfl, _, rfl⟩; rfl
  | cons c r ih =>
    intro H H'
    simp only [List.foldlM_cons, Option.bind_eq_bind, Option.bind_eq_some_iff]
    constructor
    · rintro ⟨H1, h1, h2⟩
      obtain ⟨x, hx, hxn, rfl⟩ := (hd H c H1).1 h1
      obtain ⟨y, hy, hyn, rfl⟩ := (ih _ _).1 h2
      obtain ⟨hy, hxy⟩ := (all_kill (fun c l => under_kill)).1 hy
      refine ⟨x ++ y, all_cons.2 ⟨x, y, hx, hy, rfl⟩, List.nodup_append.2 ⟨hxn, hyn, ?_⟩, kill_append.symm⟩
      intro a ha b hb hab
      subst hab
      exact hxy a hb ha
    · rintro ⟨l, hl, hn, rfl⟩
      obtain ⟨x, y, hx, hy, rfl⟩ := all_cons.1 hl
      obtain ⟨hxn, hyn, hxy⟩ := List.nodup_append.1 hn
      refine ⟨kill x H, (hd H c _).2 ⟨x, hx, hxn, rfl⟩, (ih _ _).2 ⟨y, ?_, hyn, kill_append⟩⟩
      exact (all_kill (fun c l => under_kill)).2 ⟨hy, fun n hn hnx => hxy n hnx n hn rfl⟩

/-- `DestroyAST` goes through exactly if no object is met twice and all that are met are there, and then those are destroyed. -/
theorem destroy_iff : ∀ {k : Nat} (H : Heap) (n : Nat) (H' : Heap),
    destroy k H n = some H' ↔ ∃ l, under k H n = some l ∧ l.Nodup ∧ H' = kill l H := by
  intro k
  induction k with
  | zero => intro H n H'; simp [destroy, under]
  | succ k ih =>
    intro H n H'
    simp only [destroy, Option.bind_eq_some_iff]
    constructor
    · rintro ⟨o, ho, H1, h1, h2⟩
      obtain ⟨x, hx, hxn, rfl⟩ := (destroys_of ih _ _ _).1 h1
      obtain ⟨⟨o', ho'⟩, rfl⟩ := delete_eq.1 h2
      rw [kill_live] at ho'
      have hnx : n ∉ x := fun h => by simp [h] at ho'
      exact ⟨x ++ [n], under_succ.2 ⟨o, x, ho, hx, rfl⟩, by
        rw [List.nodup_append]; exact ⟨hxn, by simp, by intro a ha b hb hab; simp only [List.mem_singleton] at hb; subst hb; subst hab; exact hnx ha⟩,
        by rw [kill_append]⟩
    · rintro ⟨l, hl, hn, rfl⟩
      obtain ⟨o, x, ho, hx, rfl⟩ := under_succ.1 hl
      obtain ⟨hxn, _, hd⟩ := List.nodup_append.1 hn
      refine ⟨o, ho, kill x H, (destroys_of ih _ _ _).2 ⟨x, hx, hxn, rfl⟩, ?_⟩
      refine delete_eq.2 ⟨⟨o, ?_⟩, by rw [kill_append]⟩
      rw [kill_live, if_neg (fun h => hd n h n (by simp) rfl)]
      exact ho

theorem destroys_iff {k : Nat} (cs : List Nat) (H H' : Heap) : cs.foldlM (destroy k) H = some H' ↔
    ∃ l, all (under k H) cs = some l ∧ l.Nodup ∧ H' = kill l H := destroys_of destroy_iff cs H H'

/-- Appending an argument to a function that is met: what the argument meets is met as well. -/
theorem all_insert {f g : Nat → Option (List Nat)} {h : Nat} {lk : List Nat}
    (hout : ∀ c l, f c = some l → h ∉ l → g c = some l)
    (hin : ∀ c l, f c = some l → l.Nodup → h ∈ l → ∃ l', g c = some l' ∧ l'.Perm (l ++ lk)) :
    ∀ {cs l : List Nat}, all f cs = some l → l.Nodup → (h ∉ l → all g cs = some l) ∧
      (h ∈ l → ∃ l', all g cs = some l' ∧ l'.Perm (l ++ lk)) := by
  intro cs
  induction cs with
  | nil => intro l hl _; simp only [all, Option.some.injEq] at hl; subst hl; simp [all]
  | cons c r ih =>
    intro l hl hn
    obtain ⟨x, y, hx, hy, rfl⟩ := all_cons.1 hl
    obtain ⟨hxn, hyn, hxy⟩ := List.nodup_append.1 hn
    obtain ⟨ih1, ih2⟩ := ih hy hyn
    constructor
    · intro hh
      simp only [List.mem_append, not_or] at hh
      exact all_cons.2 ⟨x, y, hout c x hx hh.1, ih1 hh.2, rfl⟩
    · intro hh
      rcases List.mem_append.1 hh with hh | hh
      · obtain ⟨x', hx', hp⟩ := hin c x hx hxn hh
        refine ⟨x' ++ y, all_cons.2 ⟨x', y, hx', ih1 (fun h' => hxy h hh h h' rfl), rfl⟩, ?_⟩
        refine (hp.append_right y).trans ?_
        rw [List.append_assoc, List.append_assoc]
        exact (List.perm_append_comm).append_left x
      · obtain ⟨y', hy', hp⟩ := ih2 hh
        refine ⟨x ++ y', all_cons.2 ⟨x, y', hout c x hx (fun h' => hxy h h' h hh rfl), hy', rfl⟩, ?_⟩
        rw [List.append_assoc]
        exact hp.append_left x

theorem under_insert {H H' : Heap} {h q : Nat} {o o' : Obj} {lq : List Nat} {kq : Nat}
    (ho : H.live h = some o) (ho' : H'.live h = some o') (hkids : o'.made.kids = o.made.kids ++ [q])
    (hs : ∀ m, m ≠ h → H'.live m = H.live m) (hq : under kq H q = some lq) (hhq : h ∉ lq) :
    ∀ {k n : Nat} {l : List Nat}, under k H n = some l → l.Nodup → h ∈ l →
      ∃ l', under (k + kq) H' n = some l' ∧ l'.Perm (l ++ lq) := by
  intro k
  induction k with
  | zero => intro n l h; simp [under] at h
  | succ k ih =>
    intro n l hl hn hh
    obtain ⟨on, x, hon, hx, rfl⟩ := under_succ.1 hl
    obtain ⟨hxn, _, hd⟩ := List.nodup_append.1 hn
    have hout : ∀ c l, under k H c = some l → h ∉ l → under (k + kq) H' c = some l := by
      intro c l hc hcl
      refine under_mono (under_same hc (fun m hm => ?_)) (by omega)
      rw [hs m (fun hmh => hcl (hmh ▸ hm))]
    rw [show k + 1 + kq = (k + kq) + 1 by omega]
    by_cases hnh : n = h
    · subst hnh
      rw [ho] at hon; simp only [Option.some.injEq] at hon; subst hon
      have hnx : n ∉ x := fun h' => hd n h' n (by simp) rfl
      have h1 := (all_insert (lk := lq) hout (fun c l hc hcn hcl => ih hc hcn hcl) hx hxn).1 hnx
      refine ⟨lq ++ x ++ [n], under_succ.2 ⟨o', lq ++ x, ho', ?_, rfl⟩, ?_⟩
      · rw [hkids, List.reverse_append]
        refine all_cons.2 ⟨lq, x, ?_, h1, rfl⟩
        refine under_mono (under_same hq (fun m hm => ?_)) (by omega)
        rw [hs m (fun hmh => hhq (hmh ▸ hm))]
      · rw [List.append_assoc]
        exact List.perm_append_comm
    · have hhx : h ∈ x := by
        rcases List.mem_append.1 hh with h' | h'
        · exact h'
        · simp only [List.mem_singleton] at h'; exact absurd h'.symm hnh
      obtain ⟨x', hx', hp⟩ := (all_insert (lk := lq) hout (fun c l hc hcn hcl => ih hc hcn hcl) hx hxn).2 hhx
      refine ⟨x' ++ [n], under_succ.2 ⟨on, x', ?_, hx', rfl⟩, ?_⟩
      · rw [hs n hnh]; exact hon
      · refine (hp.append_right [n]).trans ?_
        rw [List.append_assoc, List.append_assoc]
        exact (List.perm_append_comm).append_left x

end Xls.Tree
