import Verif.Tree.Any
import Verif.Formula.Props
/-
C74: the expressions a caller builds formulas from, how long they live, and what a save writes for them.
-/
namespace Xls.Tree
open Xls.Biff Xls.Formula

theorem finish_roots {p : List Call} {s : St} (hg : Good p) (hi : Inv p s) : ((s.cells.filter (·.auto)).map (·.root)).Nodup := by
  have w := hg.wf
  have h1 : (s.cells.filter (·.auto)).Pairwise fun a b => before a.place b.place = true := hi.sorted.filter _
  rw [List.nodup_iff_pairwise_ne, List.pairwise_map]
  refine List.Pairwise.imp_of_mem ?_ h1
  intro a b ha hb hab e
  have ha := List.mem_filter.1 ha
  have hb := List.mem_filter.1 hb
  have := w.uniq _ _ _ _ ((hi.cells a).1 ha.1) ((hi.cells b).1 hb.1) ha.2 hb.2 e
  rw [this, before_irrefl] at hab
  simp at hab

theorem owned_iff {p : List Call} {r : Nat} : Owned p r ↔ Ended p r ∨ ∃ pl c, holds p pl = some c ∧ c.auto = true ∧ c.root = r := by
  constructor
  · rintro (h | ⟨c, hc, ha, hr⟩)
    · exact .inl (.inl h)
    · obtain ⟨a, b, rfl⟩ := List.append_of_mem hc
      by_cases h : ∃ d ∈ b, d.at? = some c.place
      · exact .inl (.inr ⟨a, c, b, rfl, ha, hr, h⟩)
      · exact .inr ⟨c.place, c, holds_of (fun d hd e => h ⟨d, hd, e⟩), ha, hr⟩
  · rintro ((h | ⟨a, c, b, rfl, ha, hr, _⟩) | ⟨pl, c, hc, ha, hr⟩)
    · exact .inl h
    · exact .inr ⟨c, by simp, ha, hr⟩
    · exact .inr ⟨c, (holds_mem hc).1, ha, hr⟩

/-- C74 for every program in which an expression is given away once: nothing goes wrong on a stack as deep as there are expressions,
    and when the workbook is destroyed, each expression that is part of one given to a cell (or destroyed by the caller) has been
    destroyed, once, and no other.  (The full claim is this for every program; `c74_shared`, `c74_twice`, `c74_read_after` and
    `c74_part_of_itself` show that it does not hold.) -/
theorem c74_once_partial {p : List Call} (hg : Good p) {k : Nat} (hk : (made p).length ≤ k) :
    ∃ s H, run k p = some s ∧ finish k s = some H ∧ H.log.Nodup ∧
      ∀ n, n ∈ H.log ↔ n < (made p).length ∧ ∃ r, Owned p r ∧ Within p r n := by
  obtain ⟨s, hs, hi⟩ := hg.run hk
  have hmem : ∀ r, r ∈ (s.cells.filter (·.auto)).map (·.root) ↔ ∃ pl c, holds p pl = some c ∧ c.auto = true ∧ c.root = r := by
    intro r
    simp only [List.mem_map, List.mem_filter]
    constructor
    · rintro ⟨c, ⟨hc, ha⟩, rfl⟩; exact ⟨_, c, (hi.cells c).1 hc, ha, rfl⟩
    · rintro ⟨pl, c, hc, ha, rfl⟩
      have := (holds_mem hc).2
      exact ⟨c, ⟨(hi.cells c).2 (by rw [this]; exact hc), ha⟩, rfl⟩
  obtain ⟨H, hH, hi'⟩ := HI.destroys hk _ hi.heap (finish_roots hg hi) (fun r hr => .inr ((hmem r).1 hr))
  refine ⟨s, H, hs, hH, hi'.log.1, fun n => ?_⟩
  rw [hi'.log.2]
  constructor
  · rintro ⟨h1, h2⟩
    obtain ⟨r, hr, w⟩ := (hi'.dead n h1).1 h2
    exact ⟨h1, r, owned_iff.2 (hr.imp id (fun h => (hmem r).1 h)), w⟩
  · rintro ⟨h1, r, hr, w⟩
    exact ⟨h1, (hi'.dead n h1).2 ⟨r, (owned_iff.1 hr).imp id (fun h => (hmem r).2 h), w⟩⟩

theorem mapM_mem {α β : Type} {f : α → Option β} : ∀ {l : List α} {r : List β}, l.mapM f = some r →
    ∀ b, b ∈ r ↔ ∃ a ∈ l, f a = some b := by
  intro l
  induction l with
  | nil => intro r h b; simp only [List.mapM_nil, Option.pure_def, Option.some.injEq] at h; subst h; simp
  | cons a l ih =>
    intro r h b
    obtain ⟨x, t, hx, ht, rfl⟩ := mapM_cons_some h
    rw [List.mem_cons, ih ht]
    constructor
    · rintro (rfl | ⟨y, hy, hb⟩)
      · exact ⟨a, by simp, hx⟩
      · exact ⟨y, by simp [hy], hb⟩
    · rintro ⟨y, hy, hb⟩
      rcases List.mem_cons.1 hy with rfl | hy
      · rw [hx] at hb; simp only [Option.some.injEq] at hb; exact .inl hb.symm
      · exact .inr ⟨y, hy, hb⟩

theorem mapM_places {f : Cell → Option (Option Bytes)} : ∀ {l : List Cell} {r : List (Place × Option Bytes)},
    (l.mapM fun c => (f c).map fun u => (c.place, u)) = some r → r.map (·.1) = l.map (·.place) := by
  intro l
  induction l with
  | nil => intro r h; simp only [List.mapM_nil, Option.pure_def, Option.some.injEq] at h; subst h; rfl
  | cons a l ih =>
    intro r h
    obtain ⟨x, t, hx, ht, rfl⟩ := mapM_cons_some h
    simp only [Option.map_eq_some_iff] at hx
    obtain ⟨u, _, rfl⟩ := hx
    simp [ih ht]

/-- What the formula cells are when they are saved: cell by cell in order, each the expression it was given, with all the arguments
    pushed until then. -/
def Wrote (p : List Call) (f : List (Place × Option Bytes)) : Prop :=
  (f.map (·.1)).Pairwise (fun a b => before a b = true) ∧
  ∀ pl u, (pl, u) ∈ f ↔ ∃ c e, holds p pl = some c ∧ Is p c.root e ∧
    u = cellUnit (some pl.1) pl.2.1 pl.2.2 c.xf c.array e

theorem written_mono {p : List Call} : ∀ {k k' n : Nat} {e : Expr}, written p k n = some e → k ≤ k' → written p k' n = some e := by
  intro k
  induction k with
  | zero => intro k' n e h; simp [written] at h
  | succ k ih =>
    intro k' n e h hk
    obtain ⟨j, rfl⟩ : ∃ j, k' = j + 1 := ⟨k' - 1, by omega⟩
    simp only [written, Option.bind_eq_some_iff] at h ⊢
    obtain ⟨m, hm, es, hes, he⟩ := h
    refine ⟨m, hm, es, ?_, he⟩
    have : ∀ (l : List Nat) (r : List Expr), l.mapM (written p k) = some r → l.mapM (written p j) = some r := by
      intro l
      induction l with
      | nil => intro r h; exact h
      | cons a l ih' =>
        intro r h
        obtain ⟨b, t, hb, ht, rfl⟩ := mapM_cons_some h
        simp [List.mapM_cons, ih hb (by omega : k ≤ j), ih' t ht]
    exact this _ _ hes

theorem Is.unique {p : List Call} {n : Nat} {e e' : Expr} (h : Is p n e) (h' : Is p n e') : e = e' := by
  obtain ⟨k, h⟩ := h
  obtain ⟨k', h'⟩ := h'
  have a := written_mono h (Nat.le_max_left k k')
  have b := written_mono h' (Nat.le_max_right k k')
  rw [a] at b
  exact Option.some.inj b

theorem wrote {p : List Call} {s s' : St} {k : Nat} (hcells : ∀ c, c ∈ s.cells ↔ holds p c.place = some c) (hs : Sorted s.cells)
    (hsaved : ∀ c ∈ s.cells, ∃ e, Is p c.root e ∧
      cellH k s.heap c = some (cellUnit (some c.place.1) c.place.2.1 c.place.2.2 c.xf c.array e))
    (h : step k s .save = some s') : ∃ f, s'.files = s.files ++ [f] ∧ Wrote p f := by
  simp only [step, Option.map_eq_some_iff] at h
  obtain ⟨f, hf, rfl⟩ := h
  refine ⟨f, rfl, ?_, ?_⟩
  · rw [mapM_places hf, List.pairwise_map]
    exact hs
  · intro pl u
    rw [mapM_mem hf]
    constructor
    · rintro ⟨c, hc, h⟩
      obtain ⟨e, he, hu⟩ := hsaved c hc
      rw [hu] at h
      simp only [Option.map_some, Option.some.injEq, Prod.mk.injEq] at h
      obtain ⟨rfl, rfl⟩ := h
      exact ⟨c, e, (hcells c).1 hc, he, rfl⟩
    · rintro ⟨c, e, hc, he, rfl⟩
      have hp := (holds_mem hc).2
      subst hp
      have hm := (hcells c).2 hc
      obtain ⟨e', he', hu⟩ := hsaved c hm
      rw [he'.unique he] at hu
      exact ⟨c, hm, by simp only [hu, Option.map_some]⟩

/-- C74: what each save of such a program writes. -/
theorem c74_saved_partial {p : List Call} (hg : Good p) {k : Nat} (hk : (made p).length ≤ k) :
    ∃ s s' f, run k p = some s ∧ run k (p ++ [.save]) = some s' ∧ s'.files = s.files ++ [f] ∧ Wrote p f := by
  obtain ⟨s, hs, hi⟩ := hg.run hk
  obtain ⟨s', hs', _⟩ := hi.step hg (c := .save) trivial (by rw [made_same (by simp)]; exact hk)
  obtain ⟨f, hf, hw⟩ := wrote hi.cells hi.sorted (fun c hc => hi.heap.saved hk (hi.root hg.wf hc)) hs'
  exact ⟨s, s', f, hs, by rw [run_snoc hs]; exact hs', hf, hw⟩

/-- And the bytes are the formula, if it is within the format's limits (C24). -/
theorem c74_parsed_partial {p : List Call} (hg : Good p) {k : Nat} (hk : (made p).length ≤ k) {ar : Nat → Option Nat}
    (hA : KnowsArity ar) {pl : Place} {c : Cell} (hc : holds p pl = some c) :
    ∃ s' e, run k (p ++ [.save]) = some s' ∧ Is p c.root e ∧ (Proper e → Plain e → ∃ f t tokens, s'.files.getLast? = some f ∧
      (pl, some (formulaUnit pl.2.1 pl.2.2 c.xf c.array (estimate e) tokens)) ∈ f ∧
      parse ar tokens = some t ∧ Means (some pl.1) e t) := by
  obtain ⟨s, hs, hi⟩ := hg.run hk
  obtain ⟨s', hs', _⟩ := hi.step hg (c := .save) trivial (by rw [made_same (by simp)]; exact hk)
  obtain ⟨f, hf, hw⟩ := wrote hi.cells hi.sorted (fun c hc => hi.heap.saved hk (hi.root hg.wf hc)) hs'
  have hp := (holds_mem hc).2
  subst hp
  obtain ⟨e, he, _⟩ := hi.heap.saved hk (hi.root hg.wf ((hi.cells c).2 hc))
  refine ⟨s', e, by rw [run_snoc hs]; exact hs', he, fun hP hPl => ?_⟩
  obtain ⟨bs, t, hd, hparse, hm⟩ := c24_parse_partial hA (some c.place.1) hP hPl
  refine ⟨f, t, bs, by rw [hf]; simp, (hw.2 _ _).2 ⟨c, e, hc, he, ?_⟩, hparse, hm⟩
  simp only [cellUnit, hd, Option.map_some]

theorem all_two {f : Nat → Option (List Nat)} {c d : Cell} {n : Nat} : ∀ {cs : List Cell} {l : List Nat}, all f (cs.map (·.root)) = some l →
    l.Nodup → c ∈ cs → d ∈ cs → c ≠ d → (∀ x, f c.root = some x → n ∈ x) → (∀ x, f d.root = some x → n ∈ x) → False := by
  intro cs
  induction cs with
  | nil => intro l _ _ hc; simp at hc
  | cons a r ih =>
    intro l h hn hc hd hne hx hy
    rw [List.map_cons] at h
    obtain ⟨x, y, h1, h2, rfl⟩ := all_cons.1 h
    obtain ⟨_, hyn, hdis⟩ := List.nodup_append.1 hn
    rcases List.mem_cons.1 hc with hca | hcr <;> rcases List.mem_cons.1 hd with hda | hdr
    · exact hne (hca.trans hda.symm)
    · subst hca
      obtain ⟨z, hz, hsub, _⟩ := all_get h2 (List.mem_map.2 ⟨d, hdr, rfl⟩)
      exact hdis n (hx x h1) n (hsub n (hy z hz)) rfl
    · subst hda
      obtain ⟨z, hz, hsub, _⟩ := all_get h2 (List.mem_map.2 ⟨c, hcr, rfl⟩)
      exact hdis n (hy x h1) n (hsub n (hx z hz)) rfl
    · exact ih h2 hyn hcr hdr hne hx hy

theorem Sem.mem {p : List Call} {s : St} (w : Sem p s) {pl : Place} {c : Cell} (h : holds p pl = some c) : c ∈ s.cells := by
  have := (holds_mem h).2
  exact (w.cells c).2 (by rw [this]; exact h)

theorem finish_under {k : Nat} {s : St} {H : Heap} (h : finish k s = some H) {c : Cell} (hc : c ∈ s.cells) (ha : c.auto = true) :
    ∃ l, Under s.heap c.root l ∧ l.Nodup := by
  obtain ⟨l, hl, hn, _⟩ := (destroys_iff _ _ _).1 h
  obtain ⟨x, hx, _, _, hxn⟩ := all_get hl (List.mem_map.2 ⟨c, List.mem_filter.2 ⟨hc, ha⟩, rfl⟩)
  exact ⟨x, ⟨k, hx⟩, hxn hn⟩

/-- C74 does not hold for expressions that are shared: if two cells own expressions with a part in common, destroying the workbook
    destroys that part twice, however deep the stack is. -/
theorem c74_shared {p : List Call} (hp : Known p) {k : Nat} {s : St} (h : run k p = some s) {pl pl' : Place} {c d : Cell}
    (hc : holds p pl = some c) (hd : holds p pl' = some d) (hne : pl ≠ pl') (hca : c.auto = true) (hda : d.auto = true) {n : Nat}
    (hn : Within p c.root n) (hn' : Within p d.root n) (k' : Nat) : finish k' s = none := by
  have w := hp.sem h
  cases hf : finish k' s with
  | none => rfl
  | some H =>
    obtain ⟨l, hl, hnd, _⟩ := (destroys_iff _ _ _).1 hf
    exact (all_two (n := n) hl hnd (List.mem_filter.2 ⟨w.mem hc, hca⟩) (List.mem_filter.2 ⟨w.mem hd, hda⟩)
      (fun e => hne (by rw [← (holds_mem hc).2, ← (holds_mem hd).2, e]))
      (fun x hx => within_mem w.obj ⟨k', hx⟩ hn) (fun x hx => within_mem w.obj ⟨k', hx⟩ hn')).elim

/-- Parts of what is met. -/
theorem under_part {p : List Call} {H : Heap} (obj : ∀ n o, H.live n = some o → now p n = some o.made) {r n : Nat} {l : List Nat}
    (h : Under H r l) (w : Within p r n) : ∃ l', Under H n l' ∧ l'.length ≤ l.length ∧ (l.Nodup → l'.Nodup) := by
  induction w with
  | self => exact ⟨l, h, Nat.le_refl _, id⟩
  | @kid a b _ hk ih =>
    obtain ⟨x, ⟨k, hx⟩, hxl, hxn⟩ := ih
    cases k with
    | zero => simp [under] at hx
    | succ k =>
      obtain ⟨o, y, ho, hy, rfl⟩ := under_succ.1 hx
      obtain ⟨m, hm, hb⟩ := hk
      rw [obj a o ho] at hm
      simp only [Option.some.injEq] at hm
      subst hm
      obtain ⟨z, hz, _, hzl, hzn⟩ := all_get hy (List.mem_reverse.2 hb)
      refine ⟨z, ⟨k, hz⟩, ?_, fun hl => hzn (List.nodup_append.1 (hxn hl)).1⟩
      simp only [List.length_append, List.length_singleton] at hxl
      omega

theorem all_nodup {f : Nat → Option (List Nat)} (hf : ∀ c x, f c = some x → c ∈ x) : ∀ {cs l : List Nat}, all f cs = some l → l.Nodup →
    cs.Nodup := by
  intro cs
  induction cs with
  | nil => intro _ _ _; simp
  | cons c r ih =>
    intro l h hn
    obtain ⟨x, y, hx, hy, rfl⟩ := all_cons.1 h
    obtain ⟨_, hyn, hd⟩ := List.nodup_append.1 hn
    refine List.nodup_cons.2 ⟨fun hc => ?_, ih hy hyn⟩
    obtain ⟨z, hz, hsub, _⟩ := all_get hy hc
    exact hd c (hf c x hx) c (hsub c (hf c z hz)) rfl

/-- Nor does it for an expression used twice in one formula, such as the sum of an expression and itself. -/
theorem c74_twice {p : List Call} (hp : Known p) {k : Nat} {s : St} (h : run k p = some s) {pl : Place} {c : Cell}
    (hc : holds p pl = some c) (ha : c.auto = true) {a : Nat} {m : Made} (hw : Within p c.root a) (hm : now p a = some m)
    (hd : ¬ m.kids.Nodup) (k' : Nat) : finish k' s = none := by
  have w := hp.sem h
  cases hf : finish k' s with
  | none => rfl
  | some H =>
    obtain ⟨l, hl, hn⟩ := finish_under hf (w.mem hc) ha
    obtain ⟨x, ⟨j, hx⟩, _, hxn⟩ := under_part w.obj hl hw
    cases j with
    | zero => simp [under] at hx
    | succ j =>
      obtain ⟨o, y, ho, hy, rfl⟩ := under_succ.1 hx
      rw [w.obj a o ho] at hm
      simp only [Option.some.injEq] at hm
      subst hm
      have h1 := all_nodup (fun c x h => Under.self ⟨j, h⟩) hy (List.nodup_append.1 (hxn hn)).1
      exact absurd ((List.reverse_perm _).nodup_iff.1 h1) hd

theorem no_cycle {p : List Call} {H : Heap} (obj : ∀ n o, H.live n = some o → now p n = some o.made) {r a b : Nat} {l : List Nat}
    (h : Under H r l) (hw : Within p r a) (hk : Kid p a b) (hb : Within p b a) : False := by
  obtain ⟨x, ⟨k, hx⟩, _, _⟩ := under_part obj h hw
  cases k with
  | zero => simp [under] at hx
  | succ k =>
    obtain ⟨o, y, ho, hy, rfl⟩ := under_succ.1 hx
    obtain ⟨m, hm, hbm⟩ := hk
    rw [obj a o ho] at hm
    simp only [Option.some.injEq] at hm
    subst hm
    obtain ⟨z, hz, _, hzl, _⟩ := all_get hy (List.mem_reverse.2 hbm)
    obtain ⟨v, hv, hvl, _⟩ := under_part obj ⟨k, hz⟩ hb
    have := hv.unique ⟨_, hx⟩
    subst this
    simp only [List.length_append, List.length_singleton] at hvl
    omega

theorem dumpH_under {own : Option Nat} {H : Heap} : ∀ {k n : Nat} {d : Option Push}, dumpH own k H n = some d → ∃ l, under k H n = some l := by
  intro k
  induction k with
  | zero => intro n d h; simp [dumpH] at h
  | succ k ih =>
    intro n d h
    simp only [dumpH, Option.bind_eq_some_iff, Option.map_eq_some_iff] at h
    obtain ⟨o, ho, ds, hds, _⟩ := h
    have hall : ∀ cs : List Nat, (∀ c ∈ cs, ∃ x, under k H c = some x) → ∃ l, all (under k H) cs = some l := by
      intro cs
      induction cs with
      | nil => intro _; exact ⟨[], rfl⟩
      | cons c r ih' =>
        intro h
        obtain ⟨x, hx⟩ := h c (by simp)
        obtain ⟨y, hy⟩ := ih' (fun d hd => h d (by simp [hd]))
        exact ⟨x ++ y, all_cons.2 ⟨x, y, hx, hy, rfl⟩⟩
    have hmem : ∀ (cs : List Nat) (r : List (Option Push)), cs.mapM (dumpH own k H) = some r → ∀ c ∈ cs, ∃ x, dumpH own k H c = some x := by
      intro cs
      induction cs with
      | nil => intro r _ c hc; simp at hc
      | cons a r ih' =>
        intro t h c hc
        obtain ⟨b, t', hb, ht, rfl⟩ := mapM_cons_some h
        rcases List.mem_cons.1 hc with rfl | hc
        · exact ⟨b, hb⟩
        · exact ih' t' ht c hc
    obtain ⟨l, hl⟩ := hall o.made.kids.reverse (fun c hc => by
      obtain ⟨x, hx⟩ := hmem _ _ hds c (List.mem_reverse.1 hc)
      exact ih hx)
    exact ⟨l ++ [n], under_succ.2 ⟨o, l, ho, hl, rfl⟩⟩

theorem save_under {k : Nat} {s s' : St} (h : step k s .save = some s') {c : Cell} (hc : c ∈ s.cells) : ∃ l, Under s.heap c.root l := by
  simp only [step, Option.map_eq_some_iff] at h
  obtain ⟨f, hf, _⟩ := h
  have : ∀ (l : List Cell) (r : List (Place × Option Bytes)), (l.mapM fun c => (cellH k s.heap c).map fun u => (c.place, u)) = some r →
      ∀ c ∈ l, ∃ u, cellH k s.heap c = some u := by
    intro l
    induction l with
    | nil => intro r _ c hc; simp at hc
    | cons a l ih =>
      intro r h c hc
      obtain ⟨b, t, hb, ht, rfl⟩ := mapM_cons_some h
      simp only [Option.map_eq_some_iff] at hb
      obtain ⟨u, hu, _⟩ := hb
      rcases List.mem_cons.1 hc with rfl | hc
      · exact ⟨u, hu⟩
      · exact ih t ht c hc
  obtain ⟨u, hu⟩ := this _ _ hf c hc
  simp only [cellH, Option.bind_eq_some_iff, Option.map_eq_some_iff] at hu
  obtain ⟨o, _, d, hd, _⟩ := hu
  obtain ⟨l, hl⟩ := dumpH_under hd
  exact ⟨l, k, hl⟩

/-- Nor if a cell still shows an expression with a part that was destroyed with another cell, or by the caller: saving reads it. -/
theorem c74_read_after {p : List Call} (hp : Known p) {k : Nat} {s : St} (h : run k p = some s) {pl : Place} {c : Cell}
    (hc : holds p pl = some c) {n r : Nat} (hn : Within p c.root n) (hr : Ended p r) (hn' : Within p r n) (k' : Nat) :
    step k' s .save = none := by
  have w := hp.sem h
  cases hf : step k' s .save with
  | none => rfl
  | some s' =>
    obtain ⟨l, hl⟩ := save_under hf (w.mem hc)
    obtain ⟨o, ho⟩ := hl.live (within_mem w.obj hl hn)
    rw [w.dead r n hr hn'] at ho
    simp at ho

/-- Nor for a function that was pushed on itself or on a part of itself: neither saving nor destroying comes to an end. -/
theorem c74_part_of_itself {p : List Call} (hp : Known p) {k : Nat} {s : St} (h : run k p = some s) {pl : Place} {c : Cell}
    (hc : holds p pl = some c) {a b : Nat} (hw : Within p c.root a) (hk : Kid p a b) (hb : Within p b a) (k' : Nat) :
    step k' s .save = none ∧ (c.auto = true → finish k' s = none) := by
  have w := hp.sem h
  constructor
  · cases hf : step k' s .save with
    | none => rfl
    | some s' =>
      obtain ⟨l, hl⟩ := save_under hf (w.mem hc)
      exact (no_cycle w.obj hl hw hk hb).elim
  · intro ha
    cases hf : finish k' s with
    | none => rfl
    | some H =>
      obtain ⟨l, hl, _⟩ := finish_under hf (w.mem hc) ha
      exact (no_cycle w.obj hl hw hk hb).elim

theorem grow_even {n : Nat} (h : n < 65534) : grow n (2 * ((n + 1) / 2)) = some (2 * ((n + 2) / 2)) := by
  unfold grow
  by_cases h1 : n < 2 * ((n + 1) / 2)
  · rw [if_pos h1]
    congr 1
    omega
  · rw [if_neg h1, if_pos (by omega)]
    congr 1
    omega

/-- A function of many arguments. -/
def many (code cls n : Nat) : List Call := .make (.func true code cls []) :: .make .missing :: List.replicate n (.push 0 1)

theorem run_many (code cls k : Nat) : ∀ n, n ≤ 65534 → run k (many code cls n) =
    some { heap := { objs := [some ⟨.func true code cls (List.replicate n 1), 2 * ((n + 1) / 2)⟩, some ⟨.missing, 0⟩] } } := by
  intro n
  induction n with
  | zero => intro _; rfl
  | succ n ih =>
    intro hn
    have : many code cls (n + 1) = many code cls n ++ [.push 0 1] := by
      simp [many, List.replicate_succ']
    rw [this, run_snoc (ih (by omega))]
    simp only [step, push, Heap.live, List.getElem?_cons_zero, Option.join_some, Option.bind_some, List.length_replicate,
      grow_even (show n < 65534 by omega), Option.map_some, List.set_cons_zero, List.replicate_succ']

/-- And a function never takes its 65535th argument: the size of the array of arguments is a 16-bit number that does not grow any
    further, and the call that pushes the argument does not return. -/
theorem c74_too_many (code cls k : Nat) : (∃ s, run k (many code cls 65534) = some s) ∧ run k (many code cls 65535) = none := by
  refine ⟨⟨_, run_many code cls k 65534 (by omega)⟩, ?_⟩
  have : many code cls 65535 = many code cls 65534 ++ [.push 0 1] := by
    simp only [many, List.cons_append]
    rw [show 65535 = 65534 + 1 from rfl, List.replicate_succ']
  rw [this, run_snoc (run_many code cls k 65534 (by omega))]
  have hg : grow 65534 (2 * ((65534 + 1) / 2)) = none := by decide
  simp only [step, push, Heap.live, List.getElem?_cons_zero, Option.join_some, Option.bind_some, List.length_replicate, hg,
    Option.map_none]

end Xls.Tree
