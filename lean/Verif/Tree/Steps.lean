import Verif.Tree.Inv
/-
A good program never goes wrong: the invariant over its calls, and what a save writes.
-/
namespace Xls.Tree
open Xls.Biff Xls.Formula

theorem before_irrefl (a : Place) : before a a = false := by simp [before]

theorem before_trans {a b c : Place} (h : before a b = true) (h' : before b c = true) : before a c = true := by
  simp only [before, decide_eq_true_eq] at *
  omega

theorem before_total {a b : Place} (h : a ≠ b) (h' : before a b = false) : before b a = true := by
  simp only [before, decide_eq_true_eq, decide_eq_false_iff_not] at *
  obtain ⟨a1, a2, a3⟩ := a
  obtain ⟨b1, b2, b3⟩ := b
  simp only [ne_eq, Prod.mk.injEq, not_and] at *
  omega

theorem mem_insertCell {c d : Cell} {l : List Cell} : d ∈ insertCell c l ↔ d = c ∨ d ∈ l := by
  induction l with
  | nil => simp [insertCell]
  | cons x r ih =>
    simp only [insertCell]
    by_cases h : before c.place x.place = true
    · rw [if_pos h]; simp
    · rw [if_neg h, List.mem_cons, ih, List.mem_cons]
      constructor
      · rintro (h | h | h)
        · exact .inr (.inl h)
        · exact .inl h
        · exact .inr (.inr h)
      · rintro (h | h | h)
        · exact .inr (.inl h)
        · exact .inl h
        · exact .inr (.inr h)

abbrev Sorted (l : List Cell) : Prop := l.Pairwise fun a b => before a.place b.place = true

theorem sorted_insertCell {c : Cell} {l : List Cell} (h : Sorted l) (hc : ∀ d ∈ l, d.place ≠ c.place) : Sorted (insertCell c l) := by
  induction l with
  | nil => simp [insertCell, Sorted]
  | cons x r ih =>
    obtain ⟨hx, hr⟩ := List.pairwise_cons.1 h
    simp only [insertCell]
    by_cases hb : before c.place x.place = true
    · rw [if_pos hb]
      refine List.pairwise_cons.2 ⟨?_, h⟩
      intro d hd
      rcases List.mem_cons.1 hd with rfl | hd
      · exact hb
      · exact before_trans hb (hx d hd)
    · rw [if_neg hb]
      refine List.pairwise_cons.2 ⟨?_, ih hr (fun d hd => hc d (by simp [hd]))⟩
      intro d hd
      rcases mem_insertCell.1 hd with rfl | hd
      · exact before_total (fun e => hc x (by simp) e.symm) (by simpa using hb)
      · exact hx d hd

theorem Wf.nil : Wf [] := by
  refine ⟨?_, ?_, ?_, ?_, ?_⟩
  · rintro a b ⟨m, hm, _⟩; simp [now, made] at hm
  · simp
  · intro pl c h; simp [holds] at h
  · intro pl c h; simp [holds] at h
  · intro pl pl' c c' h; simp [holds] at h

theorem Good.wf {p : List Call} (h : Good p) : Wf p := by
  induction h with
  | nil => exact Wf.nil
  | snoc _ ha ih => exact ih.snoc ha

theorem Wf.rootlt {p : List Call} (w : Wf p) {r : Nat} (h : Root p r) : r < (made p).length := by
  rcases h with ⟨h, _⟩ | ⟨pl, c, hc, _, rfl⟩
  · exact h
  · exact w.root _ _ hc

theorem Good.endedlt {p : List Call} (hg : Good p) {r : Nat} (h : Ended p r) : r < (made p).length := by
  induction hg generalizing r with
  | nil => rcases h with h | ⟨a, c, b, hp, _⟩
           · simp at h
           · simp at hp
  | @snoc p c hg ha ih =>
    refine Nat.lt_of_lt_of_le ?_ made_le
    cases hc : c.at? with
    | none =>
      rcases (ended_other hc).1 h with h | rfl
      · exact ih h
      · exact ha.1
    | some pl =>
      rcases (ended_write hc).1 h with h | ⟨d, hd, hauto, rfl⟩
      · exact ih h
      · exact hg.wf.root _ _ hd

structure Inv (p : List Call) (s : St) : Prop where
  heap : HI p s.heap (Root p) (Ended p)
  cells : ∀ c, c ∈ s.cells ↔ holds p c.place = some c
  sorted : Sorted s.cells

theorem Inv.find {p : List Call} {s : St} (hi : Inv p s) (pl : Place) : s.cells.find? (fun c => c.place = pl) = holds p pl := by
  cases h : s.cells.find? (fun c => c.place = pl) with
  | some c =>
    have h1 := List.mem_of_find?_eq_some h
    have h2 := List.find?_some h
    simp only [decide_eq_true_eq] at h2
    rw [← h2]
    exact ((hi.cells c).1 h1).symm
  | none =>
    cases h' : holds p pl with
    | none => rfl
    | some c =>
      have hp := (holds_mem h').2
      have hm := (hi.cells c).2 (by rw [hp]; exact h')
      have := List.find?_eq_none.1 h c hm
      simp [hp] at this

/-- Writing a cell: the one that was there goes, with what it owns. -/
theorem Inv.vacate {p : List Call} {s : St} (hi : Inv p s) {k : Nat} (hk : (made p).length ≤ k) (pl : Place) :
    ∃ s', Tree.vacate k s pl = some s' ∧ HI p s'.heap (fun r => Root p r ∧ ¬ Lost p pl r) (fun r => Ended p r ∨ Lost p pl r) ∧
      s'.cells = s.cells.filter (fun c => c.place ≠ pl) ∧ s'.files = s.files := by
  unfold Tree.vacate
  rw [hi.find]
  cases h : holds p pl with
  | none =>
    refine ⟨s, rfl, hi.heap.congr rfl (fun _ => rfl) (fun r h => h.1) (fun r => ?_), ?_, rfl⟩
    · constructor
      · rintro (h' | ⟨c, hc, _⟩)
        · exact h'
        · rw [h] at hc; simp at hc
      · exact .inl
    · symm
      rw [List.filter_eq_self]
      intro c hc
      simp only [ne_eq, decide_not, Bool.not_eq_eq_eq_not, Bool.not_true, decide_eq_false_iff_not]
      intro e
      have := (hi.cells c).1 hc
      rw [e, h] at this
      simp at this
  | some c =>
    by_cases ha : c.auto = true
    · obtain ⟨H, hH, hi'⟩ := hi.heap.destroy (r := c.root) (.inr ⟨pl, c, h, ha, rfl⟩) hk
      refine ⟨{ s with heap := H, cells := s.cells.filter fun c => c.place ≠ pl }, ?_, ?_, rfl, rfl⟩
      · simp only [ha, if_true, hH, Option.map_some]
      · refine hi'.congr rfl (fun _ => rfl) ?_ ?_
        · rintro r ⟨hr, hl⟩
          exact ⟨hr, fun e => hl ⟨c, h, ha, e.symm⟩⟩
        · intro r
          constructor
          · rintro (h' | ⟨d, hd, _, hr⟩)
            · exact .inl h'
            · rw [h] at hd
              simp only [Option.some.injEq] at hd
              subst hd
              exact .inr hr.symm
          · rintro (h' | rfl)
            · exact .inl h'
            · exact .inr ⟨c, h, ha, rfl⟩
    · refine ⟨{ s with cells := s.cells.filter fun c => c.place ≠ pl }, ?_, ?_, rfl, rfl⟩
      · simp only [ha, if_false]; rfl
      · refine hi.heap.congr rfl (fun _ => rfl) (fun r h => h.1) (fun r => ?_)
        constructor
        · rintro (h' | ⟨d, hd, hd', _⟩)
          · exact h'
          · rw [h] at hd
            simp only [Option.some.injEq] at hd
            subst hd
            exact absurd hd' ha
        · exact .inl

/-- What stands alone after a cell was written did so before, and the cell that was there did not own it. -/
theorem root_write {p : List Call} (w : Wf p) {c : Call} {pl : Place} (hc : c.at? = some pl) (ha : Allowed p c) {r : Nat}
    (h : Root (p ++ [c]) r) : Root p r ∧ ¬ Lost p pl r := by
  have hm : made (p ++ [c]) = made p := made_same (fun m e => by subst e; simp [Call.at?] at hc)
  rcases h with ⟨h1, h2⟩ | ⟨pl', d, hd, hda, rfl⟩
  · rw [hm] at h1
    have h2 : ¬ Given p r := fun hg => h2 (given_snoc.2 (.inl hg))
    refine ⟨.inl ⟨h1, h2⟩, ?_⟩
    rintro ⟨x, hx, hxa, rfl⟩
    exact h2 (holds_given hx hxa)
  · rw [holds_snoc] at hd
    by_cases e : c.at? = some pl'
    · rw [if_pos e] at hd
      cases c with
      | formula y =>
        simp only [Call.cell?, Option.some.injEq] at hd
        subst hd
        refine ⟨.inl ⟨ha.1, ha.2.1⟩, ?_⟩
        rintro ⟨x, hx, hxa, hr⟩
        exact ha.2.1 (hr ▸ holds_given hx hxa)
      | _ => simp [Call.cell?] at hd
    · rw [if_neg e] at hd
      refine ⟨.inr ⟨pl', d, hd, hda, rfl⟩, ?_⟩
      rintro ⟨x, hx, hxa, hr⟩
      have := w.uniq _ _ _ _ hx hd hxa hda hr
      subst this
      exact e hc

/-- What stands alone after any other call that gives `gs` away. -/
theorem root_other {p : List Call} {c : Call} (hc : c.at? = none) {r : Nat} (h : Root (p ++ [c]) r)
    (hm : made (p ++ [c]) = made p) (ha : ∀ g ∈ c.gives, ¬ Given p g) : Root p r ∧ r ∉ c.gives := by
  rcases h with ⟨h1, h2⟩ | ⟨pl', d, hd, hda, rfl⟩
  · rw [hm] at h1
    exact ⟨.inl ⟨h1, fun hg => h2 (given_snoc.2 (.inl hg))⟩, fun hg => h2 (given_snoc.2 (.inr hg))⟩
  · rw [holds_snoc, if_neg (by rw [hc]; simp)] at hd
    exact ⟨.inr ⟨pl', d, hd, hda, rfl⟩, fun hg => ha _ hg (holds_given hd hda)⟩

theorem mapM_some {α β : Type} {f : α → Option β} : ∀ {l : List α}, (∀ a ∈ l, ∃ b, f a = some b) → ∃ r, l.mapM f = some r := by
  intro l
  induction l with
  | nil => intro _; exact ⟨[], rfl⟩
  | cons a l ih =>
    intro h
    obtain ⟨b, hb⟩ := h a (by simp)
    obtain ⟨r, hr⟩ := ih (fun x hx => h x (by simp [hx]))
    exact ⟨b :: r, by simp [List.mapM_cons, hb, hr]⟩

theorem mapM_cons_some {α β : Type} {f : α → Option β} {a : α} {l : List α} {r : List β} (h : (a :: l).mapM f = some r) :
    ∃ b t, f a = some b ∧ l.mapM f = some t ∧ r = b :: t := by
  simp only [List.mapM_cons, Option.bind_eq_bind, Option.bind_eq_some_iff, Option.pure_def, Option.some.injEq] at h
  obtain ⟨b, hb, t, ht, rfl⟩ := h
  exact ⟨b, t, hb, ht, rfl⟩

theorem mapM_both {α β γ : Type} {f : α → Option β} {g : α → Option γ} {d : β → γ} : ∀ {l : List α},
    (∀ a ∈ l, ∃ b, f a = some b ∧ g a = some (d b)) →
    ∃ r, l.mapM f = some r ∧ l.mapM g = some (r.map d) ∧ r.length = l.length := by
  intro l
  induction l with
  | nil => intro _; exact ⟨[], rfl, rfl, rfl⟩
  | cons a l ih =>
    intro h
    obtain ⟨b, hb, hb'⟩ := h a (by simp)
    obtain ⟨r, hr, hr', hl⟩ := ih (fun x hx => h x (by simp [hx]))
    exact ⟨b :: r, by simp [List.mapM_cons, hb, hr], by simp [List.mapM_cons, hb', hr'], by simp [hl]⟩

theorem then_nil (x : Push) : x.then ([], false) = x := by
  simp [Push.then]

theorem nil_then (x : Push) : Push.then ([], false) x = x := by
  simp [Push.then]

theorem joined_args (own : Option Nat) : ∀ es : List Expr, joined (es.map (dump own)) = dumpArgs own es := by
  intro es
  induction es with
  | nil => simp [joined, dumpArgs]
  | cons e r ih => simp only [List.map_cons, joined, ih, dumpArgs]

theorem layer_some (own : Option Nat) {m : Made} {es : List Expr} (h : es.length = m.kids.length) :
    ∃ e, layer m es = some e ∧ ((joined (es.map (dump own))).bind fun x => (m.token own).map fun y => x.then y) = dump own e ∧
      m.estimate = estimate e := by
  cases m with
  | un op a =>
    match es, h with
    | [e], _ =>
      refine ⟨_, rfl, ?_, by simp [Made.estimate, estimate]⟩
      simp only [List.map_cons, List.map_nil, joined, Made.token, dump]
      cases dump own e with
      | none => rfl
      | some x => simp [then_nil]
  | bin op a b =>
    match es, h with
    | [e, e'], _ =>
      refine ⟨_, rfl, ?_, by simp [Made.estimate, estimate]⟩
      simp only [List.map_cons, List.map_nil, joined, Made.token, dump]
      cases dump own e with
      | none => rfl
      | some x =>
        cases dump own e' with
        | none => rfl
        | some y => simp [then_nil]
  | func b code cls args =>
    refine ⟨.func code cls es, by simp [layer], ?_, by simp [Made.estimate, estimate]⟩
    simp only [Made.kids] at h
    rw [joined_args]
    simp only [Made.token, dump, h]
    cases dumpArgs own es with
    | none => rfl
    | some x =>
      cases varBranch code args.length with
      | none => rfl
      | some v => rfl
  | _ =>
    simp only [Made.kids, List.length_nil, List.length_eq_zero_iff] at h
    subst h
    exact ⟨_, rfl, by simp [joined, Made.token, dump, nil_then], by simp [Made.estimate, estimate]⟩

/-- What is a tree of objects is an expression, and its bytes are those of the expression. -/
theorem dumped {p : List Call} {H : Heap} (obj : ∀ n o, H.live n = some o → now p n = some o.made) (own : Option Nat) :
    ∀ {k n : Nat} {l : List Nat}, under k H n = some l → ∃ e, written p k n = some e ∧ dumpH own k H n = some (dump own e) ∧
      ∀ o, H.live n = some o → o.made.estimate = estimate e := by
  intro k
  induction k with
  | zero => intro n l h; simp [under] at h
  | succ k ih =>
    intro n l h
    obtain ⟨o, x, ho, hx, rfl⟩ := under_succ.1 h
    obtain ⟨es, h1, h2, h3⟩ := mapM_both (f := written p k) (g := dumpH own k H) (d := dump own) (l := o.made.kids) (by
      intro c hc
      obtain ⟨y, hy, _⟩ := all_get hx (List.mem_reverse.2 hc)
      obtain ⟨e, h1, h2, _⟩ := ih hy
      exact ⟨e, h1, h2⟩)
    obtain ⟨e, he, hd, hest⟩ := layer_some own h3
    refine ⟨e, ?_, ?_, ?_⟩
    · simp only [written, obj n o ho, Option.bind_some, h1, he]
    · simp only [dumpH, ho, Option.bind_some, h2, Option.map_some, hd]
    · intro o' ho'
      rw [ho] at ho'
      simp only [Option.some.injEq] at ho'
      subst ho'
      exact hest

/-- The formula of a cell when it is saved. -/
theorem HI.saved {p : List Call} {H : Heap} {R E : Nat → Prop} (hi : HI p H R E) {k : Nat} (hk : (made p).length ≤ k) {c : Cell}
    (hr : R c.root) : ∃ e, Is p c.root e ∧
      cellH k H c = some (cellUnit (some c.place.1) c.place.2.1 c.place.2.2 c.xf c.array e) := by
  obtain ⟨l, hl, hn⟩ := hi.trees _ hr
  have hu := hl.at hn (k := k) (by rw [hi.len]; exact hk)
  obtain ⟨e, he, hd, hest⟩ := dumped hi.obj (some c.place.1) hu
  obtain ⟨o, ho⟩ := hl.live hl.self
  refine ⟨e, ⟨k, he⟩, ?_⟩
  simp only [cellH, ho, Option.bind_some, hd, Option.map_some, cellUnit, hest o ho]

theorem Inv.root {p : List Call} {s : St} (w : Wf p) (hi : Inv p s) {c : Cell} (hc : c ∈ s.cells) : Root p c.root := by
  have h := (hi.cells c).1 hc
  cases ha : c.auto with
  | true => exact .inr ⟨_, c, h, ha, rfl⟩
  | false => exact .inl ⟨w.root _ _ h, w.lent _ _ h ha⟩

/-- One allowed call. -/
theorem Inv.step {p : List Call} {s : St} (hg : Good p) (hi : Inv p s) {c : Call} (ha : Allowed p c) {k : Nat}
    (hk : (made (p ++ [c])).length ≤ k) : ∃ s', Tree.step k s c = some s' ∧ Inv (p ++ [c]) s' := by
  have w := hg.wf
  have hk' : (made p).length ≤ k := Nat.le_trans made_le hk
  have hcells : ∀ {s' : St}, c.at? = none → s'.cells = s.cells →
      (∀ d, d ∈ s'.cells ↔ holds (p ++ [c]) d.place = some d) ∧ Sorted s'.cells := by
    intro s' hc h
    rw [h]
    refine ⟨fun d => ?_, hi.sorted⟩
    rw [holds_snoc, if_neg (by rw [hc]; simp)]
    exact hi.cells d
  cases c with
  | make m =>
    by_cases hp : m.proper = true
    · obtain ⟨hn, hl, hf⟩ := ha hp
      obtain ⟨room, hc⟩ := construct_proper hp hl
      refine ⟨{ s with heap := { s.heap with objs := s.heap.objs ++ [some ⟨m, room⟩] } }, by simp only [Tree.step, hc], ?_⟩
      have h1 := hi.heap.make w (room := room) hp hn (fun k hk => .inl ⟨(hf k hk).1, (hf k hk).2.1⟩) (fun r h => w.rootlt h)
        (fun r h => hg.endedlt h)
      refine ⟨?_, (hcells rfl rfl).1, (hcells rfl rfl).2⟩
      have hnG : ¬ Given p (made p).length → True := fun _ => trivial
      have h2 : ∀ r, Root (p ++ [.make m]) r → (Root p r ∧ r ∉ m.kids) ∨ r = (made p).length := by
        rintro r (⟨h1, h2⟩ | ⟨pl', d, hd, hda, rfl⟩)
        · rw [made_make hp, List.length_append] at h1
          simp only [List.length_singleton] at h1
          by_cases e : r = (made p).length
          · exact .inr e
          · refine .inl ⟨.inl ⟨by omega, fun hg => h2 (given_snoc.2 (.inl hg))⟩, fun hk => h2 (given_snoc.2 (.inr ?_))⟩
            simp only [Call.gives, hp, if_true]
            exact hk
        · rw [holds_snoc, if_neg (by simp [Call.at?])] at hd
          exact .inl ⟨.inr ⟨pl', d, hd, hda, rfl⟩, fun hk => (hf _ hk).2.1 (holds_given hd hda)⟩
      exact h1.congr rfl (fun _ => rfl) h2 (fun r => by rw [ended_other rfl]; simp)
    · have hp : m.proper = false := by simpa using hp
      refine ⟨s, by simp only [Tree.step, construct_improper hp], ?_, (hcells rfl rfl).1, (hcells rfl rfl).2⟩
      have hm : made (p ++ [.make m]) = made p := made_same (fun m' e => by simp only [Call.make.injEq] at e; subst e; exact hp)
      refine hi.heap.congr (by rw [hm])
        (now_same (fun m' e => by simp only [Call.make.injEq] at e; subst e; exact hp) (by simp))
        (fun r h => (root_other rfl h hm (by simp [Call.gives, hp])).1) (fun r => by rw [ended_other rfl]; simp)
  | push h q =>
    obtain ⟨⟨code, cls, args, hnow, hlen⟩, hend, hfree⟩ := ha
    obtain ⟨H, hH, h1⟩ := hi.heap.push hnow hlen hend (q := q) (.inl ⟨hfree.1, hfree.2.1⟩)
    refine ⟨{ s with heap := H }, by simp only [Tree.step, hH, Option.map_some], ?_, (hcells rfl rfl).1, (hcells rfl rfl).2⟩
    have hm : made (p ++ [.push h q]) = made p := made_same (by simp)
    refine h1.congr rfl (fun _ => rfl) (fun r hr => ?_) (fun r => by rw [ended_other rfl]; simp)
    have := root_other rfl hr hm (by simpa [Call.gives] using hfree.2.1)
    exact ⟨this.1, by simpa [Call.gives] using this.2⟩
  | formula x =>
    obtain ⟨s1, h1, hh, hcl, hf⟩ := hi.vacate hk' x.place
    refine ⟨{ s1 with cells := insertCell x s1.cells }, by simp only [Tree.step, h1, Option.map_some], ?_, ?_, ?_⟩
    · refine hh.congr (by rw [made_same (by simp)]) (now_same (by simp) (by simp)) (fun r hr => root_write w rfl ha hr)
        (fun r => by rw [ended_write rfl])
    · intro d
      show d ∈ insertCell x s1.cells ↔ _
      rw [mem_insertCell, hcl, List.mem_filter, holds_snoc, hi.cells]
      simp only [Call.at?, Option.some.injEq, Call.cell?, ne_eq, decide_not, Bool.not_eq_eq_eq_not, Bool.not_true,
        decide_eq_false_iff_not]
      by_cases e : x.place = d.place
      · rw [if_pos e]
        constructor
        · rintro (rfl | ⟨_, h⟩)
          · rfl
          · exact absurd e.symm h
        · intro h
          simp only [Option.some.injEq] at h
          exact .inl h.symm
      · rw [if_neg e]
        constructor
        · rintro (rfl | ⟨h, _⟩)
          · exact absurd rfl e
          · exact h
        · intro h
          exact .inr ⟨h, fun e' => e e'.symm⟩
    · refine sorted_insertCell ?_ ?_
      · rw [hcl]; exact hi.sorted.filter _
      · intro d hd
        rw [hcl, List.mem_filter] at hd
        simpa using hd.2
  | other pl =>
    obtain ⟨s1, h1, hh, hcl, hf⟩ := hi.vacate hk' pl
    refine ⟨s1, by simp only [Tree.step, h1], ?_, ?_, ?_⟩
    · refine hh.congr (by rw [made_same (by simp)]) (now_same (by simp) (by simp)) (fun r hr => root_write w rfl ha hr)
        (fun r => by rw [ended_write rfl])
    · intro d
      rw [hcl, List.mem_filter, holds_snoc, hi.cells]
      simp only [Call.at?, Option.some.injEq, Call.cell?, ne_eq, decide_not, Bool.not_eq_eq_eq_not, Bool.not_true,
        decide_eq_false_iff_not]
      by_cases e : pl = d.place
      · rw [if_pos e]
        constructor
        · rintro ⟨_, h⟩; exact absurd e.symm h
        · intro h; simp at h
      · rw [if_neg e]
        exact ⟨fun h => h.1, fun h => ⟨h, fun e' => e e'.symm⟩⟩
    · rw [hcl]; exact hi.sorted.filter _
  | drop n =>
    obtain ⟨H, hH, h1⟩ := hi.heap.destroy (r := n) (.inl ⟨ha.1, ha.2.1⟩) hk'
    refine ⟨{ s with heap := H }, by simp only [Tree.step, hH, Option.map_some], ?_, (hcells rfl rfl).1, (hcells rfl rfl).2⟩
    have hm : made (p ++ [.drop n]) = made p := made_same (by simp)
    refine h1.congr (by rw [hm]) (now_same (by simp) (by simp)) (fun r hr => ?_) (fun r => ?_)
    · have := root_other rfl hr hm (by simpa [Call.gives] using ha.2.1)
      exact ⟨this.1, by simpa [Call.gives] using this.2⟩
    · rw [ended_other rfl]
      simp only [Call.drop.injEq]
      exact ⟨fun h => h.imp id (fun e => e.symm), fun h => h.imp id (fun e => e.symm)⟩
  | save =>
    obtain ⟨f, hf⟩ := mapM_some (l := s.cells) (f := fun c => (cellH k s.heap c).map fun u => (c.place, u)) (by
      intro c hc
      obtain ⟨e, _, h⟩ := hi.heap.saved hk' (hi.root w hc)
      exact ⟨_, by simp only [h, Option.map_some]; rfl⟩)
    refine ⟨{ s with files := s.files ++ [f] }, by simp only [Tree.step, hf, Option.map_some], ?_, (hcells rfl rfl).1, (hcells rfl rfl).2⟩
    have hm : made (p ++ [.save]) = made p := made_same (by simp)
    exact hi.heap.congr (by rw [hm]) (now_same (by simp) (by simp)) (fun r h => (root_other rfl h hm (by simp [Call.gives])).1)
      (fun r => by rw [ended_other rfl]; simp)

theorem run_snoc {k : Nat} {p : List Call} {c : Call} {s : St} (h : run k p = some s) : run k (p ++ [c]) = step k s c := by
  unfold run at *
  simp [List.foldlM_append, h]

theorem Inv.start : Inv [] {} := by
  refine ⟨⟨rfl, ?_, ?_, ?_, ?_, ?_⟩, ?_, ?_⟩
  · intro n o h; simp [Heap.live] at h
  · rintro r (⟨h, _⟩ | ⟨pl, c, h, _⟩)
    · simp [made] at h
    · simp [holds] at h
  · rintro r r' l l' (⟨h, _⟩ | ⟨pl, c, h, _⟩)
    · simp [made] at h
    · simp [holds] at h
  · intro n h; simp [made] at h
  · exact ⟨by simp, fun n => by simp [made]⟩
  · intro c; simp [holds]
  · simp [Sorted]

theorem Good.run {p : List Call} (hg : Good p) {k : Nat} (hk : (made p).length ≤ k) : ∃ s, Tree.run k p = some s ∧ Inv p s := by
  induction hg with
  | nil => exact ⟨{}, rfl, Inv.start⟩
  | @snoc p c hg ha ih =>
    obtain ⟨s, hs, hi⟩ := ih (Nat.le_trans made_le hk)
    obtain ⟨s', hs', hi'⟩ := hi.step hg ha hk
    exact ⟨s', by rw [run_snoc hs]; exact hs', hi'⟩

end Xls.Tree
