import Verif.Tree.Props
/-
C74, the other way to use expressions: nothing is given away, and they are shared at will.  And programs of each kind.
-/
namespace Xls.Tree
open Xls.Biff Xls.Formula

structure KI (rank : Nat → Nat) (p : List Call) (s : St) : Prop where
  sem : Sem p s
  sorted : Sorted s.cells
  live : ∀ n, n < (made p).length → ∃ o, s.heap.live n = some o
  log : s.heap.log = []
  rank : ∀ a b, Kid p a b → rank b < rank a
  none : ∀ pl c, holds p pl = some c → c.auto = false

/-- Everything there is a tree. -/
theorem under_ranked {rank : Nat → Nat} {p : List Call} {s : St} (ki : KI rank p s) : ∀ (j n : Nat), rank n < j → n < (made p).length →
    ∃ l, under j s.heap n = some l := by
  intro j
  induction j with
  | zero => intro n h; omega
  | succ j ih =>
    intro n hr hn
    obtain ⟨o, ho⟩ := ki.live n hn
    have hnow := ki.sem.obj n o ho
    have hall : ∀ cs : List Nat, (∀ c ∈ cs, c ∈ o.made.kids) → ∃ l, all (under j s.heap) cs = some l := by
      intro cs
      induction cs with
      | nil => intro _; exact ⟨[], rfl⟩
      | cons c r ih' =>
        intro h
        have hk : Kid p n c := ⟨o.made, hnow, h c (by simp)⟩
        obtain ⟨x, hx⟩ := ih c (by have := ki.rank n c hk; omega) (ki.sem.kidlt n c hk)
        obtain ⟨y, hy⟩ := ih' (fun d hd => h d (by simp [hd]))
        exact ⟨x ++ y, all_cons.2 ⟨x, y, hx, hy, rfl⟩⟩
    obtain ⟨l, hl⟩ := hall o.made.kids.reverse (fun c hc => List.mem_reverse.1 hc)
    exact ⟨l ++ [n], under_succ.2 ⟨o, l, ho, hl, rfl⟩⟩

theorem KI.saved {rank : Nat → Nat} {p : List Call} {s : St} (ki : KI rank p s) {k : Nat} (hk : ∀ n, n < (made p).length → rank n < k)
    {c : Cell} (hc : c ∈ s.cells) : ∃ e, Is p c.root e ∧
      cellH k s.heap c = some (cellUnit (some c.place.1) c.place.2.1 c.place.2.2 c.xf c.array e) := by
  have hlt := ki.sem.root _ _ ((ki.sem.cells c).1 hc)
  obtain ⟨l, hu⟩ := under_ranked ki k c.root (hk _ hlt) hlt
  obtain ⟨e, he, hd, hest⟩ := dumped ki.sem.obj (some c.place.1) hu
  obtain ⟨o, ho⟩ := ki.live _ hlt
  refine ⟨e, ⟨k, he⟩, ?_⟩
  simp only [cellH, ho, Option.bind_some, hd, Option.map_some, cellUnit, hest o ho]

theorem KI.vacate {rank : Nat → Nat} {p : List Call} {s : St} (ki : KI rank p s) (k : Nat) (pl : Place) :
    ∃ s', Tree.vacate k s pl = some s' ∧ s'.heap = s.heap ∧ s'.cells = s.cells.filter (fun c => c.place ≠ pl) := by
  unfold Tree.vacate
  rw [find_holds ki.sem.cells]
  cases h : holds p pl with
  | none =>
    refine ⟨s, rfl, rfl, ?_⟩
    symm
    rw [List.filter_eq_self]
    intro c hc
    simp only [ne_eq, decide_not, Bool.not_eq_eq_eq_not, Bool.not_true, decide_eq_false_iff_not]
    intro e
    have := (ki.sem.cells c).1 hc
    rw [e, h] at this
    simp at this
  | some c =>
    have ha := ki.none pl c h
    refine ⟨{ s with cells := s.cells.filter fun c => c.place ≠ pl }, ?_, rfl, rfl⟩
    simp only [ha, Bool.false_eq_true, if_false]

theorem keeps_names {rank : Nat → Nat} {p : List Call} {c : Call} (h : Keeps rank p c) (hp : ∀ m, c = .make m → m.proper = true) : Names p c := by
  cases c with
  | make m => exact ⟨(h (hp m rfl)).1, fun k hk => ((h (hp m rfl)).2 k hk).1⟩
  | push a b => exact h.2.1
  | formula x => exact h.1
  | drop n => exact h.elim
  | other pl => trivial
  | save => trivial

theorem now_improper {p : List Call} {m : Made} (h : m.proper = false) (n : Nat) : now (p ++ [.make m]) n = now p n :=
  now_same (fun m' e => by simp only [Call.make.injEq] at e; subst e; exact h) (by simp) n

theorem KI.step {rank : Nat → Nat} {p : List Call} {s : St} (ki : KI rank p s) {c : Call} (hc : Keeps rank p c) {k : Nat}
    (hk : ∀ n, n < (made (p ++ [c])).length → rank n < k) : ∃ s', Tree.step k s c = some s' ∧ KI rank (p ++ [c]) s' := by
  have hk' : ∀ n, n < (made p).length → rank n < k := fun n h => hk n (Nat.lt_of_lt_of_le h made_le)
  have hnone : (∀ x, c ≠ .formula x) → ∀ pl d, holds (p ++ [c]) pl = some d → d.auto = false := by
    intro hx pl d hd
    rw [holds_snoc] at hd
    by_cases e : c.at? = some pl
    · rw [if_pos e] at hd
      cases c with
      | formula x => exact absurd rfl (hx x)
      | _ => simp [Call.cell?] at hd
    · rw [if_neg e] at hd
      exact ki.none pl d hd
  cases c with
  | make m =>
    by_cases hp : m.proper = true
    · obtain ⟨hl, hf⟩ := hc hp
      obtain ⟨room, hco⟩ := construct_proper hp hl
      have hs : Tree.step k s (.make m) = some { s with heap := { s.heap with objs := s.heap.objs ++ [some ⟨m, room⟩] } } := by
        simp only [Tree.step, hco]
      refine ⟨_, hs, ki.sem.step ⟨hl, fun x hx => (hf x hx).1⟩ hs, ki.sorted, ?_, ki.log, ?_, hnone (by simp)⟩
      · intro n hn
        show ∃ o, Heap.live { s.heap with objs := s.heap.objs ++ [some ⟨m, room⟩] } n = some o
        rw [append_live, ki.sem.len]
        by_cases e : n = (made p).length
        · rw [if_pos e]; exact ⟨_, rfl⟩
        · rw [if_neg e]
          rw [made_make hp, List.length_append] at hn
          simp only [List.length_singleton] at hn
          exact ki.live n (by omega)
      · rintro a b ⟨m', hm', hb⟩
        rw [now_make hp ki.sem.pushed] at hm'
        by_cases e : a = (made p).length
        · rw [if_pos e] at hm'
          simp only [Option.some.injEq] at hm'
          subst hm'
          rw [e]
          exact (hf b hb).2
        · rw [if_neg e] at hm'
          exact ki.rank a b ⟨m', hm', hb⟩
    · have hp : m.proper = false := by simpa using hp
      have hm : made (p ++ [.make m]) = made p := made_same (fun m' e => by simp only [Call.make.injEq] at e; subst e; exact hp)
      have hs : Tree.step k s (.make m) = some s := by simp only [Tree.step, construct_improper hp]
      have hend : ∀ r, Ended (p ++ [.make m]) r → Ended p r := fun r h => by
        rcases (ended_other rfl).1 h with h | h
        · exact h
        · simp at h
      have hh : ∀ pl, holds (p ++ [.make m]) pl = holds p pl := fun pl => by rw [holds_snoc, if_neg (by simp [Call.at?])]
      have hkid : ∀ a b, Kid (p ++ [.make m]) a b → Kid p a b := by
        rintro a b ⟨m', hm', hb⟩; exact ⟨m', by rw [← now_improper hp]; exact hm', hb⟩
      refine ⟨s, hs, ⟨fun a b h => by rw [hm]; exact ki.sem.kidlt a b (hkid a b h), ?_, by rw [hm]; exact ki.sem.len,
        fun n o h => by rw [now_improper hp]; exact ki.sem.obj n o h, fun d => by rw [hh]; exact ki.sem.cells d,
        fun r n hr hw => ki.sem.dead r n (hend r hr) ((within_congr (now_improper hp)).1 hw),
        fun r h => by rw [hm]; exact ki.sem.endlt r (hend r h), fun pl d h => by rw [hm]; rw [hh] at h; exact ki.sem.root pl d h⟩,
        ki.sorted, fun n hn => ki.live n (by rw [hm] at hn; exact hn), ki.log, fun a b h => ki.rank a b (hkid a b h), hnone (by simp)⟩
      intro x y hxy
      rw [hm]
      rcases List.mem_append.1 hxy with hxy | hxy
      · exact ki.sem.pushlt x y hxy
      · simp at hxy
  | push a b =>
    obtain ⟨⟨code, cls, args, hnow, hlen⟩, hlt, hr⟩ := hc
    obtain ⟨o, ho⟩ := ki.live a (now_lt hnow)
    have hom : o.made = .func true code cls args := by
      have := ki.sem.obj a o ho
      rw [hnow] at this
      exact (Option.some.inj this).symm
    obtain ⟨room, hg⟩ := grow_some (room := o.room) hlen
    have hs : Tree.step k s (.push a b) =
        some { s with heap := { s.heap with objs := s.heap.objs.set a (some ⟨.func true code cls (args ++ [b]), room⟩) } } := by
      simp only [Tree.step, Tree.push, ho, Option.bind_some, hom, hg, Option.map_some]
    have hm : made (p ++ [.push a b]) = made p := made_same (by simp)
    refine ⟨_, hs, ki.sem.step hlt hs, ki.sorted, ?_, ki.log, ?_, hnone (by simp)⟩
    · intro n hn
      rw [hm] at hn
      show ∃ o, Heap.live { s.heap with objs := s.heap.objs.set a (some ⟨.func true code cls (args ++ [b]), room⟩) } n = some o
      rw [set_live]
      by_cases e : a = n ∧ n < s.heap.objs.length
      · rw [if_pos e]; exact ⟨_, rfl⟩
      · rw [if_neg e]; exact ki.live n hn
    · rintro x y ⟨m, hm', hy⟩
      rw [now_push] at hm'
      by_cases e : a = x
      · rw [if_pos e] at hm'
        simp only [Option.map_eq_some_iff] at hm'
        obtain ⟨m0, h0, rfl⟩ := hm'
        rcases more_kids hy with hy | hy
        · exact ki.rank x y ⟨m0, h0, hy⟩
        · simp only [List.mem_singleton] at hy
          subst hy
          subst e
          exact hr
      · rw [if_neg e] at hm'
        exact ki.rank x y ⟨m, hm', hy⟩
  | formula x =>
    obtain ⟨s1, h1, hh, hcl⟩ := ki.vacate k x.place
    have hs : Tree.step k s (.formula x) = some { s1 with cells := insertCell x s1.cells } := by
      simp only [Tree.step, h1, Option.map_some]
    have hm : made (p ++ [.formula x]) = made p := made_same (by simp)
    refine ⟨_, hs, ki.sem.step hc.1 hs, ?_, ?_, ?_, ?_, ?_⟩
    · refine sorted_insertCell ?_ ?_
      · rw [hcl]; exact ki.sorted.filter _
      · intro d hd
        rw [hcl, List.mem_filter] at hd
        simpa using hd.2
    · intro n hn
      rw [hm] at hn
      show ∃ o, s1.heap.live n = some o
      rw [hh]; exact ki.live n hn
    · show s1.heap.log = []
      rw [hh]; exact ki.log
    · rintro a b ⟨m, hm', hb⟩
      rw [now_same (by simp) (by simp)] at hm'
      exact ki.rank a b ⟨m, hm', hb⟩
    · intro pl d hd
      rw [holds_snoc] at hd
      by_cases e : (Call.formula x).at? = some pl
      · rw [if_pos e] at hd
        simp only [Call.cell?, Option.some.injEq] at hd
        subst hd
        exact hc.2
      · rw [if_neg e] at hd
        exact ki.none pl d hd
  | other x =>
    obtain ⟨s1, h1, hh, hcl⟩ := ki.vacate k x
    have hs : Tree.step k s (.other x) = some s1 := by simp only [Tree.step, h1]
    have hm : made (p ++ [.other x]) = made p := made_same (by simp)
    refine ⟨_, hs, ki.sem.step trivial hs, ?_, ?_, ?_, ?_, hnone (by simp)⟩
    · rw [hcl]; exact ki.sorted.filter _
    · intro n hn
      rw [hm] at hn
      rw [hh]; exact ki.live n hn
    · rw [hh]; exact ki.log
    · rintro a b ⟨m, hm', hb⟩
      rw [now_same (by simp) (by simp)] at hm'
      exact ki.rank a b ⟨m, hm', hb⟩
  | drop n => exact hc.elim
  | save =>
    obtain ⟨f, hf⟩ := mapM_some (l := s.cells) (f := fun c => (cellH k s.heap c).map fun u => (c.place, u)) (by
      intro c hc
      obtain ⟨e, _, h⟩ := ki.saved hk' hc
      exact ⟨_, by simp only [h, Option.map_some]; rfl⟩)
    have hs : Tree.step k s .save = some { s with files := s.files ++ [f] } := by simp only [Tree.step, hf, Option.map_some]
    have hm : made (p ++ [.save]) = made p := made_same (by simp)
    refine ⟨_, hs, ki.sem.step trivial hs, ki.sorted, fun n hn => ki.live n (by rw [hm] at hn; exact hn), ki.log, ?_, hnone (by simp)⟩
    rintro a b ⟨m, hm', hb⟩
    rw [now_same (by simp) (by simp)] at hm'
    exact ki.rank a b ⟨m, hm', hb⟩

theorem Kept.run {rank : Nat → Nat} {p : List Call} (h : Kept rank p) {k : Nat} (hk : ∀ n, n < (made p).length → rank n < k) :
    ∃ s, Tree.run k p = some s ∧ KI rank p s := by
  induction h with
  | nil =>
    refine ⟨{}, rfl, Sem.start, by simp [Sorted], fun n h => by simp [made] at h, rfl, ?_, fun pl c h => by simp [holds] at h⟩
    rintro a b ⟨m, hm, _⟩; simp [now, made] at hm
  | @snoc p c _ hc ih =>
    obtain ⟨s, hs, ki⟩ := ih (fun n h => hk n (Nat.lt_of_lt_of_le h made_le))
    obtain ⟨s', hs', ki'⟩ := ki.step hc hk
    exact ⟨s', by rw [run_snoc hs]; exact hs', ki'⟩

/-- C74 for programs that give nothing away: expressions may be shared between formulas and within one at will, as long as none is
    a part of itself.  Nothing goes wrong, each save writes the expressions, and none is ever destroyed. -/
theorem c74_kept_partial {rank : Nat → Nat} {p : List Call} (h : Kept rank p) {k : Nat} (hk : ∀ n, n < (made p).length → rank n < k) :
    ∃ s s' f H, run k p = some s ∧ run k (p ++ [.save]) = some s' ∧ s'.files = s.files ++ [f] ∧ Wrote p f ∧
      finish k s' = some H ∧ H.log = [] ∧ ∀ n, n < (made p).length → ∃ o, H.live n = some o := by
  obtain ⟨s, hs, ki⟩ := h.run hk
  have hm : made (p ++ [.save]) = made p := made_same (by simp)
  obtain ⟨s', hs', ki'⟩ := ki.step (c := .save) trivial (by rw [hm]; exact hk)
  obtain ⟨f, hf, hw⟩ := wrote ki.sem.cells ki.sorted (fun c hc => ki.saved hk hc) hs'
  refine ⟨s, s', f, s'.heap, hs, by rw [run_snoc hs]; exact hs', hf, hw, ?_, ki'.log, fun n hn => ki'.live n (by rw [hm]; exact hn)⟩
  have : s'.cells.filter (·.auto) = [] := by
    rw [List.filter_eq_nil_iff]
    intro c hc
    simp [ki'.none _ _ ((ki'.sem.cells c).1 hc)]
  simp [finish, this]

/-- A cell is filled with `SUM(A1)`, which is given a second argument later; after a save it is written over. -/
def sampleGood : List Call :=
  [.make (.ref 0 0 none 0xC000 0x40), .make (.func true 4 0 [0]), .formula { place := (0, 2, 2), root := 1, auto := true },
   .make (.int 7), .push 1 2, .save, .make (.text [72, 105]), .formula { place := (0, 3, 3), root := 3 },
   .formula { place := (1, 3, 3), root := 3 }, .other (0, 2, 2), .save]

theorem free_of {p : List Call} {n : Nat} (h : n < (made p).length)
    (hc : ∀ c ∈ p, n ∉ c.gives ∧ match c with | .formula c => c.auto = true ∨ c.root ≠ n | _ => True) : Free p n := by
  refine ⟨h, ?_, ?_⟩
  · rintro ⟨c, hm, hn⟩; exact (hc c hm).1 hn
  · rintro ⟨pl, c, hh, ha, hr⟩
    have := (hc _ (holds_mem hh).1).2
    simp only at this
    rcases this with h | h
    · rw [h] at ha; simp at ha
    · exact h hr

theorem not_ended {p : List Call} {r : Nat} (h1 : ∀ c ∈ p, ∀ n, c ≠ .drop n) (h2 : (p.filter fun c => c.at?.isSome).length ≤ 1) : ¬ Ended p r := by
  rintro (h | ⟨a, c, b, rfl, _, _, d, hd, he⟩)
  · exact h1 _ h r rfl
  · rw [List.filter_append, List.filter_cons_of_pos (by simp [Call.at?])] at h2
    have : d ∈ b.filter fun c => c.at?.isSome := List.mem_filter.2 ⟨hd, by simp [he]⟩
    have := List.length_pos_of_mem this
    simp only [List.length_append, List.length_cons] at h2
    omega

theorem sampleGood_good : Good sampleGood := by
  have g0 : Good [] := .nil
  have g1 := g0.snoc (c := .make (.ref 0 0 none 0xC000 0x40)) (fun _ => by simp [Made.kids])
  have g2 := g1.snoc (c := .make (.func true 4 0 [0])) (fun _ => by
    refine ⟨by simp [Made.kids], by simp [Made.kids], fun k hk => ?_⟩
    simp only [Made.kids, List.mem_singleton] at hk
    subst hk
    exact free_of (by decide) (by simp [Call.gives, Made.kids]))
  have g3 := g2.snoc (c := .formula { place := (0, 2, 2), root := 1, auto := true }) (by
    have f : Free _ 1 := free_of (p := [] ++ [.make (.ref 0 0 none 0xC000 0x40)] ++ [.make (.func true 4 0 [0])]) (by decide)
      (by simp [Call.gives, Made.kids, Made.proper])
    exact ⟨f.1, f.2.1, fun _ => f.2.2⟩)
  have g4 := g3.snoc (c := .make (.int 7)) (fun _ => by simp [Made.kids])
  have g5 := g4.snoc (c := .push 1 2) (by
    refine ⟨⟨4, 0, [0], by decide, by decide⟩, fun r _ => not_ended (by simp) (by decide), free_of (by decide) ?_⟩
    simp [Call.gives, Made.kids, Made.proper])
  have g6 := g5.snoc (c := .save) trivial
  have g7 := g6.snoc (c := .make (.text [72, 105])) (fun _ => by simp [Made.kids])
  have g8 := g7.snoc (c := .formula { place := (0, 3, 3), root := 3 }) (by
    have f : Free _ 3 := free_of (p := [] ++ [.make (.ref 0 0 none 0xC000 0x40)] ++ [.make (.func true 4 0 [0])] ++
      [.formula { place := (0, 2, 2), root := 1, auto := true }] ++ [.make (.int 7)] ++ [.push 1 2] ++ [.save] ++ [.make (.text [72, 105])])
      (by decide) (by simp [Call.gives, Made.kids, Made.proper])
    exact ⟨f.1, f.2.1, by simp⟩)
  have g9 := g8.snoc (c := .formula { place := (1, 3, 3), root := 3 }) (by
    refine ⟨by decide, ?_, by simp⟩
    rintro ⟨c, hc, hn⟩
    simp only [List.nil_append, List.cons_append, List.mem_cons, List.not_mem_nil, or_false] at hc
    rcases hc with rfl | rfl | rfl | rfl | rfl | rfl | rfl | rfl <;> simp [Call.gives, Made.kids, Made.proper] at hn)
  exact (g9.snoc (c := .other (0, 2, 2)) trivial).snoc (c := .save) trivial

-- the objects are destroyed when the cell is written over, the text never
example : ∃ s H, run 4 sampleGood = some s ∧ finish 4 s = some H ∧ H.log = [2, 0, 1] ∧ H.live 3 = some ⟨.text [72, 105], 0⟩ :=
  ⟨_, _, rfl, rfl, rfl, rfl⟩
-- and the first save has the second argument
example : ∃ s f g, run 4 sampleGood = some s ∧ s.files = [f, g] ∧
    f = [((0, 2, 2), cellUnit (some 0) 2 2 15 false (.func 4 0 [.ref 0 0 none 0xC000 0x40, .int 7]))] ∧ g.length = 2 :=
  ⟨_, _, _, rfl, rfl, by decide +kernel, rfl⟩
example : (∃ r, Owned sampleGood r ∧ Within sampleGood r 2) := by
  refine ⟨1, .inr ⟨{ place := (0, 2, 2), root := 1, auto := true }, by decide, rfl, rfl⟩, .kid .self ⟨.func true 4 0 [0, 2], by decide, by decide⟩⟩

/-- Two cells are given the same expression. -/
def sampleShared : List Call :=
  [.make (.int 1), .formula { place := (0, 0, 0), root := 0, auto := true }, .formula { place := (0, 1, 0), root := 0, auto := true }]

theorem sampleShared_known : Known sampleShared :=
  ((Known.nil.snoc (c := .make (.int 1)) ⟨by decide, by simp [Made.kids]⟩).snoc
    (c := .formula { place := (0, 0, 0), root := 0, auto := true }) (by simp [Names, made, Made.proper])).snoc
    (c := .formula { place := (0, 1, 0), root := 0, auto := true }) (by simp [Names, made, Made.proper])

example : ∃ s, run 9 sampleShared = some s ∧ ∀ k, finish k s = none :=
  ⟨_, rfl, fun k => c74_shared sampleShared_known (s := _) (k := 9) rfl (pl := (0, 0, 0)) (pl' := (0, 1, 0)) rfl rfl (by decide) rfl rfl
    .self .self k⟩

/-- `A1 + A1`, from one object. -/
def sampleTwice : List Call :=
  [.make (.ref 0 0 none 0xC000 0x40), .make (.bin 3 0 0), .formula { place := (0, 1, 0), root := 1, auto := true }]

theorem sampleTwice_known : Known sampleTwice :=
  ((Known.nil.snoc (c := .make (.ref 0 0 none 0xC000 0x40)) ⟨by decide, by simp [Made.kids]⟩).snoc
    (c := .make (.bin 3 0 0)) ⟨by decide, by simp [Made.kids, made, Made.proper]⟩).snoc
    (c := .formula { place := (0, 1, 0), root := 1, auto := true }) (by simp [Names, made, Made.proper])

example : ∃ s, run 9 sampleTwice = some s ∧ ∀ k, finish k s = none :=
  ⟨_, rfl, fun k => c74_twice sampleTwice_known (s := _) (k := 9) rfl (pl := (0, 1, 0)) (c := { place := (0, 1, 0), root := 1, auto := true })
    rfl rfl .self (m := .bin 3 0 0) rfl (by decide) k⟩

/-- An expression lent to one cell and given to another, which is written over. -/
def sampleAfter : List Call :=
  [.make (.int 1), .formula { place := (0, 0, 0), root := 0 }, .formula { place := (0, 1, 0), root := 0, auto := true }, .other (0, 1, 0)]

theorem sampleAfter_known : Known sampleAfter :=
  (((Known.nil.snoc (c := .make (.int 1)) ⟨by decide, by simp [Made.kids]⟩).snoc
    (c := .formula { place := (0, 0, 0), root := 0 }) (by simp [Names, made, Made.proper])).snoc
    (c := .formula { place := (0, 1, 0), root := 0, auto := true }) (by simp [Names, made, Made.proper])).snoc (c := .other (0, 1, 0)) trivial

example : ∃ s, run 9 sampleAfter = some s ∧ ∀ k, step k s .save = none :=
  ⟨_, rfl, fun k => c74_read_after sampleAfter_known (s := _) (k := 9) rfl (pl := (0, 0, 0)) (c := { place := (0, 0, 0), root := 0 }) rfl .self
    (r := 0) (.inr ⟨_, { place := (0, 1, 0), root := 0, auto := true }, [.other (0, 1, 0)], by
      rw [sampleAfter, show ∀ (a b c d : Call), [a, b, c, d] = [a, b] ++ c :: [d] from fun _ _ _ _ => rfl], rfl, rfl, .other (0, 1, 0), by simp, rfl⟩) .self k⟩

/-- A function that is its own argument. -/
def sampleSelf : List Call := [.make (.func true 4 0 []), .push 0 0, .formula { place := (0, 0, 0), root := 0, auto := true }]

theorem sampleSelf_known : Known sampleSelf :=
  ((Known.nil.snoc (c := .make (.func true 4 0 [])) ⟨by decide, by simp [Made.kids]⟩).snoc
    (c := .push 0 0) (by simp [Names, made, Made.proper])).snoc
    (c := .formula { place := (0, 0, 0), root := 0, auto := true }) (by simp [Names, made, Made.proper])

example : ∃ s, run 9 sampleSelf = some s ∧ ∀ k, step k s .save = none ∧ finish k s = none :=
  ⟨_, rfl, fun k =>
    have h := c74_part_of_itself sampleSelf_known (s := _) (k := 9) rfl (pl := (0, 0, 0)) (c := { place := (0, 0, 0), root := 0, auto := true })
      rfl (a := 0) (b := 0) .self ⟨.func true 4 0 [0], rfl, by decide⟩ .self k
    ⟨h.1, h.2 rfl⟩⟩

/-- `A1 + A1` from one object, in two cells, nothing given away. -/
def sampleKept : List Call :=
  [.make (.ref 0 0 none 0xC000 0x40), .make (.bin 3 0 0), .formula { place := (0, 1, 0), root := 1 },
   .formula { place := (0, 2, 0), root := 1 }]

example : Kept id sampleKept :=
  (((Kept.nil.snoc (c := .make (.ref 0 0 none 0xC000 0x40)) (fun _ => by simp [Made.kids])).snoc
    (c := .make (.bin 3 0 0)) (fun _ => by simp [Made.kids, made, Made.proper])).snoc
    (c := .formula { place := (0, 1, 0), root := 1 }) (by simp [Keeps, made, Made.proper])).snoc
    (c := .formula { place := (0, 2, 0), root := 1 }) (by simp [Keeps, made, Made.proper])

end Xls.Tree
