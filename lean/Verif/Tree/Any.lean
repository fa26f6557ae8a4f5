import Verif.Tree.Steps
/-
Any program that names only what it made, while it goes well.
-/
namespace Xls.Tree
open Xls.Biff Xls.Formula

theorem within_mem {p : List Call} {H : Heap} (obj : ∀ n o, H.live n = some o → now p n = some o.made) {r n : Nat} {l : List Nat}
    (h : Under H r l) (w : Within p r n) : n ∈ l := by
  induction w with
  | self => exact h.self
  | @kid a b _ hk ih =>
    obtain ⟨o, ho⟩ := h.live ih
    obtain ⟨m, hm, hb⟩ := hk
    rw [obj a o ho] at hm
    simp only [Option.some.injEq] at hm
    subst hm
    obtain ⟨k, h⟩ := h
    exact under_closed h ih ho hb

structure Sem (p : List Call) (s : St) : Prop where
  kidlt : ∀ a b, Kid p a b → b < (made p).length
  pushlt : ∀ h k, .push h k ∈ p → h < (made p).length
  len : s.heap.objs.length = (made p).length
  obj : ∀ n o, s.heap.live n = some o → now p n = some o.made
  cells : ∀ c, c ∈ s.cells ↔ holds p c.place = some c
  dead : ∀ r n, Ended p r → Within p r n → s.heap.live n = none
  endlt : ∀ r, Ended p r → r < (made p).length
  root : ∀ pl c, holds p pl = some c → c.root < (made p).length

theorem Sem.pushed {p : List Call} {s : St} (w : Sem p s) : pushed p (made p).length = [] := by
  simp only [Tree.pushed, List.filterMap_eq_nil_iff]
  intro c hc
  cases c with
  | push h k =>
    have := w.pushlt h k hc
    simp only
    rw [if_neg (by omega)]
  | _ => rfl

theorem find_holds {p : List Call} {cells : List Cell} (hc : ∀ c, c ∈ cells ↔ holds p c.place = some c) (pl : Place) :
    cells.find? (fun c => c.place = pl) = holds p pl := by
  cases h : cells.find? (fun c => c.place = pl) with
  | some c =>
    have h1 := List.mem_of_find?_eq_some h
    have h2 := List.find?_some h
    simp only [decide_eq_true_eq] at h2
    rw [← h2]
    exact ((hc c).1 h1).symm
  | none =>
    cases h' : holds p pl with
    | none => rfl
    | some c =>
      have hp := (holds_mem h').2
      have hm := (hc c).2 (by rw [hp]; exact h')
      have := List.find?_eq_none.1 h c hm
      simp [hp] at this

theorem Sem.vacate {p : List Call} {s s' : St} (w : Sem p s) {k : Nat} {pl : Place} (h : Tree.vacate k s pl = some s') :
    s'.heap.objs.length = s.heap.objs.length ∧ (∀ n o, s'.heap.live n = some o → s.heap.live n = some o) ∧
    (∀ c, c ∈ s'.cells ↔ c ∈ s.cells ∧ c.place ≠ pl) ∧ (∀ r n, Lost p pl r → Within p r n → s'.heap.live n = none) := by
  unfold Tree.vacate at h
  rw [find_holds w.cells] at h
  cases hh : holds p pl with
  | none =>
    rw [hh] at h
    simp only [Option.some.injEq] at h
    subst h
    refine ⟨rfl, fun _ _ h => h, fun c => ⟨fun hc => ⟨hc, fun e => ?_⟩, fun h => h.1⟩, ?_⟩
    · have := (w.cells c).1 hc
      rw [e, hh] at this
      simp at this
    · rintro r n ⟨c, hc, _⟩
      rw [hh] at hc; simp at hc
  | some c =>
    rw [hh] at h
    by_cases ha : c.auto = true
    · simp only [ha, if_true, Option.map_eq_some_iff] at h
      obtain ⟨H, hH, rfl⟩ := h
      obtain ⟨l, hl, _, rfl⟩ := (destroy_iff _ _ _).1 hH
      refine ⟨kill_length, ?_, ?_, ?_⟩
      · intro n o h
        simp only [kill_live] at h
        by_cases hn : n ∈ l
        · rw [if_pos hn] at h; simp at h
        · rw [if_neg hn] at h; exact h
      · intro d; simp [List.mem_filter]
      · rintro r n ⟨d, hd, _, rfl⟩ hw
        rw [hh] at hd
        simp only [Option.some.injEq] at hd
        subst hd
        simp only [kill_live]
        rw [if_pos (within_mem w.obj ⟨k, hl⟩ hw)]
    · simp only [ha, if_false, Option.some.injEq, Bool.false_eq_true] at h
      subst h
      refine ⟨rfl, fun _ _ h => h, fun d => by simp [List.mem_filter], ?_⟩
      rintro r n ⟨d, hd, hd', _⟩
      rw [hh] at hd
      simp only [Option.some.injEq] at hd
      subst hd
      exact absurd hd' ha

theorem none_of_sub {H H' : Heap} (h : ∀ n o, H'.live n = some o → H.live n = some o) {n : Nat} (hn : H.live n = none) : H'.live n = none := by
  cases e : H'.live n with
  | none => rfl
  | some o => rw [h n o e] at hn; simp at hn

theorem Sem.step {p : List Call} {s s' : St} (w : Sem p s) {c : Call} (hc : Names p c) {k : Nat} (h : Tree.step k s c = some s') :
    Sem (p ++ [c]) s' := by
  have quiet : ∀ {c : Call}, (∀ m, c = .make m → m.proper = false) → (∀ h k, c ≠ .push h k) →
      (∀ a b, Kid (p ++ [c]) a b → b < (made (p ++ [c])).length) ∧ (∀ h k, .push h k ∈ p ++ [c] → h < (made (p ++ [c])).length) ∧
      made (p ++ [c]) = made p ∧ (∀ n, now (p ++ [c]) n = now p n) := by
    intro c h1 h2
    refine ⟨?_, ?_, made_same h1, now_same h1 h2⟩
    · rintro a b ⟨m, hm, hb⟩
      rw [now_same h1 h2] at hm
      rw [made_same h1]
      exact w.kidlt a b ⟨m, hm, hb⟩
    · intro x y hxy
      rw [made_same h1]
      rcases List.mem_append.1 hxy with hxy | hxy
      · exact w.pushlt x y hxy
      · simp only [List.mem_singleton] at hxy
        exact absurd hxy.symm (h2 x y)
  have still : ∀ {c : Call}, c.at? = none → (∀ d, d ∈ s.cells ↔ holds (p ++ [c]) d.place = some d) ∧
      (∀ pl d, holds (p ++ [c]) pl = some d → holds p pl = some d) := by
    intro c hc
    have : ∀ pl, holds (p ++ [c]) pl = holds p pl := fun pl => by rw [holds_snoc, if_neg (by rw [hc]; simp)]
    exact ⟨fun d => by rw [this]; exact w.cells d, fun pl d h => by rw [← this]; exact h⟩
  cases c with
  | make m =>
    by_cases hp : m.proper = true
    · obtain ⟨room, hco⟩ := construct_proper hp hc.1
      simp only [Tree.step, hco, Option.some.injEq] at h
      subst h
      have hln : ∀ n, n ≠ (made p).length → Heap.live { s.heap with objs := s.heap.objs ++ [some ⟨m, room⟩] } n = s.heap.live n := by
        intro n hne; rw [append_live, w.len, if_neg hne]
      have hend : ∀ r, Ended (p ++ [.make m]) r → Ended p r := fun r h => by
        rcases (ended_other rfl).1 h with h | h
        · exact h
        · simp at h
      have hkid : ∀ a b, Kid (p ++ [.make m]) a b → b < (made p).length := by
        rintro a b ⟨m', hm', hb⟩
        rw [now_make hp w.pushed] at hm'
        by_cases e : a = (made p).length
        · rw [if_pos e] at hm'
          simp only [Option.some.injEq] at hm'
          subst hm'
          exact hc.2 b hb
        · rw [if_neg e] at hm'
          exact w.kidlt a b ⟨m', hm', hb⟩
      have hle : (made p).length ≤ (made (p ++ [.make m])).length := made_le
      refine ⟨fun a b h => Nat.lt_of_lt_of_le (hkid a b h) hle, ?_, by simp [made_make hp, w.len], ?_, (still rfl).1, ?_,
        fun r h => Nat.lt_of_lt_of_le (w.endlt r (hend r h)) hle, fun pl d h => Nat.lt_of_lt_of_le (w.root pl d ((still rfl).2 pl d h)) hle⟩
      · intro x y hxy
        rcases List.mem_append.1 hxy with hxy | hxy
        · exact Nat.lt_of_lt_of_le (w.pushlt x y hxy) hle
        · simp at hxy
      · intro n o hn
        simp only at hn
        rw [now_make hp w.pushed]
        by_cases e : n = (made p).length
        · rw [if_pos e]
          rw [append_live, w.len, if_pos e] at hn
          simp only [Option.some.injEq] at hn
          subst hn
          rfl
        · rw [if_neg e]
          rw [hln n e] at hn
          exact w.obj n o hn
      · intro r n hr hw
        have hr := hend r hr
        have : n < (made p).length ∧ Within p r n := by
          induction hw with
          | self => exact ⟨w.endlt r hr, .self⟩
          | @kid a b _ hk ih =>
            refine ⟨hkid a b hk, .kid ih.2 ?_⟩
            obtain ⟨m', hm', hb⟩ := hk
            rw [now_make hp w.pushed, if_neg (by omega)] at hm'
            exact ⟨m', hm', hb⟩
        show Heap.live { s.heap with objs := s.heap.objs ++ [some ⟨m, room⟩] } n = none
        rw [hln n (by omega)]
        exact w.dead r n hr this.2
    · have hp : m.proper = false := by simpa using hp
      simp only [Tree.step, construct_improper hp, Option.some.injEq] at h
      subst h
      obtain ⟨h1, h2, h3, h4⟩ := quiet (c := .make m) (fun m' e => by simp only [Call.make.injEq] at e; subst e; exact hp) (by simp)
      have hend : ∀ r, Ended (p ++ [.make m]) r → Ended p r := fun r h => by
        rcases (ended_other rfl).1 h with h | h
        · exact h
        · simp at h
      exact ⟨h1, h2, by rw [h3]; exact w.len, fun n o h => by rw [h4]; exact w.obj n o h, (still rfl).1,
        fun r n hr hw => w.dead r n (hend r hr) ((within_congr h4).1 hw), fun r h => by rw [h3]; exact w.endlt r (hend r h),
        fun pl d h => by rw [h3]; exact w.root pl d ((still rfl).2 pl d h)⟩
  | push a b =>
    simp only [Tree.step, Option.map_eq_some_iff] at h
    obtain ⟨H, hH, rfl⟩ := h
    simp only [Tree.push, Option.bind_eq_some_iff] at hH
    obtain ⟨o, ho, hH⟩ := hH
    have hnow := w.obj a o ho
    have hm : made (p ++ [.push a b]) = made p := made_same (by simp)
    have halt : a < (made p).length := now_lt hnow
    have hend : ∀ r, Ended (p ++ [.push a b]) r → Ended p r := fun r h => by
      rcases (ended_other rfl).1 h with h | h
      · exact h
      · simp at h
    generalize hom : o.made = om at hH
    cases om with
    | func nary code cls args =>
      cases nary with
      | false => simp at hH
      | true =>
        simp only [Option.map_eq_some_iff] at hH
        obtain ⟨room, hg, rfl⟩ := hH
        have hset : ∀ n, Heap.live { s.heap with objs := s.heap.objs.set a (some ⟨.func true code cls (args ++ [b]), room⟩) } n =
            if a = n then some ⟨.func true code cls (args ++ [b]), room⟩ else s.heap.live n := by
          intro n
          rw [set_live, w.len]
          by_cases e : a = n
          · rw [if_pos ⟨e, by omega⟩, if_pos e]
          · rw [if_neg (fun h => e h.1), if_neg e]
        refine ⟨?_, ?_, by simp [hm, w.len], ?_, (still rfl).1, ?_, fun r h => by rw [hm]; exact w.endlt r (hend r h),
          fun pl d h => by rw [hm]; exact w.root pl d ((still rfl).2 pl d h)⟩
        · rintro x y ⟨m, hm', hy⟩
          rw [hm]
          rw [now_push] at hm'
          by_cases e : a = x
          · rw [if_pos e] at hm'
            simp only [Option.map_eq_some_iff] at hm'
            obtain ⟨m0, h0, rfl⟩ := hm'
            rcases more_kids hy with hy | hy
            · exact w.kidlt x y ⟨m0, h0, hy⟩
            · simp only [List.mem_singleton] at hy
              subst hy
              exact hc
          · rw [if_neg e] at hm'
            exact w.kidlt x y ⟨m, hm', hy⟩
        · intro x y hxy
          rw [hm]
          rcases List.mem_append.1 hxy with hxy | hxy
          · exact w.pushlt x y hxy
          · simp only [List.mem_singleton, Call.push.injEq] at hxy
            rw [hxy.1]; exact halt
        · intro n o' hn
          simp only [hset] at hn
          rw [now_push]
          by_cases e : a = n
          · subst e
            rw [if_pos rfl] at hn ⊢
            simp only [Option.some.injEq] at hn
            subst hn
            rw [hnow, hom]
            simp [Made.more]
          · rw [if_neg e] at hn ⊢
            exact w.obj n o' hn
        · intro r n hr hw
          have hr := hend r hr
          have hw' : Within p r n := by
            induction hw with
            | self => exact .self
            | @kid x y _ hk ih =>
              refine .kid ih ?_
              obtain ⟨m, hm', hy⟩ := hk
              rw [now_push] at hm'
              by_cases e : a = x
              · subst e
                have := w.dead r a hr ih
                rw [ho] at this
                simp at this
              · rw [if_neg e] at hm'
                exact ⟨m, hm', hy⟩
          have hd := w.dead r n hr hw'
          show Heap.live { s.heap with objs := s.heap.objs.set a (some ⟨.func true code cls (args ++ [b]), room⟩) } n = none
          rw [hset, if_neg (fun e => by subst e; rw [ho] at hd; simp at hd)]
          exact hd
    | _ => simp at hH
  | formula x =>
    simp only [Tree.step, Option.map_eq_some_iff] at h
    obtain ⟨s1, hs1, rfl⟩ := h
    obtain ⟨v1, v2, v3, v4⟩ := w.vacate hs1
    obtain ⟨h1, h2, h3, h4⟩ := quiet (c := .formula x) (by simp) (by simp)
    refine ⟨h1, h2, by rw [h3, ← w.len]; exact v1, fun n o h => by rw [h4]; exact w.obj n o (v2 n o h), ?_, ?_, ?_, ?_⟩
    · intro d
      show d ∈ insertCell x s1.cells ↔ _
      rw [mem_insertCell, v3, holds_snoc, w.cells]
      simp only [Call.at?, Option.some.injEq, Call.cell?]
      by_cases e : x.place = d.place
      · rw [if_pos e]
        constructor
        · rintro (rfl | ⟨_, h⟩)
          · rfl
          · exact absurd e.symm h
        · intro h
          simp only [Option.some.injEq] at h
          exact .inl h.symm
      · rw [if_neg e]
        constructor
        · rintro (rfl | ⟨h, _⟩)
          · exact absurd rfl e
          · exact h
        · intro h
          exact .inr ⟨h, fun e' => e e'.symm⟩
    · intro r n hr hw
      have hw := (within_congr h4).1 hw
      rcases (ended_write (c := .formula x) rfl).1 hr with hr | hr
      · exact none_of_sub v2 (w.dead r n hr hw)
      · exact v4 r n hr hw
    · intro r hr
      rw [h3]
      rcases (ended_write (c := .formula x) rfl).1 hr with hr | ⟨d, hd, _, rfl⟩
      · exact w.endlt r hr
      · exact w.root _ _ hd
    · intro pl d hd
      rw [h3]
      rw [holds_snoc] at hd
      by_cases e : (Call.formula x).at? = some pl
      · rw [if_pos e] at hd
        simp only [Call.cell?, Option.some.injEq] at hd
        subst hd
        exact hc
      · rw [if_neg e] at hd
        exact w.root pl d hd
  | other x =>
    simp only [Tree.step] at h
    obtain ⟨v1, v2, v3, v4⟩ := w.vacate h
    obtain ⟨h1, h2, h3, h4⟩ := quiet (c := .other x) (by simp) (by simp)
    refine ⟨h1, h2, by rw [h3, ← w.len]; exact v1, fun n o h => by rw [h4]; exact w.obj n o (v2 n o h), ?_, ?_, ?_, ?_⟩
    · intro d
      rw [v3, holds_snoc, w.cells]
      simp only [Call.at?, Option.some.injEq, Call.cell?]
      by_cases e : x = d.place
      · rw [if_pos e]
        constructor
        · rintro ⟨_, h⟩; exact absurd e.symm h
        · intro h; simp at h
      · rw [if_neg e]
        exact ⟨fun h => h.1, fun h => ⟨h, fun e' => e e'.symm⟩⟩
    · intro r n hr hw
      have hw := (within_congr h4).1 hw
      rcases (ended_write (c := .other x) rfl).1 hr with hr | hr
      · exact none_of_sub v2 (w.dead r n hr hw)
      · exact v4 r n hr hw
    · intro r hr
      rw [h3]
      rcases (ended_write (c := .other x) rfl).1 hr with hr | ⟨d, hd, _, rfl⟩
      · exact w.endlt r hr
      · exact w.root _ _ hd
    · intro pl d hd
      rw [h3]
      rw [holds_snoc] at hd
      by_cases e : (Call.other x).at? = some pl
      · rw [if_pos e] at hd
        simp [Call.cell?] at hd
      · rw [if_neg e] at hd
        exact w.root pl d hd
  | drop n =>
    simp only [Tree.step, Option.map_eq_some_iff] at h
    obtain ⟨H, hH, rfl⟩ := h
    obtain ⟨l, hl, _, rfl⟩ := (destroy_iff _ _ _).1 hH
    obtain ⟨h1, h2, h3, h4⟩ := quiet (c := .drop n) (by simp) (by simp)
    have hsub : ∀ m o, (kill l s.heap).live m = some o → s.heap.live m = some o := by
      intro m o h
      rw [kill_live] at h
      by_cases hm : m ∈ l
      · rw [if_pos hm] at h; simp at h
      · rw [if_neg hm] at h; exact h
    refine ⟨h1, h2, by rw [h3, ← w.len]; exact kill_length, fun m o h => by rw [h4]; exact w.obj m o (hsub m o h), (still rfl).1, ?_, ?_,
      fun pl d h => by rw [h3]; exact w.root pl d ((still rfl).2 pl d h)⟩
    · intro r m hr hw
      have hw := (within_congr h4).1 hw
      rcases (ended_other rfl).1 hr with hr | hr
      · exact none_of_sub hsub (w.dead r m hr hw)
      · simp only [Call.drop.injEq] at hr
        subst hr
        show (kill l s.heap).live m = none
        rw [kill_live, if_pos (within_mem w.obj ⟨k, hl⟩ hw)]
    · intro r hr
      rw [h3]
      rcases (ended_other rfl).1 hr with hr | hr
      · exact w.endlt r hr
      · simp only [Call.drop.injEq] at hr
        subst hr
        exact hc
  | save =>
    simp only [Tree.step, Option.map_eq_some_iff] at h
    obtain ⟨f, _, rfl⟩ := h
    obtain ⟨h1, h2, h3, h4⟩ := quiet (c := .save) (by simp) (by simp)
    have hend : ∀ r, Ended (p ++ [.save]) r → Ended p r := fun r h => by
      rcases (ended_other rfl).1 h with h | h
      · exact h
      · simp at h
    exact ⟨h1, h2, by rw [h3]; exact w.len, fun n o h => by rw [h4]; exact w.obj n o h, (still rfl).1,
      fun r n hr hw => w.dead r n (hend r hr) ((within_congr h4).1 hw), fun r h => by rw [h3]; exact w.endlt r (hend r h),
      fun pl d h => by rw [h3]; exact w.root pl d ((still rfl).2 pl d h)⟩

theorem Sem.start : Sem [] {} := by
  refine ⟨?_, by simp, rfl, ?_, ?_, ?_, ?_, ?_⟩
  · rintro a b ⟨m, hm, _⟩; simp [now, made] at hm
  · intro n o h; simp [Heap.live] at h
  · intro c; simp [holds]
  · rintro r n (h | ⟨a, c, b, h, _⟩)
    · simp at h
    · simp at h
  · rintro r (h | ⟨a, c, b, h, _⟩)
    · simp at h
    · simp at h
  · intro pl c h; simp [holds] at h

theorem Known.sem {p : List Call} (hp : Known p) {k : Nat} {s : St} (h : run k p = some s) : Sem p s := by
  induction hp generalizing s with
  | nil =>
    simp only [run, List.foldlM_nil, Option.pure_def, Option.some.injEq] at h
    subst h
    exact Sem.start
  | @snoc p c _ hn ih =>
    unfold run at h
    simp only [List.foldlM_append, List.foldlM_cons, List.foldlM_nil, Option.bind_eq_bind, Option.bind_eq_some_iff, Option.pure_def,
      Option.some.injEq] at h
    obtain ⟨s0, h0, s1, h1, rfl⟩ := h
    exact (ih h0).step hn h1

end Xls.Tree
