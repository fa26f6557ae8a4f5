import Verif.Tree.Spec
import Verif.Tree.Heap
import Mathlib.Data.List.Induction
/-
What the calls so far say, and how one more call changes it.
-/
namespace Xls.Tree
open Xls.Biff Xls.Formula

theorem made_make {p : List Call} {m : Made} (h : m.proper = true) : made (p ++ [.make m]) = made p ++ [m] := by
  simp [made, h]

theorem made_same {p : List Call} {c : Call} (h : ∀ m, c = .make m → m.proper = false) : made (p ++ [c]) = made p := by
  cases c with
  | make m => simp [made, h m rfl]
  | _ => simp [made]

theorem made_le {p : List Call} {c : Call} : (made p).length ≤ (made (p ++ [c])).length := by
  simp [made]

theorem pushed_snoc {p : List Call} {h k n : Nat} :
    pushed (p ++ [.push h k]) n = if h = n then pushed p n ++ [k] else pushed p n := by
  by_cases e : h = n <;> simp [pushed, e]

theorem pushed_same {p : List Call} {c : Call} {n : Nat} (h : ∀ h k, c ≠ .push h k) : pushed (p ++ [c]) n = pushed p n := by
  cases c with
  | push a b => exact absurd rfl (h a b)
  | _ => simp [pushed]

theorem more_more (m : Made) (a b : List Nat) : (m.more a).more b = m.more (a ++ b) := by
  cases m <;> simp [Made.more]

theorem more_nil (m : Made) : m.more [] = m := by
  cases m <;> simp [Made.more]

theorem now_same {p : List Call} {c : Call} (h : ∀ m, c = .make m → m.proper = false) (hp : ∀ h k, c ≠ .push h k) (n : Nat) :
    now (p ++ [c]) n = now p n := by
  simp only [now, made_same h, pushed_same hp]

theorem now_push {p : List Call} {h k : Nat} (n : Nat) :
    now (p ++ [.push h k]) n = if h = n then (now p n).map (·.more [k]) else now p n := by
  have hm : made (p ++ [.push h k]) = made p := made_same (by simp)
  by_cases e : h = n
  · rw [if_pos e]
    simp only [now, hm, pushed_snoc, if_pos e, Option.map_map]
    congr 1
    funext m
    simp [more_more]
  · simp only [now, hm, pushed_snoc, if_neg e]

theorem now_make {p : List Call} {m : Made} (h : m.proper = true) (hp : pushed p (made p).length = []) (n : Nat) :
    now (p ++ [.make m]) n = if n = (made p).length then some m else now p n := by
  simp only [now, made_make h, pushed_same (c := .make m) (by simp)]
  by_cases e : n = (made p).length
  · subst e
    simp [hp, more_nil]
  · rw [if_neg e]
    rcases Nat.lt_or_ge n (made p).length with hl | hl
    · rw [List.getElem?_append_left hl]
    · rw [List.getElem?_eq_none (by simp; omega), List.getElem?_eq_none hl]

theorem now_lt {p : List Call} {n : Nat} {m : Made} (h : now p n = some m) : n < (made p).length := by
  simp only [now, Option.map_eq_some_iff] at h
  obtain ⟨x, hx, _⟩ := h
  exact (List.getElem?_eq_some_iff.1 hx).1

theorem now_some {p : List Call} {n : Nat} (h : n < (made p).length) : ∃ m, now p n = some m := by
  simp only [now, List.getElem?_eq_getElem h, Option.map_some]
  exact ⟨_, rfl⟩

theorem given_snoc {p : List Call} {c : Call} {n : Nat} : Given (p ++ [c]) n ↔ Given p n ∨ n ∈ c.gives := by
  simp only [Given, List.mem_append, List.mem_singleton]
  constructor
  · rintro ⟨d, hd | rfl, hn⟩
    · exact .inl ⟨d, hd, hn⟩
    · exact .inr hn
  · rintro (⟨d, hd, hn⟩ | hn)
    · exact ⟨d, .inl hd, hn⟩
    · exact ⟨c, .inr rfl, hn⟩

theorem holds_snoc {p : List Call} {c : Call} {pl : Place} :
    holds (p ++ [c]) pl = if c.at? = some pl then c.cell? else holds p pl := by
  unfold holds
  rw [List.filter_append]
  by_cases h : c.at? = some pl
  · simp [h]
  · simp [h]

theorem holds_mem {p : List Call} {pl : Place} {c : Cell} (h : holds p pl = some c) : .formula c ∈ p ∧ c.place = pl := by
  simp only [holds, Option.bind_eq_some_iff] at h
  obtain ⟨d, hd, hc⟩ := h
  have hm := List.mem_filter.1 (List.mem_of_getLast? hd)
  cases d with
  | formula x =>
    simp only [Call.cell?, Option.some.injEq] at hc
    subst hc
    exact ⟨hm.1, by simpa [Call.at?] using hm.2⟩
  | _ => simp [Call.cell?] at hc

/-- A formula cell written and not written over is there. -/
theorem holds_of {a b : List Call} {c : Cell} (h : ∀ d ∈ b, d.at? ≠ some c.place) :
    holds (a ++ .formula c :: b) c.place = some c := by
  unfold holds
  have hb : b.filter (fun d => d.at? = some c.place) = [] := by
    rw [List.filter_eq_nil_iff]
    intro d hd
    simpa using h d hd
  rw [List.filter_append, List.filter_cons, hb]
  simp [Call.at?, Call.cell?]

theorem holds_split {p : List Call} {pl : Place} {c : Cell} (h : holds p pl = some c) :
    ∃ a b, p = a ++ .formula c :: b ∧ c.place = pl ∧ ∀ d ∈ b, d.at? ≠ some pl := by
  induction p using List.reverseRecOn with
  | nil => simp [holds] at h
  | append_singleton p d ih =>
    rw [holds_snoc] at h
    by_cases hd : d.at? = some pl
    · rw [if_pos hd] at h
      cases d with
      | formula x =>
        simp only [Call.cell?, Option.some.injEq] at h
        subst h
        exact ⟨p, [], rfl, by simpa [Call.at?] using hd, by simp⟩
      | _ => simp [Call.cell?] at h
    · rw [if_neg hd] at h
      obtain ⟨a, b, rfl, hp, hb⟩ := ih h
      refine ⟨a, b ++ [d], by simp, hp, fun e he => ?_⟩
      rcases List.mem_append.1 he with he | he
      · exact hb e he
      · simp only [List.mem_singleton] at he; subst he; exact hd

/-- What a cell written here takes with it. -/
def Lost (p : List Call) (pl : Place) (r : Nat) : Prop := ∃ c, holds p pl = some c ∧ c.auto = true ∧ c.root = r

theorem ended_mono {p : List Call} {c : Call} {r : Nat} (h : Ended p r) : Ended (p ++ [c]) r := by
  rcases h with h | ⟨a, d, b, rfl, h1, h2, e, he, h3⟩
  · exact .inl (by simp [h])
  · exact .inr ⟨a, d, b ++ [c], by simp, h1, h2, e, by simp [he], h3⟩

theorem ended_write {p : List Call} {c : Call} {pl : Place} (hc : c.at? = some pl) {r : Nat} :
    Ended (p ++ [c]) r ↔ Ended p r ∨ Lost p pl r := by
  constructor
  · rintro (h | ⟨a, d, b, hp, h1, h2, e, he, h3⟩)
    · rcases List.mem_append.1 h with h | h
      · exact .inl (.inl h)
      · simp only [List.mem_singleton] at h; subst h; simp [Call.at?] at hc
    · rcases List.eq_nil_or_concat b with rfl | ⟨b', x, rfl⟩
      · simp at he
      · have : p ++ [c] = (a ++ .formula d :: b') ++ [x] := by simp [hp]
        obtain ⟨rfl, hx⟩ := List.append_inj' this rfl
        simp only [List.cons.injEq, and_true] at hx
        subst hx
        by_cases hb : ∃ e ∈ b', e.at? = some d.place
        · exact .inl (.inr ⟨a, d, b', rfl, h1, h2, hb⟩)
        · refine .inr ⟨d, ?_, h1, h2⟩
          rw [List.concat_eq_append] at he
          rcases List.mem_append.1 he with he | he
          · exact absurd ⟨e, he, h3⟩ hb
          · simp only [List.mem_singleton] at he
            subst he
            rw [hc] at h3
            simp only [Option.some.injEq] at h3
            subst h3
            exact holds_of (fun y hy h => hb ⟨y, hy, h⟩)
  · rintro (h | ⟨d, h, h1, h2⟩)
    · exact ended_mono h
    · obtain ⟨a, b, rfl, hp, _⟩ := holds_split h
      exact .inr ⟨a, d, b ++ [c], by simp, h1, h2, c, by simp, by rw [hp]; exact hc⟩

theorem ended_other {p : List Call} {c : Call} (hc : c.at? = none) {r : Nat} :
    Ended (p ++ [c]) r ↔ Ended p r ∨ c = .drop r := by
  constructor
  · rintro (h | ⟨a, d, b, hp, h1, h2, e, he, h3⟩)
    · rcases List.mem_append.1 h with h | h
      · exact .inl (.inl h)
      · simp only [List.mem_singleton] at h; exact .inr h.symm
    · rcases List.eq_nil_or_concat b with rfl | ⟨b', x, rfl⟩
      · simp at he
      · have : p ++ [c] = (a ++ .formula d :: b') ++ [x] := by simp [hp]
        obtain ⟨rfl, hx⟩ := List.append_inj' this rfl
        simp only [List.cons.injEq, and_true] at hx
        subst hx
        rw [List.concat_eq_append] at he
        rcases List.mem_append.1 he with he | he
        · exact .inl (.inr ⟨a, d, b', rfl, h1, h2, e, he, h3⟩)
        · simp only [List.mem_singleton] at he
          subst he
          rw [hc] at h3
          simp at h3
  · rintro (h | h)
    · exact ended_mono h
    · subst h; exact .inl (by simp)

/-- The expressions that stand alone: not given away, or owned by a cell. -/
def Root (p : List Call) (r : Nat) : Prop :=
  (r < (made p).length ∧ ¬ Given p r) ∨ ∃ pl c, holds p pl = some c ∧ c.auto = true ∧ c.root = r

theorem Within.mono {p p' : List Call} (h : ∀ a b, Kid p a b → Kid p' a b) {r n : Nat} (w : Within p r n) : Within p' r n := by
  induction w with
  | self => exact .self
  | kid _ hk ih => exact .kid ih (h _ _ hk)

theorem within_congr {p p' : List Call} (h : ∀ n, now p' n = now p n) {r n : Nat} : Within p' r n ↔ Within p r n := by
  constructor
  · exact Within.mono (fun a b ⟨m, hm, hb⟩ => ⟨m, by rw [← h]; exact hm, hb⟩)
  · exact Within.mono (fun a b ⟨m, hm, hb⟩ => ⟨m, by rw [h]; exact hm, hb⟩)

/-- Facts about the calls of a good program. -/
structure Wf (p : List Call) : Prop where
  kidlt : ∀ a b, Kid p a b → b < (made p).length
  pushlt : ∀ h k, .push h k ∈ p → h < (made p).length
  root : ∀ pl c, holds p pl = some c → c.root < (made p).length
  lent : ∀ pl c, holds p pl = some c → c.auto = false → ¬ Given p c.root
  uniq : ∀ pl pl' c c', holds p pl = some c → holds p pl' = some c' → c.auto = true → c'.auto = true → c.root = c'.root → pl = pl'

theorem Wf.pushed {p : List Call} (w : Wf p) : pushed p (made p).length = [] := by
  simp only [Tree.pushed, List.filterMap_eq_nil_iff]
  intro c hc
  cases c with
  | push h k =>
    have := w.pushlt h k hc
    simp only
    rw [if_neg (by omega)]
  | _ => rfl

theorem holds_given {p : List Call} {pl : Place} {c : Cell} (h : holds p pl = some c) (ha : c.auto = true) : Given p c.root :=
  ⟨.formula c, (holds_mem h).1, by simp [Call.gives, ha]⟩

theorem more_kids {m : Made} {ks : List Nat} {b : Nat} (h : b ∈ (m.more ks).kids) : b ∈ m.kids ∨ b ∈ ks := by
  cases m <;> simp_all [Made.more, Made.kids]

theorem kids_more {m : Made} {ks : List Nat} {b : Nat} (h : b ∈ m.kids) : b ∈ (m.more ks).kids := by
  cases m <;> simp_all [Made.more, Made.kids]

theorem Wf.snoc {p : List Call} (w : Wf p) {c : Call} (h : Allowed p c) : Wf (p ++ [c]) := by
  have hlen : (made p).length ≤ (made (p ++ [c])).length := made_le
  have hpush : ∀ h' k, .push h' k ∈ p ++ [c] → h' < (made (p ++ [c])).length := by
    intro h' k hm
    rcases List.mem_append.1 hm with hm | hm
    · exact Nat.lt_of_lt_of_le (w.pushlt _ _ hm) hlen
    · simp only [List.mem_singleton] at hm
      subst hm
      obtain ⟨⟨_, _, _, hn, _⟩, _⟩ := h
      exact Nat.lt_of_lt_of_le (now_lt hn) hlen
  have hkid : ∀ a b, Kid (p ++ [c]) a b → b < (made (p ++ [c])).length := by
    rintro a b ⟨m, hm, hb⟩
    by_cases hmk : ∃ x, c = .make x ∧ x.proper = true
    · obtain ⟨x, rfl, hx⟩ := hmk
      rw [now_make hx w.pushed] at hm
      by_cases e : a = (made p).length
      · rw [if_pos e] at hm
        simp only [Option.some.injEq] at hm
        subst hm
        exact Nat.lt_of_lt_of_le ((h hx).2.2 b hb).1 hlen
      · rw [if_neg e] at hm
        exact Nat.lt_of_lt_of_le (w.kidlt _ _ ⟨m, hm, hb⟩) hlen
    · have hmk' : ∀ m, c = .make m → m.proper = false := fun m e => by
        cases hp : m.proper with
        | false => rfl
        | true => exact absurd ⟨m, e, hp⟩ hmk
      by_cases hpk : ∃ h' k, c = .push h' k
      · obtain ⟨h', k, rfl⟩ := hpk
        rw [now_push] at hm
        by_cases e : h' = a
        · rw [if_pos e] at hm
          simp only [Option.map_eq_some_iff] at hm
          obtain ⟨m', hm', rfl⟩ := hm
          rcases more_kids hb with hb | hb
          · exact Nat.lt_of_lt_of_le (w.kidlt _ _ ⟨m', hm', hb⟩) hlen
          · simp only [List.mem_singleton] at hb
            subst hb
            exact Nat.lt_of_lt_of_le h.2.2.1 hlen
        · rw [if_neg e] at hm
          exact Nat.lt_of_lt_of_le (w.kidlt _ _ ⟨m, hm, hb⟩) hlen
      · rw [now_same hmk' (fun h' k e => hpk ⟨h', k, e⟩)] at hm
        exact Nat.lt_of_lt_of_le (w.kidlt _ _ ⟨m, hm, hb⟩) hlen
  have hnew : ∀ pl x, holds (p ++ [c]) pl = some x → c = .formula x ∧ x.place = pl ∨ (c.at? ≠ some pl ∧ holds p pl = some x) := by
    intro pl x hx
    rw [holds_snoc] at hx
    by_cases hc : c.at? = some pl
    · rw [if_pos hc] at hx
      cases c with
      | formula y =>
        simp only [Call.cell?, Option.some.injEq] at hx
        subst hx
        exact .inl ⟨rfl, by simpa [Call.at?] using hc⟩
      | _ => simp [Call.cell?] at hx
    · rw [if_neg hc] at hx
      exact .inr ⟨hc, hx⟩
  refine ⟨hkid, hpush, ?_, ?_, ?_⟩
  · intro pl x hx
    rcases hnew pl x hx with ⟨rfl, _⟩ | ⟨_, hx⟩
    · exact Nat.lt_of_lt_of_le h.1 hlen
    · exact Nat.lt_of_lt_of_le (w.root _ _ hx) hlen
  · intro pl x hx ha hg
    rcases hnew pl x hx with ⟨rfl, _⟩ | ⟨hc, hx⟩
    · rcases given_snoc.1 hg with hg | hg
      · exact h.2.1 hg
      · simp [Call.gives, ha] at hg
    · rcases given_snoc.1 hg with hg | hg
      · exact w.lent _ _ hx ha hg
      · have hl : Lent p x.root := ⟨pl, x, hx, ha, rfl⟩
        cases c with
        | make m =>
          simp only [Call.gives] at hg
          by_cases hp : m.proper = true
          · rw [if_pos hp] at hg
            exact ((h hp).2.2 _ hg).2.2 hl
          · rw [if_neg hp] at hg; simp at hg
        | push a b =>
          simp only [Call.gives, List.mem_singleton] at hg
          exact h.2.2.2.2 (hg ▸ hl)
        | formula y =>
          simp only [Call.gives] at hg
          by_cases hy : y.auto = true
          · rw [if_pos hy] at hg
            simp only [List.mem_singleton] at hg
            exact h.2.2 hy (hg ▸ hl)
          · rw [if_neg hy] at hg; simp at hg
        | drop n =>
          simp only [Call.gives, List.mem_singleton] at hg
          exact h.2.2 (hg ▸ hl)
        | other pl => simp [Call.gives] at hg
        | save => simp [Call.gives] at hg
  · intro pl pl' x x' hx hx' ha ha' hr
    rcases hnew pl x hx with ⟨rfl, hpl⟩ | ⟨hc, hy⟩ <;> rcases hnew pl' x' hx' with ⟨e, hpl'⟩ | ⟨hc', hy'⟩
    · simp only [Call.formula.injEq] at e
      subst e
      rw [← hpl, hpl']
    · exact absurd (hr ▸ holds_given hy' ha') h.2.1
    · subst e
      exact absurd (hr ▸ holds_given hy ha) h.2.1
    · exact w.uniq _ _ _ _ hy hy' ha ha' hr

end Xls.Tree
