import Verif.Mem.Spec
namespace Xls.Mem

variable {α : Type}

def Pool.Has (P : Pool α) (n : Nat) : Prop := ∃ a, P.live n = some a

theorem Pool.live_lt {P : Pool α} {n : Nat} {a : α} (h : P.live n = some a) : n < P.objs.length := by
  unfold Pool.live at h
  cases e : P.objs[n]? with
  | none => rw [e] at h; simp at h
  | some x => exact (List.getElem?_eq_some_iff.1 e).1

theorem Pool.Has.lt {P : Pool α} {n : Nat} (h : P.Has n) : n < P.objs.length := Pool.live_lt h.choose_spec

theorem Pool.live_add (P : Pool α) (a : α) (n : Nat) : (P.add a).live n = if n = P.objs.length then some a else P.live n := by
  unfold Pool.live Pool.add
  rw [List.getElem?_append]
  by_cases h : n = P.objs.length
  · simp [h]
  · rw [if_neg h]
    by_cases h' : n < P.objs.length
    · rw [if_pos h']
    · rw [if_neg h', List.getElem?_eq_none (by simp; omega), List.getElem?_eq_none (by omega)]

theorem live_set (l : List (Option α)) (log log' : List Nat) (m : Nat) (x : Option α) (n : Nat) (h : m < l.length) :
    (⟨l.set m x, log⟩ : Pool α).live n = if n = m then x else (⟨l, log'⟩ : Pool α).live n := by
  unfold Pool.live
  rw [List.getElem?_set]
  by_cases e : m = n
  · subst e
    rw [if_pos rfl, if_pos h, if_pos rfl]
    rfl
  · rw [if_neg e, if_neg (fun x => e x.symm)]

theorem Pool.put_some {P : Pool α} {n : Nat} (a : α) (h : P.Has n) : ∃ P', P.put n a = some P' ∧ P'.objs.length = P.objs.length ∧
    P'.log = P.log ∧ ∀ m, P'.live m = if m = n then some a else P.live m := by
  obtain ⟨b, hb⟩ := h
  refine ⟨{ P with objs := P.objs.set n (some a) }, by simp [Pool.put, hb], by simp, rfl, fun m => ?_⟩
  exact live_set P.objs P.log P.log n (some a) m (Pool.live_lt hb)

theorem Pool.del_some {P : Pool α} {n : Nat} (h : P.Has n) : ∃ P', P.del n = some P' ∧ P'.objs.length = P.objs.length ∧
    P'.log = P.log ++ [n] ∧ ∀ m, P'.live m = if m = n then none else P.live m := by
  obtain ⟨b, hb⟩ := h
  refine ⟨⟨P.objs.set n none, P.log ++ [n]⟩, by simp [Pool.del, hb], by simp, rfl, fun m => ?_⟩
  exact live_set P.objs (P.log ++ [n]) P.log n none m (Pool.live_lt hb)

/-- What was deleted is logged, once. -/
structure Pool.Ok (P : Pool α) : Prop where
  nodup : P.log.Nodup
  log : ∀ n, n ∈ P.log ↔ n < P.objs.length ∧ P.live n = none

theorem Pool.Ok.add {P : Pool α} (h : P.Ok) (a : α) : (P.add a).Ok := by
  refine ⟨h.nodup, fun n => ?_⟩
  rw [Pool.live_add]
  show n ∈ P.log ↔ n < (P.objs ++ [some a]).length ∧ _
  rw [h.log, List.length_append, List.length_singleton]
  by_cases e : n = P.objs.length
  · simp [e]
  · rw [if_neg e]
    constructor
    · rintro ⟨h1, h2⟩; exact ⟨by omega, h2⟩
    · rintro ⟨h1, h2⟩; exact ⟨by omega, h2⟩

/-- Pools with the same log, the same length and the same objects there. -/
theorem Pool.Ok.same {P P' : Pool α} (h : P.Ok) (hl : P'.log = P.log) (hn : P'.objs.length = P.objs.length)
    (he : ∀ n, P'.live n = none ↔ P.live n = none) : P'.Ok :=
  ⟨by rw [hl]; exact h.nodup, fun n => by rw [hl, hn, he, h.log]⟩

theorem Pool.Ok.put {P P' : Pool α} {n : Nat} {a : α} (h : P.Ok) (hp : P.put n a = some P') : P'.Ok := by
  cases e : P.live n with
  | none => simp [Pool.put, e] at hp
  | some b =>
    obtain ⟨P1, h1, h2, h3, h4⟩ := Pool.put_some a ⟨b, e⟩
    rw [h1] at hp
    simp only [Option.some.injEq] at hp
    subst hp
    refine h.same h3 h2 fun m => ?_
    rw [h4]
    by_cases em : m = n
    · subst em; simp [e]
    · rw [if_neg em]

theorem Pool.Ok.del {P P' : Pool α} {n : Nat} (h : P.Ok) (hp : P.del n = some P') : P'.Ok := by
  cases e : P.live n with
  | none => simp [Pool.del, e] at hp
  | some b =>
    obtain ⟨P1, h1, h2, h3, h4⟩ := Pool.del_some ⟨b, e⟩
    rw [h1] at hp
    simp only [Option.some.injEq] at hp
    subst hp
    refine ⟨?_, fun m => ?_⟩
    · rw [h3, List.nodup_append]
      refine ⟨h.nodup, by simp, ?_⟩
      intro a ha b' hb e'
      simp only [List.mem_singleton] at hb
      subst hb; subst e'
      have := ((h.log a).1 ha).2
      rw [e] at this
      simp at this
    · rw [h3, h2, h4, List.mem_append, List.mem_singleton, h.log]
      by_cases em : m = n
      · subst em; simp [Pool.live_lt e]
      · simp [em]

structure Own.Ok (o : Own α) : Prop where
  pool : o.pool.Ok
  nodup : o.list.Nodup
  mem : ∀ n, n ∈ o.list ↔ o.pool.Has n

theorem Own.Ok.add {o : Own α} (h : o.Ok) (a : α) : (o.add a).Ok := by
  refine ⟨h.pool.add a, ?_, fun n => ?_⟩
  · show (o.list ++ [o.pool.objs.length]).Nodup
    rw [List.nodup_append]
    refine ⟨h.nodup, by simp, ?_⟩
    intro x hx y hy e
    simp only [List.mem_singleton] at hy
    have := ((h.mem x).1 hx).lt
    omega
  · show n ∈ o.list ++ [o.pool.objs.length] ↔ ∃ b, (o.pool.add a).live n = some b
    rw [List.mem_append, List.mem_singleton, h.mem]
    simp only [Pool.live_add]
    by_cases e : n = o.pool.objs.length
    · simp [e]
    · simp [e, Pool.Has]

theorem add_live (o : Own α) (a : α) (n : Nat) : (o.add a).pool.live n = if n = o.pool.objs.length then some a else o.pool.live n :=
  Pool.live_add o.pool a n

theorem add_has {o : Own α} {a : α} {n : Nat} (h : o.pool.Has n) : (o.add a).pool.Has n := by
  obtain ⟨b, hb⟩ := h
  refine ⟨b, ?_⟩
  rw [add_live, if_neg (by have := Pool.live_lt hb; omega)]
  exact hb

theorem add_new (o : Own α) (a : α) : (o.add a).pool.Has o.pool.objs.length := ⟨a, by rw [add_live, if_pos rfl]⟩

/-- The object added last is deleted and taken off the list: as before, but for the log. -/
theorem add_pop {o : Own α} (h : o.Ok) (a : α) : ∃ o', (o.add a).pop = some o' ∧ o'.Ok ∧ o'.list = o.list ∧
    o'.pool.objs.length = o.pool.objs.length + 1 ∧ ∀ n, o'.pool.live n = o.pool.live n := by
  obtain ⟨P, h1, h2, h3, h4⟩ := Pool.del_some (add_new o a)
  have hl : ∀ n, P.live n = o.pool.live n := by
    intro n
    rw [h4, add_live]
    by_cases e : n = o.pool.objs.length
    · rw [if_pos e]
      cases ho : o.pool.live n with
      | none => rfl
      | some b => have := Pool.live_lt ho; omega
    · rw [if_neg e, if_neg e]
  refine ⟨⟨P, o.list⟩, ?_, ⟨(h.pool.add a).del h1, h.nodup, fun n => ?_⟩, rfl, ?_, hl⟩
  · show (o.list ++ [o.pool.objs.length]).getLast?.bind _ = _
    rw [List.getLast?_concat, Option.bind_some, h1]
    simp [Own.add]
  · rw [h.mem]
    simp only [Pool.Has, hl]
  · rw [h2]; simp [Own.add, Pool.add]

theorem dels {l : List Nat} : ∀ {P : Pool α}, P.Ok → l.Nodup → (∀ n ∈ l, P.Has n) → ∃ P', l.foldlM Pool.del P = some P' ∧ P'.Ok ∧
    P'.objs.length = P.objs.length ∧ ∀ n, P'.live n = if n ∈ l then none else P.live n := by
  induction l with
  | nil => intro P h _ _; exact ⟨P, rfl, h, rfl, fun n => by simp⟩
  | cons a r ih =>
    intro P h hn hh
    rw [List.nodup_cons] at hn
    obtain ⟨P1, h1, h2, h3, h4⟩ := Pool.del_some (hh a (by simp))
    obtain ⟨P2, g1, g2, g3, g4⟩ := ih (h.del h1) hn.2 (by
      intro n hnr
      obtain ⟨b, hb⟩ := hh n (by simp [hnr])
      refine ⟨b, ?_⟩
      rw [h4, if_neg (by rintro rfl; exact hn.1 hnr)]
      exact hb)
    refine ⟨P2, ?_, g2, by omega, fun n => ?_⟩
    · rw [List.foldlM_cons, h1]; exact g1
    · rw [g4, h4]
      by_cases e : n = a
      · simp [e]
      · by_cases e' : n ∈ r <;> simp [e, e']

theorem gone_of {P : Pool α} (h : P.Ok) (hn : ∀ n, P.live n = none) : Gone P :=
  ⟨h.nodup, fun n => by rw [h.log]; simp [hn n]⟩

theorem Own.Ok.clear {o : Own α} (h : o.Ok) : ∃ o', o.clear = some o' ∧ Gone o'.pool ∧ o'.pool.objs.length = o.pool.objs.length := by
  obtain ⟨P, h1, h2, h3, h4⟩ := dels h.pool h.nodup (fun n hn => (h.mem n).1 hn)
  refine ⟨⟨P, []⟩, by simp [Own.clear, h1], gone_of h2 fun n => ?_, h3⟩
  rw [h4]
  by_cases e : n ∈ o.list
  · rw [if_pos e]
  · rw [if_neg e]
    cases e' : o.pool.live n with
    | none => rfl
    | some b => exact absurd ((h.mem n).2 ⟨b, e'⟩) e

theorem forM_some {β : Type} {l : List β} {f : β → Option Unit} (h : ∀ a ∈ l, f a = some ()) : l.forM f = some () := by
  induction l with
  | nil => rfl
  | cons a r ih =>
    show (f a).bind (fun _ => r.forM f) = some ()
    rw [h a (by simp)]
    exact ih fun b hb => h b (by simp [hb])

theorem Own.Ok.read {o : Own α} (h : o.Ok) : o.read = some () := by
  refine forM_some fun n hn => ?_
  obtain ⟨b, hb⟩ := (h.mem n).1 hn
  simp [hb]

theorem of_live (l : List α) (n : Nat) : (Own.of l).pool.live n = l[n]? := by
  unfold Pool.live Own.of
  simp only [List.getElem?_map]
  cases l[n]? <;> rfl

theorem of_ok (l : List α) : (Own.of l).Ok := by
  refine ⟨⟨by simp [Own.of], fun n => ?_⟩, ?_, fun n => ?_⟩
  · rw [of_live]
    simp [Own.of]
  · exact List.nodup_range
  · unfold Pool.Has
    simp only [of_live]
    simp only [Own.of, List.mem_range]
    constructor
    · intro h; exact ⟨_, List.getElem?_eq_getElem h⟩
    · rintro ⟨a, ha⟩; exact (List.getElem?_eq_some_iff.1 ha).1

end Xls.Mem
