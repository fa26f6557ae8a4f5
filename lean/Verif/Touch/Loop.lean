import Verif.Touch.Step
/-
The places of a range one after the other: operations on formats.
-/
namespace Xls.Touch
open Xls.Range (Rect RangeOp Cache each keys keys_nodup each_list colorOps boxTag boxOps)
open Xls.Whole Xls.Cells
open Xls.Styles (fv xv)
open Xls.Styles.Spec (Look)
open Xls.Xf (Xf)
open Xls.Mirror (Sound Able Live Meant Sane Well cellOp_vals markXf_vals unmarkXf_vals)
open Xls.Area (blankAt styled setStyles step_styled making after askPlace findOrBlank callBody fontBody memoBody onRange)
open Xls.Free (Steps found Pass)

/-- Some format functions of one cell: it goes through the chain of formats. -/
theorem calls_vals {s t : Desk.State} {c q : Nat} {z : Xf} {ops : List Xf.Op} (W : Well (st s)) (hc : (st s).cells[c]? = some (some q))
    (hz : (xv (st s))[q]? = some z) (ho : ∀ o ∈ ops, Meant (st s) o) (h : Desk.steps s (ops.map fun o => styled (.cell c o)) = some t) :
    t.prog.look.book = s.prog.look.book ∧ fv (st t) = fv (st s) ∧ (∀ q, q < (xv (st s)).length → (xv (st t))[q]? = (xv (st s))[q]?) ∧
      (xv (st s)).length ≤ (xv (st t)).length ∧ ∃ p y, (st t).cells = (st s).cells.set c (some p) ∧ (xv (st t))[p]? = some y ∧ chain z ops = some y := by
  induction ops generalizing s q z with
  | nil =>
    cases h
    refine ⟨rfl, rfl, fun _ _ => rfl, Nat.le_refl _, q, z, ?_, hz, rfl⟩
    have hlt := (List.getElem?_eq_some_iff.mp hc).1
    refine (List.ext_getElem? fun i => ?_)
    by_cases e : c = i
    · subst e
      rw [List.getElem?_set_self hlt, hc]
    · rw [List.getElem?_set_ne e]
  | cons o r ih =>
    rw [List.map_cons, Desk.steps, step_styled] at h
    obtain ⟨u', h1, h2⟩ := Option.bind_eq_some_iff.mp h
    obtain ⟨v, h3, rfl⟩ := Option.map_eq_some_iff.mp h1
    obtain ⟨y, hy, -⟩ := (W.xfs z (List.mem_of_getElem? hz)).dup.run (ho o (by simp)).1
    obtain ⟨v', i, t1, t2, t3, t4⟩ := cellOp_vals hc hz hy
    obtain rfl : v = v' := Option.some.inj (h3.symm.trans t1)
    obtain ⟨k1, k2, k3, -⟩ := t4.keeps
    have hlt := (List.getElem?_eq_some_iff.mp hc).1
    obtain ⟨w, w1, w2, w3, -⟩ := W.step (a := .cell c o) ⟨⟨q, hc⟩, ho o (by simp)⟩
    obtain rfl : v = w := Option.some.inj (h3.symm.trans w1)
    have hst : st (setStyles s v) = v := rfl
    obtain ⟨a0, a1, a2, a3, p, y', a4, a5, a6⟩ := ih (s := setStyles s v) (q := i) (z := y) w2 (by rw [hst, t3]; simp [hlt]) k1
      (fun o' h' => ⟨(ho o' (by simp [h'])).1, fun p hp => Nat.lt_of_lt_of_le ((ho o' (by simp [h'])).2 p hp) w3⟩) h2
    rw [hst] at a1 a2 a3 a4
    refine ⟨a0, a1.trans t2, fun q hq => (a2 q (Nat.lt_of_lt_of_le hq k2)).trans (k3 q hq), Nat.le_trans k2 a3, p, y', ?_, a5, ?_⟩
    · rw [a4, t3, List.set_set]
    · rw [chain, hy]; exact a6

/-- The place is found or made, then its cell goes to another format. -/
theorem Made.touched {i : Nat} {k : Key} {s u t : Desk.State} {c : Nat} {A : Prog.Asked} (M : Made i k s u c) (G : Sound s.prog A) {ops : Key → List Xf.Op}
    (hb : t.prog.look.book = u.prog.look.book) (hf : fv (st t) = fv (st u)) (ho : ∀ q, q < (xv (st u)).length → (xv (st t))[q]? = (xv (st u))[q]?)
    (hg : (xv (st u)).length ≤ (xv (st t)).length) {p : Nat} (hc : (st t).cells = (st u).cells.set c (some p)) {y : Xf} (hy : (xv (st t))[p]? = some y)
    (hch : ∀ q z, (st u).cells[c]? = some (some q) → (xv (st u))[q]? = some z → chain z (ops k) = some y) : Touched i [k] ops s t := by
  obtain ⟨x, q, a1, a2, a3, a4⟩ := M.here
  have hat : ∀ j k', cellAt t j k' = cellAt u j k' := fun j k' => by unfold cellAt; rw [hb]
  have hid : ∀ d, d < (st s).cells.length → (∀ x', cellAt s i k = some x' → x'.id ≠ d) → c ≠ d := by
    intro d hd hne e
    rcases a3 with ⟨b1, -⟩ | ⟨-, -, b3, -⟩
    · exact hne x b1 (a2.trans e)
    · omega
  refine ⟨hf.trans M.fonts, fun q hq => ?_, by rw [← M.xfs]; exact hg, fun d hd hne => ?_, ?_, fun j k' hne => ?_, fun k' hk' => ?_⟩
  · rw [ho q (by rw [M.xfs]; exact hq), M.xfs]
  · rw [hc, List.getElem?_set_ne (hid d hd (hne k (by simp))), M.cells d hd]
  · rw [hc, List.length_set]; exact M.count
  · rw [hat, M.elsewhere j k' fun h => hne ⟨h.1, by simp [h.2]⟩]
  · obtain rfl := List.mem_singleton.mp hk'
    have hqlt : q < (xv (st s)).length := by
      rw [Styles.xv_len]
      rcases a3 with ⟨-, b2⟩ | ⟨-, -, -, b4⟩
      · exact G.styles.live x.id q b2
      · have := G.styles.many
        rw [b4]
        show 15 < s.prog.look.styles.xfs.length
        omega
    have hz : (xv (st s))[q]? = some (xv (st s))[q] := by simp [hqlt]
    refine ⟨x, q, _, p, y, by rw [hat]; exact a1, a3, hz, ?_, hy, hch q _ a4 (by rw [M.xfs]; exact hz)⟩
    rw [hc, a2, List.getElem?_set_self (List.getElem?_eq_some_iff.mp a4).1]

/-- `SET_RANGE_FUNCTION` at one place. -/
theorem call_touched {s : Desk.State} {A : Prog.Asked} (G : Sound s.prog A) (i : Nat) (hi : i < s.wb.sheets.length) (k : Key) (o : Xf.Op) (ho : Meant (st s) o) :
    ∃ t B, callBody i o k.1 k.2 s = some t ∧ Touched i [k] (fun _ => [o]) s t ∧ Sound t.prog B ∧ t.wb = s.wb ∧ (st s).fonts.length ≤ (st t).fonts.length := by
  obtain ⟨t, h1, ⟨acts, h2⟩, -, h3⟩ := Free.call_pass G i hi (fun _ l => l) k o ho
  refine ⟨t, _, h1, ?_, h2.sound, h2.wb, h3⟩
  obtain ⟨⟨u, c⟩, g1, g2⟩ := Option.bind_eq_some_iff.mp (show (findOrBlank s i k.1 k.2).bind _ = some t from h1)
  have M := found_made G i hi k g1
  obtain ⟨u', c', e1, -, -, -, e5⟩ := found G i hi k
  obtain ⟨rfl, rfl⟩ : u = u' ∧ c = c' := Prod.mk.inj (Option.some.inj (g1.symm.trans e1))
  have Gu := (e5 fun _ l => l).1.sound
  obtain ⟨x, q, a1, a2, a3, a4⟩ := M.here
  have hq := Gu.styles.live c q a4
  have hz : (xv (st u))[q]? = some ((st u).xfs[q]'hq).xf := by
    rw [xv, List.getElem?_map, List.getElem?_eq_getElem hq]
    rfl
  have hfl : (st s).fonts.length = (st u).fonts.length := by rw [← Styles.fv_len, ← M.fonts, Styles.fv_len]
  obtain ⟨b0, b1, b2, b3, p, y, b4, b5, b6⟩ := calls_vals (ops := [o]) (t := t) Gu.styles a4 hz (fun o' h' => by
    obtain rfl := List.mem_singleton.mp h'
    exact ⟨ho.1, fun p hp => Nat.lt_of_lt_of_le (ho.2 p hp) (Nat.le_of_eq hfl)⟩) (by
    show (Desk.step u (styled (.cell c o))).bind _ = some t
    rw [show Desk.step u (styled (.cell c o)) = some t from g2]
    rfl)
  refine M.touched G b0 b1 b2 b3 b4 b5 fun q' z' hq' hz' => ?_
  rw [a4] at hq'
  cases hq'
  rw [hz] at hz'
  cases hz'
  exact b6

/-! ### The formats made in an operation are kept for cells with the same format -/

/-- What is kept is right for every place with that tag. -/
def Kept (tag : Nat → Nat → Xf → Nat) (ops : Nat → Nat → List Xf.Op) (s : Styles.State) (cache : Cache) : Prop :=
  ∀ key p, (key, p) ∈ cache → ∃ (q : Nat) (z : Xf) (k : Key) (y : Xf), q < s.xfs.length ∧ (xv s)[q]? = some z ∧ key = (q % 65536, tag k.1 k.2 z) ∧
    (xv s)[p]? = some y ∧ chain z (ops k.1 k.2) = some y

theorem Kept.mono {tag : Nat → Nat → Xf → Nat} {ops : Nat → Nat → List Xf.Op} {s t : Styles.State} {cache : Cache} (h : Kept tag ops s cache)
    (ho : ∀ q, q < (xv s).length → (xv t)[q]? = (xv s)[q]?) (hg : (xv s).length ≤ (xv t).length) : Kept tag ops t cache := by
  intro key p hm
  obtain ⟨q, z, k, y, a1, a2, a3, a4, a5⟩ := h key p hm
  refine ⟨q, z, k, y, ?_, ?_, a3, ?_, a5⟩
  · rw [← Styles.xv_len]; rw [← Styles.xv_len] at a1; omega
  · rw [ho q (List.getElem?_eq_some_iff.mp a2).1, a2]
  · rw [ho p (List.getElem?_eq_some_iff.mp a4).1, a4]

theorem setXf_vals {s : Styles.State} {c q p : Nat} {t : Styles.State} (hc : s.cells[c]? = some (some q)) (hq : q < s.xfs.length)
    (h : Styles.setXf s c p = some t) : fv t = fv s ∧ xv t = xv s ∧ t.cells = s.cells.set c (some p) := by
  unfold Styles.setXf at h
  rw [hc, Option.join_some, Option.bind_some] at h
  obtain ⟨a, b, d⟩ := markXf_vals { s with cells := s.cells.set c (some p) } p
  obtain ⟨t', e, a', b', d'⟩ := unmarkXf_vals (s := Styles.markXf { s with cells := s.cells.set c (some p) } p) (q := q) (by
    rw [← Styles.xv_len, b]
    show q < (xv s).length
    rw [Styles.xv_len]
    exact hq)
  obtain rfl : t = t' := Option.some.inj (h.symm.trans e)
  exact ⟨a'.trans a, b'.trans b, d'.trans d⟩

theorem memo_touched (tag : Nat → Nat → Xf → Nat) (ops : Nat → Nat → List Xf.Op)
    (htag : ∀ (k k' : Key) (z : Xf), tag k.1 k.2 z = tag k'.1 k'.2 z → ops k.1 k.2 = ops k'.1 k'.2)
    {s : Desk.State} {A : Prog.Asked} (G : Sound s.prog A) (i : Nat) (hi : i < s.wb.sheets.length) (k : Key) (ho : ∀ o ∈ ops k.1 k.2, Meant (st s) o) (cache : Cache)
    (hc : ∀ x p, (x, p) ∈ cache → p < (st s).xfs.length) :
    ∃ t cache' B, memoBody i tag ops k.1 k.2 (s, cache) = some (t, cache') ∧ Sound t.prog B ∧ t.wb = s.wb ∧ (st s).fonts.length ≤ (st t).fonts.length ∧
      (∀ x p, (x, p) ∈ cache' → p < (st t).xfs.length) ∧ (st s).xfs.length ≤ (st t).xfs.length ∧
      ((st t).xfs.length ≤ 65536 → Kept tag ops (st s) cache → Touched i [k] (fun k => ops k.1 k.2) s t ∧ Kept tag ops (st t) cache') := by
  obtain ⟨t, cache', h1, ⟨⟨acts, h2⟩, -, h3⟩, h4⟩ := Free.memo_pass tag ops G i hi (fun _ l => l) k ho cache hc
  obtain ⟨u, c, e1, -, -, -, e5⟩ := found G i hi k
  have Gu := (e5 fun _ l => l).1.sound
  have M := found_made G i hi k e1
  obtain ⟨x, q, a1, a2, a3, a4⟩ := M.here
  have hq : q < (st u).xfs.length := Gu.styles.live c q a4
  have he : (st u).xfs[q]? = some ((st u).xfs[q]'hq) := List.getElem?_eq_getElem hq
  generalize (st u).xfs[q]'hq = e at he
  have hz : (xv (st u))[q]? = some e.xf := by rw [xv, List.getElem?_map, he]; rfl
  have hei := Mirror.index_of Gu.styles.num he
  have hfl : (st s).fonts.length = (st u).fonts.length := by rw [← Styles.fv_len, ← M.fonts, Styles.fv_len]
  have hxl : (st s).xfs.length = (st u).xfs.length := by rw [← Styles.xv_len, ← M.xfs, Styles.xv_len]
  have hb := h1
  unfold memoBody at hb
  simp only [e1, Option.bind_some, a4, Option.join_some, he] at hb
  refine ⟨t, cache', _, h1, h2.sound, h2.wb, h3, h4, ?_⟩
  cases hl : cache.lookup (e.index, tag k.1 k.2 e.xf) with
  | some p =>
    simp only [hl] at hb
    obtain ⟨t', g1, g2⟩ := Option.map_eq_some_iff.mp hb
    obtain ⟨rfl, rfl⟩ := Prod.mk.inj g2
    rw [step_styled] at g1
    obtain ⟨v, g3, rfl⟩ := Option.map_eq_some_iff.mp g1
    obtain ⟨v1, v2, v3⟩ := setXf_vals (s := st u) a4 hq g3
    have hlen : (st s).xfs.length = v.xfs.length := by rw [← Styles.xv_len v, v2, Styles.xv_len, hxl]
    refine ⟨Nat.le_of_eq hlen, fun hsmall hk => ?_⟩
    have hsmall : v.xfs.length ≤ 65536 := hsmall
    obtain ⟨q', z', k', y, b1, b2, b3, b4, b5⟩ := hk _ _ (Range.lookup_mem hl)
    rw [hei] at b3
    obtain ⟨b6, b7⟩ := Prod.mk.inj b3
    have hqq : q = q' := by
      rw [Nat.mod_eq_of_lt (by omega), Nat.mod_eq_of_lt (by omega)] at b6
      exact b6
    subst hqq
    rw [← M.xfs, hz] at b2
    obtain rfl := Option.some.inj b2
    rw [← M.xfs] at b4
    have hvs : st (setStyles u v) = v := rfl
    refine ⟨M.touched (p := p) (y := y) G rfl v1 (fun q _ => by rw [hvs, v2]) (by rw [hvs, v2]; exact Nat.le_refl _) v3 (by rw [hvs, v2]; exact b4) fun q2 z2 hq2 hz2 => ?_, ?_⟩
    · rw [a4] at hq2
      cases hq2
      rw [hz] at hz2
      cases hz2
      show chain e.xf (ops k.1 k.2) = some y
      rw [htag k k' e.xf b7]
      exact b5
    · refine hk.mono (fun q _ => by rw [hvs, v2, M.xfs]) (by rw [hvs, v2, M.xfs]; exact Nat.le_refl _)
  | none =>
    simp only [hl] at hb
    obtain ⟨t', g1, g2⟩ := Option.bind_eq_some_iff.mp hb
    obtain ⟨p', g3, g4⟩ := Option.map_eq_some_iff.mp g2
    obtain ⟨rfl, rfl⟩ := Prod.mk.inj g4
    obtain ⟨b0, b1, b2, b3, p, y, b4, b5, b6⟩ := calls_vals Gu.styles a4 hz (fun o' h' => 
      ⟨(ho o' h').1, fun p hp => Nat.lt_of_lt_of_le ((ho o' h').2 p hp) (Nat.le_of_eq hfl)⟩) g1
    have hpp : p = p' := by
      rw [show t'.prog.look.styles.cells = _ from b4, List.getElem?_set_self (List.getElem?_eq_some_iff.mp a4).1, Option.join_some] at g3
      exact Option.some.inj g3
    subst hpp
    have hg : (st s).xfs.length ≤ (st t').xfs.length := by
      rw [Styles.xv_len, Styles.xv_len] at b3
      omega
    have hold : ∀ q, q < (xv (st s)).length → (xv (st t'))[q]? = (xv (st s))[q]? := fun q hq => by rw [b2 q (by rw [M.xfs]; exact hq), M.xfs]
    refine ⟨hg, fun _ hk => ⟨M.touched G b0 b1 b2 b3 b4 b5 fun q2 z2 hq2 hz2 => ?_, ?_⟩⟩
    · rw [a4] at hq2
      cases hq2
      rw [hz] at hz2
      cases hz2
      exact b6
    · intro key p2 hm
      rw [List.mem_append, List.mem_singleton] at hm
      rcases hm with hm | hm
      · exact hk.mono hold (by rw [Styles.xv_len, Styles.xv_len]; exact hg) key p2 hm
      · obtain ⟨rfl, rfl⟩ := Prod.mk.inj hm
        refine ⟨q, e.xf, k, y, by omega, ?_, by rw [hei], b5, b6⟩
        rw [hold q (by rw [Styles.xv_len]; omega), ← M.xfs, hz]

/-! ### The whole range -/

theorem loop_call {i : Nat} (o : Xf.Op) (ks : List Key) (hnd : ks.Nodup) {s : Desk.State} {A : Prog.Asked} (G : Sound s.prog A) (hi : i < s.wb.sheets.length)
    (ho : Meant (st s) o) : ∃ t B, ks.foldlM (fun s k => callBody i o k.1 k.2 s) s = some t ∧ Touched i ks (fun _ => [o]) s t ∧ Sound t.prog B := by
  induction ks generalizing s A with
  | nil => exact ⟨s, A, rfl, .nil _ _ _, G⟩
  | cons k r ih =>
    rw [List.nodup_cons] at hnd
    obtain ⟨u, B, u1, u2, u3, u4, u5⟩ := call_touched G i hi k o ho
    obtain ⟨t, C, t1, t2, t3⟩ := ih hnd.2 u3 (by rw [u4]; exact hi) ⟨ho.1, fun p hp => Nat.lt_of_lt_of_le (ho.2 p hp) u5⟩
    exact ⟨t, C, by rw [List.foldlM_cons, u1]; exact t1, .cons G u3 hnd.1 u2 t2, t3⟩

theorem loop_memo {i : Nat} (tag : Nat → Nat → Xf → Nat) (ops : Nat → Nat → List Xf.Op)
    (htag : ∀ (k k' : Key) (z : Xf), tag k.1 k.2 z = tag k'.1 k'.2 z → ops k.1 k.2 = ops k'.1 k'.2)
    (ho : ∀ (k : Key), ∀ o ∈ ops k.1 k.2, ∀ s, Meant s o) (ks : List Key) (hnd : ks.Nodup) {s : Desk.State} {A : Prog.Asked} (G : Sound s.prog A)
    (hi : i < s.wb.sheets.length) (cache : Cache) (hc : ∀ x p, (x, p) ∈ cache → p < (st s).xfs.length) :
    ∃ t cache' B, ks.foldlM (fun w k => memoBody i tag ops k.1 k.2 w) (s, cache) = some (t, cache') ∧ Sound t.prog B ∧ (st s).xfs.length ≤ (st t).xfs.length ∧
      ((st t).xfs.length ≤ 65536 → Kept tag ops (st s) cache → Touched i ks (fun k => ops k.1 k.2) s t) := by
  induction ks generalizing s A cache with
  | nil => exact ⟨s, cache, A, rfl, G, Nat.le_refl _, fun _ _ => .nil _ _ _⟩
  | cons k r ih =>
    rw [List.nodup_cons] at hnd
    obtain ⟨u, cache', B, u1, u2, u3, -, u5, u6, u7⟩ := memo_touched tag ops htag G i hi k (fun o h => ho k o h _) cache hc
    obtain ⟨t, cache'', C, t1, t2, t3, t4⟩ := ih hnd.2 u2 (by rw [u3]; exact hi) cache' u5
    refine ⟨t, cache'', C, by rw [List.foldlM_cons, u1]; exact t1, t2, by omega, fun hs hk => ?_⟩
    obtain ⟨k1, k2⟩ := u7 (by omega) hk
    exact .cons G u2 hnd.1 k1 (t4 hs k2)

end Xls.Touch
