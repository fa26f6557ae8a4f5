import Verif.Styles.Usage
/-
The operations on the invariant and on the relation to the specification.
-/
namespace Xls.Styles
open Xls.Xf (Xf)
open Xls.Font (Font FOp)
open Spec

/-- A setter on a format no cell was ever given. -/
theorem Inv.setOn {n : Nat → Nat} {s : State} (h : Inv n s) (q : Nat) (e : XEnt) (he : s.xfs[q]? = some e) (hu : e.used = false)
    (o : Xf.Op) (x : Xf) (hr : o.run e.xf = some x) (hf : x.font = (Xf.pickFontPtr o).getD e.xf.font)
    (hp : ∀ p, o = .font (some p) → p < s.fonts.length) :
    ∃ t, Styles.setOn s q o = some t ∧ Inv n t ∧ fv t = fv s ∧ t.xfs = s.xfs.modify q (fun e => { e with xf := x }) ∧
      t.cells = s.cells ∧ t.fonts.length = s.fonts.length := by
  let s1 : State := { s with xfs := s.xfs.modify q fun e => { e with xf := x } }
  have huse := h.use q e he
  have hx : ∀ p, x.font = some p → p < s.fonts.length := by
    intro p hxp
    rw [hf] at hxp
    have keep := h.ptr e (List.mem_of_getElem? he) p
    cases o with
    | font f =>
      cases f with
      | none => simp [Xf.pickFontPtr] at hxp
      | some p' =>
        simp [Xf.pickFontPtr] at hxp
        subst hxp
        exact hp _ rfl
    | _ => exact keep hxp
  have hnd : dead e = false := by simp [dead, hu]
  have hnd' : dead { e with xf := x } = false := by simp [dead, hu]
  have hrm := refs_modify s.xfs q e he (fun e => { e with xf := x })
  have same : ∀ p, x.font = e.xf.font → refs (s.xfs.modify q fun e => { e with xf := x }) p = refs s.xfs p := by
    intro p hxe
    have h1 := hrm p
    have : holds p { e with xf := x } = holds p e := by simp [holds, hnd, hnd', hxe]
    rw [this] at h1
    omega
  have simple : Styles.setOn s q o = some s1 → x.font = e.xf.font → ∃ t, Styles.setOn s q o = some t ∧ Inv n t ∧ fv t = fv s ∧
      t.xfs = s.xfs.modify q (fun e => { e with xf := x }) ∧ t.cells = s.cells ∧ t.fonts.length = s.fonts.length := by
    intro h1 h2
    refine ⟨s1, h1, ?_, rfl, rfl, rfl, rfl⟩
    refine h.modify q e he (fun e => { e with xf := x }) s1 ⟨h.fonts.1, h.fonts.2, h.fonts.3⟩ rfl rfl rfl (fun _ _ => rfl) hx rfl
      huse ?_
    intro p hp'
    show refs (s.xfs.modify q _) p ≤ usage s p
    rw [same p h2]
    exact h.shared p hp'
  cases o with
  | font f =>
    refine ⟨markFont? (unmarkFont? s1 e.xf.font) f, by simp only [Styles.setOn, he, Option.bind_some, hr, Option.map_some]; rfl, ?_, ?_, ?_, ?_, ?_⟩
    · obtain ⟨m1, m2, -, -⟩ := mark_rest (unmarkFont? s1 e.xf.font) f
      obtain ⟨u1, u2, -, -⟩ := unmark_rest s1 e.xf.font
      refine h.modify q e he (fun e => { e with xf := x }) _
        (FontsOk.mark (FontsOk.unmark (s := s1) ⟨h.fonts.1, h.fonts.2, h.fonts.3⟩ _) _) (by rw [mark_len, unmark_len])
        (by rw [m1, u1]) (by rw [m2, u2]) (fun _ _ => rfl) hx rfl huse ?_
      intro p hp'
      have l1 : p < (unmarkFont? s1 e.xf.font).fonts.length := by rw [unmark_len]; exact hp'
      rw [m1, u1, usage_mark _ _ _ l1, usage_unmark s1 _ _ hp']
      show refs (s.xfs.modify q _) p ≤ usage s p - _ + _
      have h1 := hrm p
      have h2 := h.shared p hp'
      have hxf : x.font = f := hf
      have b1 : (holds p e).toNat = if e.xf.font = some p then 1 else 0 := by
        by_cases hc : e.xf.font = some p <;> simp [holds, hnd, hc]
      have b2 : (holds p { e with xf := x }).toNat = if f = some p then 1 else 0 := by
        by_cases hc : f = some p <;> simp [holds, hnd', hxf, hc]
      rw [b1, b2] at h1
      by_cases c1 : e.xf.font = some p <;> by_cases c2 : f = some p <;> simp only [c1, c2, if_true, if_false] at h1 ⊢ <;> omega
    · rw [(mark_rest _ _).2.2.2, (unmark_rest _ _).2.2.2]; rfl
    · rw [(mark_rest _ _).1, (unmark_rest _ _).1]
    · rw [(mark_rest _ _).2.2.1, (unmark_rest _ _).2.2.1]
    · rw [mark_len, unmark_len]
  | _ => exact simple (by simp only [Styles.setOn, he, Option.bind_some, hr, Option.map_some]; rfl) (by rw [hf]; rfl)

/-- The search for an equal format, and its use. -/
theorem Inv.adopt {n : Nat → Nat} {s : State} (h : Inv n s) (xs : List XEnt) (t : XEnt) (hs : s.xfs = xs ++ [t]) (ht : t.used = false)
    (hl : 21 ≤ xs.length) :
    ∃ r u, findXf s = some (r, u) ∧ u.cells = s.cells ∧ Inv (plus n r) (markXf u r) ∧ fv u = fv s ∧ 21 ≤ r ∧
      u.fonts.length = s.fonts.length ∧
      ((u.xfs = s.xfs ∧ r = xs.length) ∨ (u.xfs = xs ∧ ∃ e, xs[r]? = some e ∧ e.xf = t.xf)) := by
  have hlen : s.xfs.length = xs.length + 1 := by rw [hs]; simp
  have hlast : s.xfs[s.xfs.length - 1]? = some t := by rw [hlen, hs]; simp
  have hnd : dead t = false := by simp [dead, ht]
  have last : ∃ u, (some (xs.length, s) : Option (Nat × State)) = some (xs.length, u) ∧ u.cells = s.cells ∧
      Inv (plus n xs.length) (markXf u xs.length) ∧ fv u = fv s ∧ 21 ≤ xs.length ∧ u.fonts.length = s.fonts.length ∧
      ((u.xfs = s.xfs ∧ xs.length = xs.length) ∨ (u.xfs = xs ∧ ∃ e, xs[xs.length]? = some e ∧ e.xf = t.xf)) :=
    ⟨s, rfl, rfl, h.mark xs.length t (by rw [hs]; simp) (by simp [hnd]), rfl, hl, rfl, .inl ⟨rfl, rfl⟩⟩
  cases hf : (s.xfs.drop 21).findIdx? fun e => e.xf == t.xf with
  | none =>
    have e : findXf s = some (xs.length, s) := by
      simp only [findXf, hlast, Option.map_some, hf]
      rw [hlen, Nat.add_sub_cancel]
    rw [e]
    exact ⟨_, last⟩
  | some i =>
    by_cases hi : 21 + i = s.xfs.length - 1
    · have e : findXf s = some (xs.length, s) := by
        simp only [findXf, hlast, Option.map_some, hf, hi, if_true]
        rw [hlen, Nat.add_sub_cancel]
      rw [e]
      exact ⟨_, last⟩
    · have e : findXf s = some (21 + i, { s with xfs := xs, xfNext := (s.xfNext + 65535) % 65536 }) := by
        simp only [findXf, hlast, Option.map_some, hf, hi, if_false]
        have : s.xfs.take (s.xfs.length - 1) = xs := by rw [hlen, hs]; simp
        rw [this]
      rw [e]
      rw [List.findIdx?_eq_some_iff_getElem] at hf
      obtain ⟨hi1, hi2, -⟩ := hf
      rw [List.length_drop] at hi1
      have hi3 : 21 + i < xs.length := by omega
      have hget : xs[21 + i]? = some xs[21 + i] := List.getElem?_eq_getElem hi3
      have hxt : xs[21 + i].xf = t.xf := by
        rw [beq_iff_eq, List.getElem_drop] at hi2
        rw [← hi2]
        congr 1
        have : s.xfs[21 + i]? = xs[21 + i]? := by rw [hs, List.getElem?_append_left hi3]
        rw [hget, List.getElem?_eq_getElem (by omega)] at this
        exact (Option.some.inj this).symm
      have hrefs : ∀ p, refs s.xfs p = refs xs p + if t.xf.font = some p then 1 else 0 := by
        intro p
        rw [hs, refs, List.countP_append, refs]
        by_cases hc : t.xf.font = some p <;> simp [holds, hnd, hc]
      have hin : ∀ (q : Nat) (e : XEnt), xs[q]? = some e → s.xfs[q]? = some e := by
        intro q e h'
        rw [hs, List.getElem?_append_left ((List.getElem?_eq_some_iff.mp h').1), h']
      refine ⟨21 + i, _, rfl, rfl, ?_, rfl, by omega, rfl, .inr ⟨rfl, _, hget, hxt⟩⟩
      have hinv : Inv n { s with xfs := xs, xfNext := (s.xfNext + 65535) % 65536 } := by
        refine ⟨⟨h.fonts.1, h.fonts.2, h.fonts.3⟩, hl, ?_, ?_, ?_, ?_, ?_, ?_⟩
        · intro e he
          exact h.ptr e (by rw [hs]; simp [he])
        · intro q e he
          exact h.use q e (hin q e he)
        · intro q hq
          have hq : xs.length ≤ q := hq
          rcases Nat.lt_or_ge xs.length q with hc | hc
          · exact h.out q (by omega)
          · have : q = xs.length := by omega
            subst this
            have := h.use xs.length t (by rw [hs]; simp)
            have h0 := this.2 ht
            omega
        · intro p hp
          have := h.shared p hp
          rw [hrefs p] at this
          show refs xs p ≤ usage s p
          omega
        · intro q e he
          exact h.index q e (hin q e he)
        · show (s.xfNext + 65535) % 65536 = xs.length % 65536
          rw [h.next, hlen]
          omega
      refine hinv.mark (21 + i) _ hget ?_
      intro _ p hp
      rw [hxt] at hp
      have hpl : p < s.fonts.length := h.ptr t (by rw [hs]; simp) p hp
      have := h.shared p hpl
      rw [hrefs p, if_pos hp] at this
      exact this

/-! ### Cells -/

theorem count_set (l : List (Option Nat)) (c : Nat) (q : Option Nat) (h : l[c]? = some q) (v : Option Nat) (q' : Nat) :
    (l.set c v).count (some q') + (if q = some q' then 1 else 0) = l.count (some q') + (if v = some q' then 1 else 0) := by
  induction l generalizing c with
  | nil => simp at h
  | cons a r ih =>
    cases c with
    | zero =>
      simp at h
      subst h
      simp only [List.set_cons_zero, List.count_cons]
      simp only [beq_iff_eq]
      omega
    | succ c =>
      have := ih c (by simpa using h)
      simp only [List.set_cons_succ, List.count_cons]
      omega

def on (cells : List (Option Nat)) : Nat → Nat := fun q => cells.count (some q)

theorem on_pos {cells : List (Option Nat)} {c q : Nat} (h : cells[c]? = some (some q)) : 1 ≤ on cells q :=
  List.count_pos_iff.mpr (List.mem_of_getElem? h)

theorem on_set {cells : List (Option Nat)} {c q : Nat} (h : cells[c]? = some (some q)) (r : Nat) :
    on (cells.set c (some r)) = plus (minus (on cells) q) r := by
  funext q'
  have h1 := count_set cells c (some q) h (some r) q'
  have h2 := on_pos h
  simp only [Option.some.injEq] at h1
  unfold on plus minus at *
  by_cases c1 : q' = q <;> by_cases c2 : q' = r
  · subst c1; subst c2; simp at h1 ⊢; omega
  · subst c1
    have c3 : ¬ r = q' := fun h => c2 h.symm
    simp [c2, c3] at h1 ⊢; omega
  · subst c2
    have c3 : ¬ q = q' := fun h => c1 h.symm
    simp [c1, c3] at h1 ⊢; omega
  · have c3 : ¬ r = q' := fun h => c2 h.symm
    have c4 : ¬ q = q' := fun h => c1 h.symm
    simp [c1, c2, c3, c4] at h1 ⊢; omega

theorem on_gone {cells : List (Option Nat)} {c q : Nat} (h : cells[c]? = some (some q)) :
    on (cells.set c none) = minus (on cells) q := by
  funext q'
  have h1 := count_set cells c (some q) h none q'
  simp only [Option.some.injEq] at h1
  unfold on minus
  by_cases c1 : q' = q
  · subst c1; simp at h1 ⊢; omega
  · have c4 : ¬ q = q' := fun h => c1 h.symm
    simp [c1, c4] at h1 ⊢; omega

theorem plus_minus (n : Nat → Nat) (q r : Nat) (h : 1 ≤ n q) : minus (plus n r) q = plus (minus n q) r := by
  funext q'
  unfold minus plus
  by_cases c1 : q' = q <;> by_cases c2 : q' = r <;> simp only [c1, c2, if_true, if_false]
  · subst c1; subst c2; simp; omega
  · subst c1; simp [c2]
  · subst c2; simp [c1]

/-- Giving a cell a look. -/
theorem Rel.set {fv fv' : List Font} {xv xv' : List Xf} {cells : List (Option Nat)} {A : Spec.State} (R : Rel fv xv cells A)
    (h1 : fv <+: fv') (h2 : xv <+: xv') (c r : Nat) (hc : c < cells.length) (x : Xf) (hx : xv'[r]? = some x)
    (hr : r = 15 ∨ 21 ≤ r) (l : Look) (hl : Looks fv' A.fonts x l) :
    Rel fv' xv' (cells.set c (some r)) { A with cells := upd A.cells c (some l) } := by
  refine ⟨?_, getElem?_prefix h2 R.x15, ?_, ?_, ?_, ?_⟩
  · intro i d hd
    exact getElem?_prefix h1 (R.stock i d hd)
  · intro p h hp
    obtain ⟨a, f, b, d⟩ := R.fonts p h hp
    exact ⟨a, f, getElem?_prefix h1 b, d⟩
  · intro q l' hq
    obtain ⟨a, f, b, d⟩ := R.formats q l' hq
    exact ⟨a, f, getElem?_prefix h2 b, d.mono h1⟩
  · intro c' q' hc'
    by_cases e : c' = c
    · subst e
      rw [List.getElem?_set_self hc] at hc'
      simp at hc'
      subst hc'
      exact ⟨hr, x, l, hx, by simp [upd], hl⟩
    · rw [List.getElem?_set_ne (fun h => e h.symm)] at hc'
      obtain ⟨a, x', l', b, d, f⟩ := R.live c' q' hc'
      exact ⟨a, x', l', getElem?_prefix h2 b, by simp [upd, e, d], f.mono h1⟩
  · intro c' hc'
    by_cases e : c' = c
    · subst e
      exact absurd (List.getElem?_set_self hc) (hc' r)
    · show upd A.cells c (some l) c' = none
      rw [upd, if_neg e]
      refine R.gone c' fun q => ?_
      have := hc' q
      rwa [List.getElem?_set_ne (fun h => e h.symm)] at this

/-! ### Fonts -/

theorem runAll_append (f : Font) (a b : List FOp) : Font.runAll f (a ++ b) = (Font.runAll f a).bind (Font.runAll · b) := by
  induction a generalizing f with
  | nil => rfl
  | cons o r ih =>
    rw [List.cons_append, Font.runAll, Font.runAll]
    cases o.run f with
    | none => rfl
    | some g => exact ih g

theorem base_mk (b : Base) (hb : BaseOk b) :
    baseFont b = some (Font.mk b.name 200 (if b.bold then 700 else 400) 0 b.bold b.italic false false false b.color 0 0 1) := by
  cases b with
  | dflt => rfl
  | stock n => exact (by decide : ∀ n, n < 5 → baseFont (.stock n) = some (Font.mk (Base.stock n).name 200 (if (Base.stock n).bold then 700 else 400) 0
      (Base.stock n).bold (Base.stock n).italic false false false (Base.stock n).color 0 0 1)) n hb
  | named n => rfl

theorem FontIs.call {f : Font} {h : FontH} (hf : FontIs f h) (o : FOp) (ho : Font.Spec.Valid o) :
    ∃ f', o.run f = some f' ∧ FontIs f' ⟨h.base, h.calls ++ [o]⟩ := by
  obtain ⟨h1, h2, h3⟩ := hf
  have h4 : ∀ o' ∈ h.calls ++ [o], Font.Spec.Valid o' := by
    intro o' h'
    simp only [List.mem_append, List.mem_singleton] at h'
    rcases h' with h' | h'
    · exact h2 o' h'
    · exact h' ▸ ho
  have hb := base_mk h.base h1
  have := Font.run_mk (h.calls ++ [o]) h4 h.base.name 200 (if h.base.bold then 700 else 400) 0 h.base.bold h.base.italic false false false h.base.color 0 0 1
  rw [hb, Option.bind_some] at h3
  rw [runAll_append, h3, Option.bind_some, Font.runAll] at this
  cases hr : o.run f with
  | none => rw [hr] at this; simp at this
  | some f' =>
    refine ⟨f', rfl, h1, h4, ?_⟩
    rw [hb, Option.bind_some, runAll_append, h3, Option.bind_some, Font.runAll, hr]
    rfl

end Xls.Styles
