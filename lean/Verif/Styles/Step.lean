import Verif.Styles.Sim
/-
The remaining actions, and all of them together.
-/
namespace Xls.Styles
open Xls.Xf (Xf)
open Xls.Font (Font FOp)
open Spec

/-- The program's fonts may change as long as the fonts that cells own stay. -/
theorem Looks.fonts {fw fw' : List Font} {mine mine' : Nat → Option FontH} {x : Xf} {l : Look} (h : Looks fw mine x l)
    (h1 : ∀ p g, mine p = some g → ∃ g', mine' p = some g')
    (h2 : ∀ (p : Nat) (f : Font), mine p = none → fw[p]? = some f → mine' p = none ∧ fw'[p]? = some f) : Looks fw' mine' x l := by
  refine ⟨h.valid, h.attrs, h.flag, ?_⟩
  have := h.font
  revert this
  cases l.font with
  | shared p => rintro ⟨a, b, g, c⟩; exact ⟨a, b, h1 p g c⟩
  | own g =>
    rintro (h | ⟨p, f, a, b, c, d, e⟩)
    · exact .inl h
    · obtain ⟨k1, k2⟩ := h2 p f c d
      exact .inr ⟨p, f, a, b, k1, k2, e⟩

theorem sim_addFont {s : State} {A : Spec.State} (G : Good s A) (f0 : Font) (g0 : FontH) (hn : FontIs f0 g0) :
    Good (addFont s f0) { A with fonts := upd A.fonts s.fonts.length (some g0) } := by
  have hnew : A.fonts s.fonts.length = none := by
    cases hh : A.fonts s.fonts.length with
    | none => rfl
    | some g => have := (G.mine hh).2; omega
  have efv : fv (addFont s f0) = fv s ++ [f0] := by simp [fv, addFont]
  have look : ∀ x l, Looks (fv s) A.fonts x l →
      Looks (fv s ++ [f0]) (upd A.fonts s.fonts.length (some g0)) x l := by
    intro x l h
    refine h.fonts ?_ ?_
    · intro p g hp
      by_cases hc : p = s.fonts.length
      · exact ⟨_, by rw [upd, if_pos hc]⟩
      · exact ⟨g, by rw [upd, if_neg hc, hp]⟩
    · intro p f hp hf
      have hl := (List.getElem?_eq_some_iff.mp hf).1
      rw [fv_len] at hl
      exact ⟨by rw [upd, if_neg (by omega), hp], getElem?_prefix (List.prefix_append _ _) hf⟩
  refine ⟨G.inv.addFont _, ?_⟩
  rw [efv]
  refine ⟨?_, G.rel.x15, ?_, ?_, ?_, G.rel.gone⟩
  · intro i d hd
    exact getElem?_prefix (List.prefix_append _ _) (G.rel.stock i d hd)
  · intro p h hp
    by_cases hc : p = s.fonts.length
    · subst hc
      have hp : upd A.fonts s.fonts.length (some g0) s.fonts.length = some h := hp
      rw [upd, if_pos rfl] at hp
      cases Option.some.inj hp
      exact ⟨G.inv.fonts.five, _, by rw [← fv_len]; simp, hn⟩
    · have hp : upd A.fonts s.fonts.length (some g0) p = some h := hp
      rw [upd, if_neg hc] at hp
      obtain ⟨a, f, b, d⟩ := G.rel.fonts p h hp
      exact ⟨a, f, getElem?_prefix (List.prefix_append _ _) b, d⟩
  · intro q l hq
    obtain ⟨a, x, b, d⟩ := G.rel.formats q l hq
    exact ⟨a, x, b, look x l d⟩
  · intro c q hc
    obtain ⟨a, x, l, b, d, e⟩ := G.rel.live c q hc
    exact ⟨a, x, l, b, d, look x l e⟩

theorem sim_newFont {s : State} {A : Spec.State} (G : Good s A) (n : List UInt16) (hn : n.length < 256) :
    Good (addFont s { Font.fresh with name := n }) { A with fonts := upd A.fonts s.fonts.length (some ⟨.named n, []⟩) } :=
  sim_addFont G _ _ ⟨hn, (fun o h => by cases h), rfl⟩

theorem sim_stockFont {s : State} {A : Spec.State} (G : Good s A) (n : Nat) (hn : n < 5) :
    ∃ t, step s (.stockFont n) = some t ∧ Good t { A with fonts := upd A.fonts s.fonts.length (some ⟨.stock n, []⟩) } := by
  have hd : Font.defaults[n]? = some (Font.defaults[n]'hn) := List.getElem?_eq_getElem hn
  obtain ⟨fe, h1, h2⟩ := fv_get (G.rel.stock n _ hd)
  refine ⟨addFont s fe.font, by rw [step, if_pos hn, h1]; rfl, sim_addFont G _ _ ⟨hn, (fun o h => by cases h), ?_⟩⟩
  show (Font.defaults[n]?).bind _ = _
  rw [hd, h2]
  rfl

theorem sim_copyFont {s : State} {A : Spec.State} (G : Good s A) (p : Nat) (hp : ∃ h, A.fonts p = some h) :
    ∃ t, step s (.copyFont p) = some t ∧ Good t { A with fonts := upd A.fonts s.fonts.length (A.fonts p) } := by
  obtain ⟨h, hp⟩ := hp
  obtain ⟨-, f, h1, h2⟩ := G.rel.fonts p h hp
  obtain ⟨fe, g1, rfl⟩ := fv_get h1
  exact ⟨addFont s fe.font, by rw [step, g1]; rfl, by rw [hp]; exact sim_addFont G _ h h2⟩

theorem sim_font {s : State} {A : Spec.State} (G : Good s A) (p : Nat) (o : FOp) (hp : ∃ h, A.fonts p = some h)
    (ho : Font.Spec.Valid o) :
    ∃ t, setFontOn s p o = some t ∧ Good t { A with fonts := upd A.fonts p ((A.fonts p).map fun f => ⟨f.base, f.calls ++ [o]⟩) } := by
  obtain ⟨h, hp⟩ := hp
  obtain ⟨h5, f, h1, h2⟩ := G.rel.fonts p h hp
  obtain ⟨fe, g1, g2⟩ := fv_get h1
  obtain ⟨f', m1, m2⟩ := h2.call o ho
  let w : State := { s with fonts := s.fonts.modify p fun f => { f with font := f' } }
  have same : (fv w)[p]? = some f' := by
    rw [show fv w = (s.fonts.modify p _).map _ from rfl, List.getElem?_map, mod_same _ g1]
    rfl
  have other : ∀ p', p' ≠ p → (fv w)[p']? = (fv s)[p']? := by
    intro p' hne
    rw [show fv w = (s.fonts.modify p _).map _ from rfl, List.getElem?_map, mod_ne _ hne, fv, List.getElem?_map]
  have look : ∀ x l, Looks (fv s) A.fonts x l →
      Looks (fv w) (upd A.fonts p ((A.fonts p).map fun f => ⟨f.base, f.calls ++ [o]⟩)) x l := by
    intro x l hl
    refine hl.fonts ?_ ?_
    · intro p' g hp'
      by_cases hc : p' = p
      · exact ⟨_, by rw [upd, if_pos hc, hp]; rfl⟩
      · exact ⟨g, by rw [upd, if_neg hc, hp']⟩
    · intro p' f hp' hf
      have hc : p' ≠ p := by rintro rfl; rw [hp] at hp'; simp at hp'
      exact ⟨by rw [upd, if_neg hc, hp'], by rw [other p' hc, hf]⟩
  refine ⟨w, by simp only [setFontOn, g1, Option.bind_some, g2, m1, Option.map_some]; rfl, ?_, ?_⟩
  · refine ⟨G.inv.fonts.modify _ _ (fun _ => rfl), G.inv.many, ?_, G.inv.use, G.inv.out, ?_, G.inv.index, G.inv.next⟩
    · intro e' he' p hp
      rw [show w.fonts.length = s.fonts.length from List.length_modify ..]
      exact G.inv.ptr e' he' p hp
    · intro p' hp'
      rw [show w.fonts.length = s.fonts.length from List.length_modify ..] at hp'
      rw [show usage w p' = _ from usage_modify s p (fun f => { f with font := f' }) id (fun _ => rfl) p' hp']
      have h' := G.inv.shared p' hp'
      rw [show w.xfs = s.xfs from rfl]
      split
      · exact h'
      · exact h'
  · refine ⟨?_, G.rel.x15, ?_, ?_, ?_, G.rel.gone⟩
    · intro i d hd
      have hi := (List.getElem?_eq_some_iff.mp hd).1
      rw [show Font.defaults.length = 5 from rfl] at hi
      rw [other i (by omega)]
      exact G.rel.stock i d hd
    · intro p' h' hp'
      have hp' : upd A.fonts p ((A.fonts p).map fun f => ⟨f.base, f.calls ++ [o]⟩) p' = some h' := hp'
      by_cases hc : p' = p
      · subst hc
        rw [upd, if_pos rfl, hp] at hp'
        cases Option.some.inj hp'
        exact ⟨h5, f', same, m2⟩
      · rw [upd, if_neg hc] at hp'
        obtain ⟨a, f, b, d⟩ := G.rel.fonts p' h' hp'
        exact ⟨a, f, by rw [other p' hc, b], d⟩
    · intro q l hq
      obtain ⟨a, x, b, d⟩ := G.rel.formats q l hq
      exact ⟨a, x, b, look x l d⟩
    · intro c q hc
      obtain ⟨a, x, l, b, d, e⟩ := G.rel.live c q hc
      exact ⟨a, x, l, b, d, look x l e⟩

theorem sim_newXf {s : State} {A : Spec.State} (G : Good s A) :
    Good (addXf s Xf.fresh) { A with formats := upd A.formats s.xfs.length (some plain) } := by
  refine ⟨G.inv.add Xf.fresh (by simp [Xf.fresh]), ?_⟩
  have exv : xv (addXf s Xf.fresh) = xv s ++ [Xf.fresh] := by simp [xv, addXf]
  have hp : xv s <+: xv s ++ [Xf.fresh] := List.prefix_append _ _
  rw [exv]
  refine ⟨G.rel.stock, getElem?_prefix hp G.rel.x15, G.rel.fonts, ?_, ?_, G.rel.gone⟩
  · intro q l hq
    have hq : upd A.formats s.xfs.length (some plain) q = some l := hq
    by_cases hc : q = s.xfs.length
    · rw [upd, if_pos hc] at hq
      cases Option.some.inj hq
      exact ⟨by have := G.inv.many; omega, Xf.fresh, by rw [hc, ← xv_len]; simp, fresh_looks _ _ true⟩
    · rw [upd, if_neg hc] at hq
      obtain ⟨a, x, b, d⟩ := G.rel.formats q l hq
      exact ⟨a, x, getElem?_prefix hp b, d⟩
  · intro c q hc
    obtain ⟨a, x, l, b, d, e⟩ := G.rel.live c q hc
    exact ⟨a, x, l, getElem?_prefix hp b, d, e⟩

theorem sim_copyXf {s : State} {A : Spec.State} (G : Good s A) (r : Nat) (hr : ∃ l, A.formats r = some l) :
    ∃ t, dupXf s r = some t ∧ Good t { A with formats := upd A.formats s.xfs.length (A.formats r) } := by
  obtain ⟨lr, hlr⟩ := hr
  obtain ⟨-, x, h1, h2⟩ := G.rel.formats r lr hlr
  obtain ⟨e, h3, rfl⟩ := xv_get h1
  obtain ⟨t, t1, t2, t3, t4, -, t6, -⟩ := dup_step G.inv r e h3 _ _ lr h2
  have exv : xv t = xv s ++ [{ e.xf with isUser := true }] := by simp [xv, t6]
  have hp : xv s <+: xv s ++ [{ e.xf with isUser := true }] := List.prefix_append _ _
  refine ⟨t, t1, by rw [t4]; exact t2, ?_⟩
  rw [exv, t3, t4, hlr]
  refine ⟨G.rel.stock, getElem?_prefix hp G.rel.x15, G.rel.fonts, ?_, ?_, G.rel.gone⟩
  · intro q l hq
    have hq : upd A.formats s.xfs.length (some lr) q = some l := hq
    by_cases hc : q = s.xfs.length
    · rw [upd, if_pos hc] at hq
      cases Option.some.inj hq
      exact ⟨by have := G.inv.many; omega, _, by rw [hc, ← xv_len]; simp, h2.user⟩
    · rw [upd, if_neg hc] at hq
      obtain ⟨a, x, b, d⟩ := G.rel.formats q l hq
      exact ⟨a, x, getElem?_prefix hp b, d⟩
  · intro c q hc
    obtain ⟨a, x, l, b, d, e⟩ := G.rel.live c q hc
    exact ⟨a, x, l, getElem?_prefix hp b, d, e⟩

theorem sim_xf {s : State} {A : Spec.State} (G : Good s A) (q : Nat) (o : Xf.Op) (hq : ∃ l, A.formats q = some l) (ho : CallOk A o)
    (hu : ∀ e, s.xfs[q]? = some e → e.used = false) :
    ∃ t, setOn s q o = some t ∧ Good t { A with formats := upd A.formats q ((A.formats q).map (onCall · o)) } := by
  obtain ⟨l, hl⟩ := hq
  obtain ⟨h21, x, h1, h2⟩ := G.rel.formats q l hl
  obtain ⟨e, h3, rfl⟩ := xv_get h1
  obtain ⟨x', o1, o2, o3⟩ := h2.call o ho.1 ho.2
  obtain ⟨t, t1, t2, t3, t4, t5, t6⟩ := G.inv.setOn q e h3 (hu e h3) o x' o1 o3
    (by intro p hp; obtain ⟨h, hh⟩ := ho.2 p hp; exact (G.mine hh).2)
  have same : (xv t)[q]? = some x' := by
    rw [xv, t4, List.getElem?_map, mod_same _ h3]
    rfl
  have other : ∀ q', q' ≠ q → (xv t)[q']? = (xv s)[q']? := by
    intro q' hne
    rw [xv, t4, List.getElem?_map, mod_ne _ hne, xv, List.getElem?_map]
  refine ⟨t, t1, by rw [t5]; exact t2, ?_⟩
  rw [t3, t5]
  refine ⟨G.rel.stock, by rw [other 15 (by omega)]; exact G.rel.x15, G.rel.fonts, ?_, ?_, G.rel.gone⟩
  · intro q' l' hq'
    have hq' : upd A.formats q ((A.formats q).map (onCall · o)) q' = some l' := hq'
    by_cases hc : q' = q
    · subst hc
      rw [upd, if_pos rfl, hl] at hq'
      cases Option.some.inj hq'
      exact ⟨h21, x', same, o2⟩
    · rw [upd, if_neg hc] at hq'
      obtain ⟨a, x, b, d⟩ := G.rel.formats q' l' hq'
      exact ⟨a, x, by rw [other q' hc, b], d⟩
  · intro c q' hc
    have hne : q' ≠ q := by
      rintro rfl
      have h1 := on_pos hc
      have h2 := G.inv.use q' e h3
      have h3 := h2.2 (hu e h3)
      omega
    obtain ⟨a, x, l, b, d, e⟩ := G.rel.live c q' hc
    exact ⟨a, x, l, by rw [other q' hne, b], d, e⟩

theorem on_append (cells : List (Option Nat)) (r : Nat) : on (cells ++ [some r]) = plus (on cells) r := by
  funext q
  unfold on plus
  rw [List.count_append, List.count_singleton]
  by_cases hc : q = r
  · simp [hc]
  · have : ¬ r = q := fun h => hc h.symm
    simp [hc, this]

theorem sim_newCell {s : State} {A : Spec.State} (G : Good s A) (r : Nat) (hr : r = 15 ∨ 21 ≤ r) (e : XEnt)
    (he : s.xfs[r]? = some e) (hd : dead e = false) (l : Look) (hl : Looks (fv s) A.fonts e.xf l) :
    Good (markXf { s with cells := s.cells ++ [some r] } r) { A with cells := upd A.cells s.cells.length (some l) } := by
  refine ⟨?_, ?_⟩
  · have := G.inv.mark r e he (by simp [hd])
    show Inv (on (s.cells ++ [some r])) _
    rw [on_append]
    exact ⟨⟨this.fonts.1, this.fonts.2, this.fonts.3⟩, this.many, this.ptr, this.use, this.out, this.shared, this.index, this.next⟩
  · have exv : xv (markXf { s with cells := s.cells ++ [some r] } r) = xv s := map_modify_same XEnt.xf _ (by intro a; rfl) _ _
    rw [exv]
    refine ⟨G.rel.stock, G.rel.x15, G.rel.fonts, G.rel.formats, ?_, ?_⟩
    · intro c q hc
      have hc : (s.cells ++ [some r])[c]? = some (some q) := hc
      rcases Nat.lt_trichotomy c s.cells.length with hlt | heq | hgt
      · rw [List.getElem?_append_left hlt] at hc
        obtain ⟨a, x, l', b, d, k⟩ := G.rel.live c q hc
        refine ⟨a, x, l', b, ?_, k⟩
        show upd A.cells s.cells.length (some l) c = some l'
        rw [upd, if_neg (by omega), d]
      · subst heq
        simp at hc
        subst hc
        exact ⟨hr, e.xf, l, get_xv he, by simp [upd], hl⟩
      · rw [List.getElem?_eq_none (by simp; omega)] at hc
        simp at hc
    · intro c hc
      show upd A.cells s.cells.length (some l) c = none
      by_cases heq : c = s.cells.length
      · subst heq
        exact absurd (show (s.cells ++ [some r])[s.cells.length]? = some (some r) by simp) (hc r)
      · rw [upd, if_neg heq]
        refine G.rel.gone c fun q hq => hc q ?_
        exact (getElem?_prefix (List.prefix_append _ _) hq : (s.cells ++ [some r])[c]? = _)

theorem sim_destroy {s : State} {A : Spec.State} (G : Good s A) (c : Nat) (hc : ∃ l, A.cells c = some l) :
    ∃ t, destroy s c = some t ∧ Good t { A with cells := upd A.cells c none } := by
  obtain ⟨l, hl⟩ := hc
  obtain ⟨q, e, h1, h2, h3, h4⟩ := G.cell hl
  have hcl : c < s.cells.length := (List.getElem?_eq_some_iff.mp h1).1
  have hi : Inv (on s.cells) { s with cells := s.cells.set c none } :=
    ⟨⟨G.inv.fonts.1, G.inv.fonts.2, G.inv.fonts.3⟩, G.inv.many, G.inv.ptr, G.inv.use, G.inv.out, G.inv.shared, G.inv.index, G.inv.next⟩
  obtain ⟨t, t1, t2, t3, t4, t5, -, -, -⟩ := hi.unmark q e h3 (on_pos h1)
  refine ⟨t, by simp only [destroy, h1, Option.join_some, Option.bind_some, t1], ?_, ?_⟩
  · rw [t5]
    show Inv (on (s.cells.set c none)) t
    rw [on_gone h1]
    exact t2
  · rw [t3, t4, t5]
    refine ⟨G.rel.stock, G.rel.x15, G.rel.fonts, G.rel.formats, ?_, ?_⟩
    · intro c' q' hc'
      have hc' : (s.cells.set c none)[c']? = some (some q') := hc'
      have hne : c' ≠ c := by
        rintro rfl
        rw [List.getElem?_set_self hcl] at hc'
        simp at hc'
      rw [List.getElem?_set_ne (fun h => hne h.symm)] at hc'
      obtain ⟨a, x, l', b, d, k⟩ := G.rel.live c' q' hc'
      exact ⟨a, x, l', b, by simp [upd, hne, d], k⟩
    · intro c' hc'
      show upd A.cells c none c' = none
      by_cases e : c' = c
      · rw [upd, if_pos e]
      · rw [upd, if_neg e]
        refine G.rel.gone c' fun q' hq' => hc' q' ?_
        show (s.cells.set c none)[c']? = _
        rw [List.getElem?_set_ne (fun h => e h.symm), hq']

/-- `SetXF` with any format object that some cell uses, or none ever did. -/
theorem sim_adopt {s : State} {A : Spec.State} (G : Good s A) (c r : Nat) (hc : ∃ l, A.cells c = some l)
    (er : XEnt) (k3 : s.xfs[r]? = some er) (k21 : r = 15 ∨ 21 ≤ r) (hd : dead er = false) (lr : Look) (k2 : Looks (fv s) A.fonts er.xf lr) :
    ∃ t, setXf s c r = some t ∧ Good t { A with cells := upd A.cells c (some lr) } ∧ t.cells = s.cells.set c (some r) ∧ xv t = xv s ∧
      fv t = fv s := by
  obtain ⟨l, hl⟩ := hc
  obtain ⟨q, e, h1, h2, h3, h4⟩ := G.cell hl
  have hcl : c < s.cells.length := (List.getElem?_eq_some_iff.mp h1).1
  have k1 := get_xv k3
  let s1 : State := { s with cells := s.cells.set c (some r) }
  have hi : Inv (on s.cells) s1 :=
    ⟨⟨G.inv.fonts.1, G.inv.fonts.2, G.inv.fonts.3⟩, G.inv.many, G.inv.ptr, G.inv.use, G.inv.out, G.inv.shared, G.inv.index, G.inv.next⟩
  have hm := hi.mark r er k3 (by simp [hd])
  obtain ⟨e', h3'⟩ : ∃ e', (markXf s1 r).xfs[q]? = some e' := by
    by_cases hc : q = r
    · subst hc; exact ⟨_, mod_same _ h3⟩
    · exact ⟨e, (mod_ne _ hc).trans h3⟩
  have hn : 1 ≤ plus (on s.cells) r q := by
    have := on_pos h1
    unfold plus
    split <;> omega
  obtain ⟨t, t1, t2, t3, t4, t5, -, -, -⟩ := hm.unmark q e' h3' hn
  have exv : xv (markXf s1 r) = xv s := map_modify_same XEnt.xf _ (by intro a; rfl) _ _
  refine ⟨t, ?_, ⟨?_, ?_⟩, t5, t4.trans exv, t3⟩
  · simp only [setXf, h1, Option.join_some, Option.bind_some]
    exact t1
  · rw [t5]
    show Inv (on (s.cells.set c (some r))) t
    rw [on_set h1, ← plus_minus _ _ _ (on_pos h1)]
    exact t2
  · rw [t3, t4, t5, exv]
    exact G.rel.set (List.prefix_refl _) (List.prefix_refl _) c r hcl er.xf k1 k21 lr k2

theorem Looks.seqRun {fw} {A : Spec.State} {x y : Xf} {l : Look} (h : Looks fw A.fonts x l) (ops : List Xf.Op) (ho : ∀ o ∈ ops, CallOk A o)
    (hr : seqRun x ops = some y) : Looks fw A.fonts y (ops.foldl onCall l) := by
  induction ops generalizing x l with
  | nil => cases hr; exact h
  | cons o r ih =>
    obtain ⟨x', h1, h2, -⟩ := h.user.call o (ho o (by simp)).1 (ho o (by simp)).2
    rw [Styles.seqRun, h1, Option.bind_some] at hr
    exact ih h2 (fun o h => ho o (by simp [h])) hr

theorem sim_setXf {s : State} {A : Spec.State} (G : Good s A) (c r : Nat) (hc : ∃ l, A.cells c = some l)
    (hr : ∃ l, A.formats r = some l) (hd : ∀ e, s.xfs[r]? = some e → dead e = false) :
    ∃ t, setXf s c r = some t ∧ Good t { A with cells := upd A.cells c (A.formats r) } := by
  obtain ⟨lr, hlr⟩ := hr
  obtain ⟨k21, x, k1, k2⟩ := G.rel.formats r lr hlr
  obtain ⟨er, k3, rfl⟩ := xv_get k1
  obtain ⟨t, t1, t2, -⟩ := sim_adopt G c r hc er k3 (.inr k21) (hd er k3) lr k2
  exact ⟨t, t1, by rw [hlr]; exact t2⟩

/-- Every action. -/
theorem sim {s : State} {A : Spec.State} (G : Good s A) (a : Action) (ha : Ok s A a) (hmany : s.fonts.length < 65535) :
    ∃ t, step s a = some t ∧ Good t (Spec.step (handle s a) A a) := by
  cases a with
  | newFont n => exact ⟨_, rfl, sim_newFont G n ha⟩
  | stockFont n => exact sim_stockFont G n ha
  | copyFont p => exact sim_copyFont G p ha
  | copyXf q => exact sim_copyXf G q ha
  | font p o => exact sim_font G p o ha.1 ha.2
  | newXf => exact ⟨_, by rw [step, Xf.new_user, Option.map_some], sim_newXf G⟩
  | xf q o => exact sim_xf G q o ha.1 ha.2.1 ha.2.2
  | newCell q =>
    refine ⟨_, rfl, ?_⟩
    cases q with
    | none =>
      obtain ⟨e, h1, h2⟩ := xv_get G.rel.x15
      have hu := (G.inv.use 15 e h1).1
      have hd : dead e = false := by
        have : e.usage ≠ 0 := by
          rw [if_pos (by decide)] at hu
          omega
        simp [dead, this]
      exact sim_newCell G 15 (.inl rfl) e h1 hd plain (by rw [h2]; exact fresh_looks _ _ false)
    | some q =>
      obtain ⟨⟨l, hl⟩, hd⟩ := ha
      obtain ⟨h21, x, h1, h2⟩ := G.rel.formats q l hl
      obtain ⟨e, h3, rfl⟩ := xv_get h1
      have := sim_newCell G q (.inr h21) e h3 (hd e h3) l h2
      rw [Spec.step, hl]
      exact this
  | destroy c => exact sim_destroy G c ha
  | setXf c q => exact sim_setXf G c q ha.1 ha.2.1 ha.2.2
  | adopt c p ops =>
    obtain ⟨⟨l, hl⟩, ho, hp, q, e, ep, h1, h2, h3, h4, h5⟩ := ha
    obtain ⟨q', e', g1, g2, g3, g4⟩ := G.cell hl
    rw [h1] at g1
    cases Option.some.inj (Option.some.inj g1)
    rw [h2] at g3
    cases Option.some.inj g3
    obtain ⟨t, t1, t2, -⟩ := sim_adopt G c p ⟨l, hl⟩ ep h3 hp h4 _ (g4.seqRun ops ho h5)
    refine ⟨t, t1, ?_⟩
    rw [Spec.step, hl]
    exact t2
  | cell c o => exact sim_cell G c o ha.1 ha.2
  | cellFont c o => exact sim_cellFont G c o ha.1 ha.2 hmany

end Xls.Styles
