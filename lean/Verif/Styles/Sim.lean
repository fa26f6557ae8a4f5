import Verif.Styles.Ops
/-
Every action keeps the objects in step with the specification.
-/
namespace Xls.Styles
open Xls.Xf (Xf)
open Xls.Font (Font FOp)
open Spec

/-- The arguments of a format call are valid, and a font is one of the program's. -/
def CallOk (A : Spec.State) (o : Xf.Op) : Prop := Xf.Spec.Valid o ∧ ∀ p, o = .font (some p) → ∃ h, A.fonts p = some h

/-- The calls on the copies of a format that the cell's operations make. -/
def seqRun : Xf → List Xf.Op → Option Xf
  | x, [] => some x
  | x, o :: r => (o.run { x with isUser := true }).bind (seqRun · r)

/-- The objects exist and the arguments are valid.  Two conditions are there because the claim fails without them: a format is
    not changed once a cell uses it (`c29_adopted_format`: not even the program can know that one does), and a format is not
    given to cells again after all its cells gave it up (`c29_revived_format`). -/
def Ok (s : State) (A : Spec.State) : Action → Prop
  | .newFont n => n.length < 256
  | .stockFont n => n < 5
  | .copyFont p => ∃ h, A.fonts p = some h
  | .font p o => (∃ h, A.fonts p = some h) ∧ Font.Spec.Valid o
  | .newXf => True
  | .copyXf q => ∃ l, A.formats q = some l
  | .xf q o => (∃ l, A.formats q = some l) ∧ CallOk A o ∧ ∀ e, s.xfs[q]? = some e → e.used = false
  | .newCell none => True
  | .newCell (some q) => (∃ l, A.formats q = some l) ∧ ∀ e, s.xfs[q]? = some e → dead e = false
  | .destroy c => ∃ l, A.cells c = some l
  | .setXf c q => (∃ l, A.cells c = some l) ∧ (∃ l, A.formats q = some l) ∧ ∀ e, s.xfs[q]? = some e → dead e = false
  | .adopt c p ops => (∃ l, A.cells c = some l) ∧ (∀ o ∈ ops, CallOk A o) ∧ (p = 15 ∨ 21 ≤ p) ∧
      ∃ q e ep, s.cells[c]? = some (some q) ∧ s.xfs[q]? = some e ∧ s.xfs[p]? = some ep ∧ dead ep = false ∧ seqRun e.xf ops = some ep.xf
  | .cell c o => (∃ l, A.cells c = some l) ∧ CallOk A o
  | .cellFont c o => (∃ l, A.cells c = some l) ∧ Font.Spec.Valid o

/-- The handle of the object an action makes. -/
def handle (s : State) : Action → Nat
  | .newFont _ => s.fonts.length
  | .stockFont _ => s.fonts.length
  | .newXf => s.xfs.length
  | .copyFont _ => s.fonts.length
  | .copyXf _ => s.xfs.length
  | _ => s.cells.length

structure Good (s : State) (A : Spec.State) : Prop where
  inv : Inv (on s.cells) s
  rel : Rel (fv s) (xv s) s.cells A

theorem fv_len (s : State) : (fv s).length = s.fonts.length := by simp [fv]
theorem xv_len (s : State) : (xv s).length = s.xfs.length := by simp [xv]

theorem xv_get {s : State} {q : Nat} {x : Xf} (h : (xv s)[q]? = some x) : ∃ e, s.xfs[q]? = some e ∧ e.xf = x := by
  simpa [xv, List.getElem?_map] using h

theorem fv_get {s : State} {q : Nat} {x : Font} (h : (fv s)[q]? = some x) : ∃ e, s.fonts[q]? = some e ∧ e.font = x := by
  simpa [fv, List.getElem?_map] using h

theorem get_xv {s : State} {q : Nat} {e : XEnt} (h : s.xfs[q]? = some e) : (xv s)[q]? = some e.xf := by simp [xv, h]

theorem get_fv {s : State} {q : Nat} {e : FEnt} (h : s.fonts[q]? = some e) : (fv s)[q]? = some e.font := by simp [fv, h]

theorem Good.cell {s : State} {A : Spec.State} (G : Good s A) {c : Nat} {l : Look} (h : A.cells c = some l) :
    ∃ q e, s.cells[c]? = some (some q) ∧ (q = 15 ∨ 21 ≤ q) ∧ s.xfs[q]? = some e ∧ Looks (fv s) A.fonts e.xf l := by
  by_cases hc : ∃ q, s.cells[c]? = some (some q)
  · obtain ⟨q, hq⟩ := hc
    obtain ⟨h1, x, l', h2, h3, h4⟩ := G.rel.live c q hq
    obtain ⟨e, h5, h6⟩ := xv_get h2
    rw [h] at h3
    cases Option.some.inj h3
    exact ⟨q, e, hq, h1, h5, h6 ▸ h4⟩
  · have := G.rel.gone c (fun q hq => hc ⟨q, hq⟩)
    rw [h] at this
    simp at this

theorem Good.mine {s : State} {A : Spec.State} (G : Good s A) {p : Nat} {h : FontH} (hp : A.fonts p = some h) :
    5 ≤ p ∧ p < s.fonts.length := by
  obtain ⟨h1, f, h2, -⟩ := G.rel.fonts p h hp
  exact ⟨h1, by rw [← fv_len]; exact (List.getElem?_eq_some_iff.mp h2).1⟩

/-- The copy of a cell's format. -/
theorem dup_step {n : Nat → Nat} {s : State} (h : Inv n s) (q : Nat) (e : XEnt) (he : s.xfs[q]? = some e) (fw : List Font)
    (mine : Nat → Option FontH) (l : Look) (hl : Looks fw mine e.xf l) :
    ∃ t, dupXf s q = some t ∧ Inv n t ∧ fv t = fv s ∧ t.cells = s.cells ∧ t.fonts.length = s.fonts.length ∧
      t.xfs = s.xfs ++ [⟨{ e.xf with isUser := true }, s.xfNext, 0, false⟩] ∧
      (∀ p, p < s.fonts.length → usage t p = usage s p + if e.xf.font = some p then 1 else 0) := by
  obtain ⟨r1, r2, r3, r4⟩ := mark_rest s e.xf.font
  refine ⟨addXf (markFont? s e.xf.font) { e.xf with isUser := true }, ?_, h.add { e.xf with isUser := true } (h.ptr e (List.mem_of_getElem? he)),
    r4, r3, mark_len _ _, ?_, ?_⟩
  · simp only [dupXf, he, Option.map_some, hl.dup]
  · simp [addXf, r1, r2]
  · intro p hp
    exact usage_mark s e.xf.font p hp

/-- The end of a cell operation. -/
theorem settle_step {s : State} {n : Nat → Nat} (h : Inv n s) (c q : Nat) (xs : List XEnt) (t : XEnt) (hs : s.xfs = xs ++ [t])
    (ht : t.used = false) (hl : 21 ≤ xs.length) (hq : q < xs.length) (hn : 1 ≤ n q) :
    ∃ r u, settle s c q = some u ∧ Inv (plus (minus n q) r) u ∧ fv u = fv s ∧ 21 ≤ r ∧ u.cells = s.cells.set c (some r) ∧
      u.fonts.length = s.fonts.length ∧ xs.map (·.xf) <+: xv u ∧ (xv u)[r]? = some t.xf ∧
      (r = xs.length → xv u = xv s) ∧ (r ≠ xs.length → ∃ e ∈ xs, e.xf = t.xf) := by
  have he : s.xfs[q]? = some xs[q] := by rw [hs, List.getElem?_append_left hq, List.getElem?_eq_getElem hq]
  obtain ⟨s1, u1, u2, u3, u4, u5, u6, -, u7⟩ := h.unmark q _ he hn
  have hlast := u7 xs.length t (by omega) (by rw [hs]; simp)
  have hlen : s1.xfs.length = xs.length + 1 := by
    have := congrArg List.length u4
    rw [xv_len, xv_len, hs] at this
    simpa using this
  have hs1 : s1.xfs = s1.xfs.take xs.length ++ [t] := by
    have e1 := (List.take_append_drop xs.length s1.xfs).symm
    have e2 : s1.xfs.drop xs.length = [t] := by
      apply List.ext_getElem?
      intro i
      rw [List.getElem?_drop]
      cases i with
      | zero => simpa using hlast
      | succ i => rw [List.getElem?_eq_none (by omega)]; simp
    rw [e2] at e1
    exact e1
  have hmap : (s1.xfs.take xs.length).map (·.xf) = xs.map (·.xf) := by
    have : (xv s1).take xs.length = (xv s).take xs.length := by rw [u4]
    rw [xv, xv, ← List.map_take, ← List.map_take, hs, List.take_left'  rfl] at this
    exact this
  obtain ⟨r, u, a1, a2, a3, a4, a5, a6, a7⟩ := u2.adopt (s1.xfs.take xs.length) t hs1 ht (by rw [List.length_take]; omega)
  have tl : (s1.xfs.take xs.length).length = xs.length := by rw [List.length_take]; omega
  let w : State := markXf { u with cells := u.cells.set c (some r) } r
  have ew : xv w = xv u := map_modify_same XEnt.xf _ (by intro a; rfl) _ _
  refine ⟨r, w, ?_, ?_, by rw [show fv w = fv u from rfl, a4, u3], a5, by rw [show w.cells = u.cells.set c (some r) from rfl, a2, u5],
    by rw [show w.fonts = u.fonts from rfl, a6, u6], ?_, ?_, ?_, ?_⟩
  · simp only [settle, u1, Option.bind_some, a1, Option.map_some]
    rfl
  · exact ⟨⟨a3.fonts.1, a3.fonts.2, a3.fonts.3⟩, a3.many, a3.ptr, a3.use, a3.out, a3.shared, a3.index, a3.next⟩
  · rw [ew]
    rcases a7 with ⟨b1, b2⟩ | ⟨b1, e, b2, b3⟩
    · rw [xv, b1, hs1, List.map_append, hmap]
      exact List.prefix_append _ _
    · rw [xv, b1, hmap]
      exact List.prefix_refl _
  · rw [ew]
    rcases a7 with ⟨b1, b2⟩ | ⟨b1, e, b2, b3⟩
    · rw [tl] at b2
      rw [xv, b1, b2, List.getElem?_map, hlast]
      rfl
    · rw [xv, b1, List.getElem?_map, b2, ← b3]
      rfl
  · intro hr
    rw [ew]
    rcases a7 with ⟨b1, b2⟩ | ⟨b1, e, b2, b3⟩
    · rw [xv, b1]
      exact u4
    · have := (List.getElem?_eq_some_iff.mp b2).1
      omega
  · intro hr
    rcases a7 with ⟨b1, b2⟩ | ⟨b1, e, b2, b3⟩
    · omega
    · have hm : e.xf ∈ xs.map (·.xf) := by rw [← hmap]; exact List.mem_map_of_mem (List.mem_of_getElem? b2)
      obtain ⟨e', h1, h2⟩ := List.mem_map.mp hm
      exact ⟨e', h1, by rw [h2, b3]⟩

/-- A format operation of a cell, with what it does to the objects. -/
theorem cell_exact {s : State} {A : Spec.State} (G : Good s A) (c : Nat) (o : Xf.Op) (l : Look) (hl : A.cells c = some l)
    (ho : CallOk A o) (q : Nat) (e : XEnt) (h1 : s.cells[c]? = some (some q)) (h3 : s.xfs[q]? = some e) (h4 : Looks (fv s) A.fonts e.xf l) :
    ∃ t r x, cellOp s c o = some t ∧ Good t { A with cells := upd A.cells c ((A.cells c).map (onCall · o)) } ∧
      t.cells = s.cells.set c (some r) ∧ xv s <+: xv t ∧ (xv t)[r]? = some x ∧ o.run { e.xf with isUser := true } = some x ∧
      fv t = fv s ∧ 21 ≤ r := by
  have hcl : c < s.cells.length := (List.getElem?_eq_some_iff.mp h1).1
  have hql : q < s.xfs.length := (List.getElem?_eq_some_iff.mp h3).1
  obtain ⟨s1, d1, d2, d3, d4, d5, d6, -⟩ := dup_step G.inv q e h3 _ _ l h4
  obtain ⟨x, o1, o2, o3⟩ := h4.user.call o ho.1 ho.2
  obtain ⟨s2, t1, t2, t3, t4, t5, t6⟩ := d2.setOn s.xfs.length ⟨{ e.xf with isUser := true }, s.xfNext, 0, false⟩ (by rw [d6]; simp) rfl o x o1 o3
    (by intro p hp; obtain ⟨h, hh⟩ := ho.2 p hp; rw [d5]; exact (G.mine hh).2)
  have hx2 : s2.xfs = s.xfs ++ [⟨x, s.xfNext, 0, false⟩] := by
    rw [t4, d6]
    obtain ⟨l1, l2, a, b, cc⟩ := split_at (s.xfs ++ [⟨{ e.xf with isUser := true }, s.xfNext, 0, false⟩]) s.xfs.length _
      (by rw [List.getElem?_append_right (Nat.le_refl _), Nat.sub_self]; rfl)
    rw [cc]
    obtain ⟨a1, a2⟩ := List.append_inj a b.symm
    rw [← a1]
    simp only [List.cons.injEq] at a2
    rw [← a2.2]
  obtain ⟨r, u, f1, f2, f3, f4, f5, f6, f7, f8, -, -⟩ := settle_step t2 c q s.xfs _ hx2 rfl G.inv.many hql (on_pos h1)
  refine ⟨u, r, x, ?_, ⟨?_, ?_⟩, by rw [f5, t5, d4], f7, f8, o1, by rw [f3, t3, d3], f4⟩
  · simp only [cellOp, h1, Option.join_some, Option.bind_some, d1, t1, f1]
  · rw [f5, t5, d4, on_set h1]
    exact f2
  · have e1 : fv u = fv s := by rw [f3, t3, d3]
    rw [f5, t5, d4, hl, Option.map_some, e1]
    exact G.rel.set (List.prefix_refl _) f7 c r hcl x f8 (.inr f4) _ o2

theorem sim_cell {s : State} {A : Spec.State} (G : Good s A) (c : Nat) (o : Xf.Op) (hc : ∃ l, A.cells c = some l)
    (ho : CallOk A o) : ∃ t, cellOp s c o = some t ∧ Good t { A with cells := upd A.cells c ((A.cells c).map (onCall · o)) } := by
  obtain ⟨l, hl⟩ := hc
  obtain ⟨q, e, h1, h2, h3, h4⟩ := G.cell hl
  obtain ⟨t, r, x, h5, h6, -⟩ := cell_exact G c o l hl ho q e h1 h3 h4
  exact ⟨t, h5, h6⟩

theorem sim_cellFont {s : State} {A : Spec.State} (G : Good s A) (c : Nat) (o : FOp) (hc : ∃ l, A.cells c = some l)
    (ho : Font.Spec.Valid o) (hmany : s.fonts.length < 65535) :
    ∃ t, cellFont s c o = some t ∧ Good t { A with cells := upd A.cells c ((A.cells c).bind (onFontCall A · o)) } := by
  obtain ⟨l, hl⟩ := hc
  obtain ⟨q, e, h1, h2, h3, h4⟩ := G.cell hl
  have hcl : c < s.cells.length := (List.getElem?_eq_some_iff.mp h1).1
  have hql : q < s.xfs.length := (List.getElem?_eq_some_iff.mp h3).1
  obtain ⟨s1, d1, d2, d3, d4, d5, d6, d7⟩ := dup_step G.inv q e h3 _ _ l h4
  have hlast : s1.xfs[s.xfs.length]? = some ⟨{ e.xf with isUser := true }, s.xfNext, 0, false⟩ := by rw [d6]; simp
  -- the font the cell has now
  have hnow : ∃ f h, FontIs f h ∧ fontOf A l = some h ∧
      (match e.xf.font with
        | none => (s1.fonts[0]?).bind fun d => setOn (addFont s1 d.font) s.xfs.length (.font (some s1.fonts.length))
        | some p => (s1.fonts[p]?).bind fun f =>
          if f.usage > 1 then setOn (addFont s1 f.font) s.xfs.length (.font (some s1.fonts.length)) else some s1) =
      setOn (addFont s1 f) s.xfs.length (.font (some s1.fonts.length)) := by
    have hf := h4.font
    have used : ∀ p, e.xf.font = some p → ∀ f, s1.fonts[p]? = some f → f.usage > 1 := by
      intro p hp f hf
      have hpl := G.inv.ptr e (List.mem_of_getElem? h3) p hp
      have hu := G.inv.use q e h3
      have hn := on_pos h1
      have hnd : dead e = false := by
        have : e.usage ≠ 0 := by omega
        simp [dead, this]
      have h5 := G.inv.shared p hpl
      have h6 : 1 ≤ refs s.xfs p := List.countP_pos_iff.mpr ⟨e, List.mem_of_getElem? h3, by simp [holds, hp, hnd]⟩
      have h7 := d7 p hpl
      rw [if_pos hp] at h7
      have h8 : usage s1 p = f.usage := by simp only [usage, hf]
      omega
    have real : ∀ p h, e.xf.font = some p → (∃ f, (fv s)[p]? = some f ∧ FontIs f h) → fontOf A l = some h → ∃ f h, FontIs f h ∧
        fontOf A l = some h ∧ (match e.xf.font with
          | none => (s1.fonts[0]?).bind fun d => setOn (addFont s1 d.font) s.xfs.length (.font (some s1.fonts.length))
          | some p => (s1.fonts[p]?).bind fun f =>
            if f.usage > 1 then setOn (addFont s1 f.font) s.xfs.length (.font (some s1.fonts.length)) else some s1) =
        setOn (addFont s1 f) s.xfs.length (.font (some s1.fonts.length)) := by
      rintro p h hp ⟨f, hf1, hf2⟩ hfo
      refine ⟨f, h, hf2, hfo, ?_⟩
      rw [← d3] at hf1
      obtain ⟨fe, g1, g2⟩ := fv_get hf1
      rw [hp]
      simp only [g1, Option.bind_some, if_pos (used p hp fe g1), g2]
    revert hf
    cases hlf : l.font with
    | shared p =>
      rintro ⟨k1, k2, h, k3⟩
      obtain ⟨-, f, b, d⟩ := G.rel.fonts p h k3
      exact real p h k1 ⟨f, b, d⟩ (by simp only [fontOf, hlf, k3])
    | own h =>
      rintro (⟨k1, k2⟩ | ⟨p, f, k1, k2, k3, k4, k5⟩)
      · have h0 := G.rel.f0
        obtain ⟨d, hd⟩ : ∃ d, Font.defaults[0]? = some d := ⟨_, rfl⟩
        rw [hd, ← d3] at h0
        obtain ⟨fe, g1, g2⟩ := fv_get h0
        refine ⟨d, h, ?_, by simp only [fontOf, hlf], ?_⟩
        · subst k2
          refine ⟨trivial, by simp, ?_⟩
          show (Font.defaults[0]?).bind _ = _
          rw [hd]
          rfl
        · rw [k1]
          simp only [g1, Option.bind_some, g2]
      · exact real p h k1 ⟨f, k4, k5⟩ (by simp only [fontOf, hlf])
  obtain ⟨f, h, n1, n2, n3⟩ := hnow
  obtain ⟨f', m1, m2⟩ := n1.call o ho
  have hp' : A.fonts s.fonts.length = none := by
    cases hh : A.fonts s.fonts.length with
    | none => rfl
    | some g => have := (G.mine hh).2; omega
  have af := d2.addFont f
  have afl : (addFont s1 f).fonts.length = s.fonts.length + 1 := by simp [addFont, d5]
  obtain ⟨s2, t1, t2, t3, t4, t5, t6⟩ := af.setOn s.xfs.length ⟨{ e.xf with isUser := true }, s.xfNext, 0, false⟩ hlast rfl
    (.font (some s1.fonts.length)) (Xf.setFont { e.xf with isUser := true } (some s1.fonts.length)) rfl rfl
    (by intro p hp; rw [afl]; simp at hp; omega)
  have hx2 : s2.xfs = s.xfs ++ [⟨Xf.setFont { e.xf with isUser := true } (some s1.fonts.length), s.xfNext, 0, false⟩] := by
    rw [t4, show (addFont s1 f).xfs = s1.xfs from rfl, d6]
    obtain ⟨l1, l2, a, b, cc⟩ := split_at (s.xfs ++ [⟨{ e.xf with isUser := true }, s.xfNext, 0, false⟩]) s.xfs.length _
      (by rw [List.getElem?_append_right (Nat.le_refl _), Nat.sub_self]; rfl)
    rw [cc]
    obtain ⟨a1, a2⟩ := List.append_inj a b.symm
    rw [← a1]
    simp only [List.cons.injEq] at a2
    rw [← a2.2]
  obtain ⟨r, u, f1, f2, f3, f4, f5, f6, f7, f8, f9, f10⟩ := settle_step t2 c q s.xfs _ hx2 rfl G.inv.many hql (on_pos h1)
  -- no other format has the new font
  have hr : r = s.xfs.length := by
    apply Classical.byContradiction
    intro hne
    obtain ⟨e', g1, g2⟩ := f10 hne
    have : e'.xf.font = some s1.fonts.length := by rw [g2]; rfl
    have := G.inv.ptr e' g1 _ this
    omega
  have eset : setCellFont s c = some u := by
    simp only [setCellFont, h1, Option.join_some, Option.bind_some, d1, hlast]
    refine (congrArg (fun z => Option.bind z fun s2 => settle s2 c q) n3).trans ?_
    simp only [t1, Option.bind_some, f1]
  have efv : fv u = fv s ++ [f] := by
    rw [f3, t3, show fv (addFont s1 f) = fv s1 ++ [f] by simp [fv, addFont], d3]
  have exv : xv u = xv s ++ [Xf.setFont { e.xf with isUser := true } (some s.fonts.length)] := by
    rw [f9 hr, xv, hx2, xv, List.map_append, d5]
    rfl
  have hcu : u.cells[c]? = some (some r) := by
    rw [f5, t5, show (addFont s1 f).cells = s1.cells from rfl, d4, List.getElem?_set_self hcl]
  obtain ⟨eu, g1, g2⟩ := xv_get f8
  have efont : eu.xf.font = some s.fonts.length := by rw [g2, d5]; rfl
  obtain ⟨fe, k1, k2⟩ : ∃ fe, u.fonts[s.fonts.length]? = some fe ∧ fe.font = f := by
    apply fv_get
    rw [efv, ← fv_len s]
    simp
  let w : State := { u with fonts := u.fonts.modify s.fonts.length fun f => { f with font := f' } }
  refine ⟨w, ?_, ?_, ?_⟩
  · simp only [cellFont, eset, Option.bind_some, hcu, Option.join_some, g1, efont, setFontOn, k1, k2, m1, Option.map_some]
    rfl
  · have : Inv (on w.cells) u := by
      rw [show w.cells = u.cells from rfl, f5, t5, show (addFont s1 f).cells = s1.cells from rfl, d4, on_set h1]
      exact f2
    refine ⟨this.fonts.modify _ _ (fun _ => rfl), this.many, ?_, this.use, this.out, ?_, this.index, this.next⟩
    · intro e' he' p hp
      rw [show w.fonts.length = u.fonts.length from List.length_modify ..]
      exact this.ptr e' he' p hp
    · intro p hp
      rw [show w.fonts.length = u.fonts.length from List.length_modify ..] at hp
      rw [show usage w p = _ from usage_modify u s.fonts.length (fun f => { f with font := f' }) id (fun _ => rfl) p hp]
      have h' := this.shared p hp
      rw [show w.xfs = u.xfs from rfl]
      split
      · exact h'
      · exact h'
  · have ew : fv w = fv s ++ [f'] := by
      apply List.ext_getElem?
      intro i
      have base : (fv u)[i]? = (fv s ++ [f])[i]? := by rw [efv]
      by_cases hi : i = s.fonts.length
      · subst hi
        rw [show fv w = (u.fonts.modify s.fonts.length _).map _ from rfl, List.getElem?_map, mod_same _ k1, ← fv_len s]
        simp
      · rw [show fv w = (u.fonts.modify s.fonts.length _).map _ from rfl, List.getElem?_map, mod_ne _ hi]
        rw [show (u.fonts[i]?).map FEnt.font = (fv u)[i]? by simp [fv], base]
        rcases Nat.lt_or_ge i (fv s).length with hc | hc
        · rw [List.getElem?_append_left hc, List.getElem?_append_left hc]
        · have : i ≠ (fv s).length := by rw [fv_len]; exact hi
          rw [List.getElem?_eq_none (by simp; omega), List.getElem?_eq_none (by simp; omega)]
    rw [ew, show xv w = xv u from rfl, show w.cells = u.cells from rfl, f5, t5, show (addFont s1 f).cells = s1.cells from rfl, d4, hl,
      Option.bind_some, onFontCall, n2, Option.map_some]
    rw [d5] at f8
    have hlook : Looks (fv s ++ [f']) A.fonts { e.xf with isUser := true } l := h4.user.mono (List.prefix_append _ _)
    refine G.rel.set (List.prefix_append _ _) (by rw [exv]; exact List.prefix_append _ _) c r hcl _ f8 (.inr f4) _ ?_
    exact hlook.ownFont s.fonts.length hmany f' (by rw [← fv_len]; simp) _ hp' m2

end Xls.Styles
