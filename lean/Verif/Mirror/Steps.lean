import Verif.Mirror.Values
/-
What every action on fonts, formats and cells does to their values, whatever program calls it: no condition on what is shared, changed or given up.
-/
namespace Xls.Mirror
open Xls.Xf (Xf)
open Xls.Font (Font FOp)
open Xls.Styles

/-! ### Values of the objects -/

theorem mark_vals (s : State) (p : Option Nat) : fv (markFont? s p) = fv s ∧ xv (markFont? s p) = xv s ∧ (markFont? s p).cells = s.cells := by
  cases p with
  | none => exact ⟨rfl, rfl, rfl⟩
  | some p => exact ⟨map_modify_same Styles.FEnt.font (fun f => { f with usage := f.usage + 1 }) (fun _ => rfl) _ _, rfl, rfl⟩

theorem unmark_vals (s : State) (p : Option Nat) : fv (unmarkFont? s p) = fv s ∧ xv (unmarkFont? s p) = xv s ∧ (unmarkFont? s p).cells = s.cells := by
  cases p with
  | none => exact ⟨rfl, rfl, rfl⟩
  | some p => exact ⟨map_modify_same Styles.FEnt.font (fun f => { f with usage := f.usage - 1 }) (fun _ => rfl) _ _, rfl, rfl⟩

theorem markXf_vals (s : State) (q : Nat) : fv (markXf s q) = fv s ∧ xv (markXf s q) = xv s ∧ (markXf s q).cells = s.cells :=
  ⟨rfl, map_modify_same Styles.XEnt.xf (fun e => { e with usage := e.usage + 1, used := true }) (fun _ => rfl) _ _, rfl⟩

theorem unmarkXf_vals {s : State} {q : Nat} (h : q < s.xfs.length) :
    ∃ t, unmarkXf s q = some t ∧ fv t = fv s ∧ xv t = xv s ∧ t.cells = s.cells := by
  have e1 : xv { s with xfs := s.xfs.modify q fun e => { e with usage := e.usage - 1 } } = xv s :=
    map_modify_same Styles.XEnt.xf (fun e => { e with usage := e.usage - 1 }) (fun _ => rfl) _ _
  unfold unmarkXf
  rw [List.getElem?_eq_getElem h, Option.map_some]
  refine ⟨_, rfl, ?_⟩
  dsimp only
  split
  · obtain ⟨a, b, c⟩ := unmark_vals { s with xfs := s.xfs.modify q fun e => { e with usage := e.usage - 1 } } s.xfs[q].xf.font
    exact ⟨a, b.trans e1, c⟩
  · exact ⟨rfl, e1, rfl⟩


theorem setOn_vals {s : State} {q : Nat} {o : Xf.Op} {x y : Xf} (hx : (xv s)[q]? = some x) (h : o.run x = some y) :
    ∃ t, setOn s q o = some t ∧ fv t = fv s ∧ xv t = (xv s).set q y ∧ t.cells = s.cells := by
  obtain ⟨e, he, rfl⟩ := xv_get hx
  have e1 : xv { s with xfs := s.xfs.modify q fun e => { e with xf := y } } = (xv s).set q y := by
    unfold xv
    refine List.ext_getElem? fun i => ?_
    by_cases hi : i = q
    · subst hi
      have := (List.getElem?_eq_some_iff.mp he).1
      simp [List.getElem?_map, mod_same _ he, this]
    · simp only [List.getElem?_map, mod_ne _ hi]
      rw [List.getElem?_set_ne (fun h => hi h.symm), List.getElem?_map]
  unfold setOn
  simp only [he, Option.bind_some, h, Option.map_some]
  refine ⟨_, rfl, ?_⟩
  cases o with
  | font f =>
    obtain ⟨a, b, c⟩ := unmark_vals { s with xfs := s.xfs.modify q fun e => { e with xf := y } } e.xf.font
    obtain ⟨a', b', c'⟩ := mark_vals (unmarkFont? { s with xfs := s.xfs.modify q fun e => { e with xf := y } } e.xf.font) f
    exact ⟨a'.trans a, b'.trans (b.trans e1), c'.trans c⟩
  | _ => exact ⟨rfl, e1, rfl⟩

theorem dup_vals {s : State} {q : Nat} {x : Xf} (hx : (xv s)[q]? = some x) :
    ∃ t, dupXf s q = some t ∧ fv t = fv s ∧ xv t = xv s ++ [Xf.dup x] ∧ t.cells = s.cells := by
  obtain ⟨e, he, rfl⟩ := xv_get hx
  unfold dupXf
  rw [he, Option.map_some]
  obtain ⟨a, b, c⟩ := mark_vals s e.xf.font
  refine ⟨_, rfl, a, ?_, c⟩
  show List.map _ (_ ++ [_]) = _
  rw [List.map_append]
  have b' : (markFont? s e.xf.font).xfs.map (·.xf) = xv s := b
  rw [b']
  rfl

/-- The end of a format operation: the cell gets a format equal to `y`, an old one or the new one. -/
theorem settle_vals {s : State} {c q : Nat} {old : List Xf} {y : Xf} (hs : xv s = old ++ [y]) (hq : q < old.length) :
    ∃ t i, settle s c q = some t ∧ fv t = fv s ∧ t.cells = s.cells.set c (some i) ∧
      ((i < old.length ∧ old[i]? = some y ∧ xv t = old) ∨ (i = old.length ∧ xv t = old ++ [y])) := by
  have hlen : s.xfs.length = old.length + 1 := by rw [← xv_len, hs]; simp
  obtain ⟨u, u1, u2, u3, u4⟩ := unmarkXf_vals (s := s) (q := q) (by omega)
  have hul : u.xfs.length = old.length + 1 := by rw [← xv_len, u3, hs]; simp
  have hlast : (xv u)[old.length]? = some y := by rw [u3, hs]; simp
  obtain ⟨e, he, rfl⟩ := xv_get hlast
  unfold settle
  rw [u1, Option.bind_some]
  unfold findXf
  rw [show u.xfs.length - 1 = old.length by omega, he, Option.map_some, Option.map_some]
  cases hf : (u.xfs.drop 21).findIdx? fun e' => e'.xf == e.xf with
  | none =>
    obtain ⟨a, b, d⟩ := markXf_vals { u with cells := u.cells.set c (some old.length) } old.length
    exact ⟨_, old.length, rfl, a.trans u2, d.trans (by show u.cells.set _ _ = _; rw [u4]), .inr ⟨rfl, b.trans (u3.trans hs)⟩⟩
  | some i =>
    dsimp only
    by_cases hi : 21 + i = old.length
    · rw [if_pos hi]
      obtain ⟨a, b, d⟩ := markXf_vals { u with cells := u.cells.set c (some (21 + i)) } (21 + i)
      exact ⟨_, old.length, rfl, a.trans u2, d.trans (by show u.cells.set _ _ = _; rw [u4, hi]), .inr ⟨rfl, b.trans (u3.trans hs)⟩⟩
    · rw [if_neg hi]
      obtain ⟨k1, k2, -⟩ := List.findIdx?_eq_some_iff_getElem.mp hf
      rw [List.length_drop] at k1
      have hlt : 21 + i < old.length := by omega
      have heq : old[21 + i]? = some e.xf := by
        have h1 : (xv u)[21 + i]? = some e.xf := by
          rw [xv, List.getElem?_map, List.getElem?_eq_getElem (by omega : 21 + i < u.xfs.length), Option.map_some]
          rw [List.getElem_drop] at k2
          rw [eq_of_beq k2]
        rw [u3, hs, List.getElem?_append_left hlt] at h1
        exact h1
      obtain ⟨a, b, d⟩ := markXf_vals { u with xfs := u.xfs.take old.length, xfNext := (u.xfNext + 65535) % 65536, cells := u.cells.set c (some (21 + i)) } (21 + i)
      refine ⟨_, 21 + i, rfl, a.trans u2, d.trans (by show u.cells.set _ _ = _; rw [u4]), .inl ⟨hlt, heq, b.trans ?_⟩⟩
      show (u.xfs.take old.length).map _ = _
      rw [List.map_take]
      show (xv u).take _ = _
      rw [u3, hs]
      simp

/-- The formats before and after: the one the cell now has is `y`, and all others are as before. -/
def Took (old new : List Xf) (i : Nat) (y : Xf) : Prop := (i < old.length ∧ old[i]? = some y ∧ new = old) ∨ (i = old.length ∧ new = old ++ [y])

/-- `Took` said with positions. -/
theorem Took.keeps {old new : List Xf} {i : Nat} {y : Xf} (h : Took old new i y) :
    new[i]? = some y ∧ old.length ≤ new.length ∧ (∀ q, q < old.length → new[q]? = old[q]?) ∧ ∀ x ∈ new, x ∈ old ∨ x = y := by
  rcases h with ⟨h1, h2, rfl⟩ | ⟨rfl, rfl⟩
  · exact ⟨h2, Nat.le_refl _, fun _ _ => rfl, fun x hx => .inl hx⟩
  · refine ⟨by simp, by simp, fun q hq => List.getElem?_append_left hq, fun x hx => ?_⟩
    rcases List.mem_append.mp hx with h | h
    · exact .inl h
    · exact .inr (List.mem_singleton.mp h)

/-- A format operation of a cell. -/
theorem cellOp_vals {s : State} {c q : Nat} {o : Xf.Op} {x y : Xf} (hc : s.cells[c]? = some (some q)) (hx : (xv s)[q]? = some x)
    (h : o.run (Xf.dup x) = some y) :
    ∃ t i, cellOp s c o = some t ∧ fv t = fv s ∧ t.cells = s.cells.set c (some i) ∧ Took (xv s) (xv t) i y := by
  obtain ⟨s1, a1, a2, a3, a4⟩ := dup_vals hx
  have hn : (xv s1)[(xv s).length]? = some (Xf.dup x) := by rw [a3]; simp
  obtain ⟨s2, b1, b2, b3, b4⟩ := setOn_vals hn h
  rw [a3, List.set_append_right _ _ (Nat.le_refl _), Nat.sub_self, List.set_cons_zero] at b3
  obtain ⟨t, i, c1, c2, c3, c4⟩ := settle_vals (c := c) (q := q) b3 (List.getElem?_eq_some_iff.mp hx).1
  refine ⟨t, i, ?_, c2.trans (b2.trans a2), by rw [c3, b4, a4], c4⟩
  unfold cellOp
  rw [hc, Option.join_some, Option.bind_some, a1, Option.bind_some, ← xv_len, b1, Option.bind_some, c1]

/-- `set_cell_font`: the font of the cell is afterwards a new copy of the one it had, or still that one. -/
theorem setCellFont_vals {s : State} {c q : Nat} {x : Xf} (hc : s.cells[c]? = some (some q)) (hx : (xv s)[q]? = some x) (h0 : 0 < s.fonts.length)
    (hp : ∀ p, x.font = some p → p < s.fonts.length) :
    ∃ t i p f, setCellFont s c = some t ∧ t.cells = s.cells.set c (some i) ∧ (fv s)[x.font.getD 0]? = some f ∧
      ((p = s.fonts.length ∧ fv t = fv s ++ [f] ∧ Took (xv s) (xv t) i (Xf.setFont (Xf.dup x) (some p))) ∨
       (x.font = some p ∧ fv t = fv s ∧ Took (xv s) (xv t) i (Xf.dup x))) := by
  obtain ⟨s1, a1, a2, a3, a4⟩ := dup_vals hx
  have hn : (xv s1)[(xv s).length]? = some (Xf.dup x) := by rw [a3]; simp
  obtain ⟨e, he, hex⟩ := xv_get hn
  rw [xv_len] at he
  have hfl : s1.fonts.length = s.fonts.length := by rw [← fv_len, a2, fv_len]
  have hqlt : q < (xv s).length := (List.getElem?_eq_some_iff.mp hx).1
  have new : ∀ f : Font, ∃ t i, ((setOn (addFont s1 f) s.xfs.length (.font (some s1.fonts.length))).bind fun s2 => settle s2 c q) = some t ∧
      t.cells = s.cells.set c (some i) ∧ fv t = fv s ++ [f] ∧ Took (xv s) (xv t) i (Xf.setFont (Xf.dup x) (some s.fonts.length)) := by
    intro f
    have hn' : (xv (addFont s1 f))[s.xfs.length]? = some (Xf.dup x) := by rw [← xv_len]; exact hn
    obtain ⟨s2, b1, b2, b3, b4⟩ := setOn_vals (o := .font (some s1.fonts.length)) hn' rfl
    have b3' : xv s2 = xv s ++ [Xf.setFont (Xf.dup x) (some s.fonts.length)] := by
      rw [b3, show xv (addFont s1 f) = xv s1 from rfl, a3, ← xv_len, List.set_append_right _ _ (Nat.le_refl _), Nat.sub_self, List.set_cons_zero, hfl]
    obtain ⟨t, i, c1, c2, c3, c4⟩ := settle_vals (c := c) (q := q) b3' hqlt
    refine ⟨t, i, by rw [b1, Option.bind_some, c1], by rw [c3, b4]; show (addFont s1 f).cells.set _ _ = _; rw [show (addFont s1 f).cells = s1.cells from rfl, a4], ?_, c4⟩
    rw [c2, b2, ← a2]
    simp [fv, addFont]
  unfold setCellFont
  rw [hc, Option.join_some, Option.bind_some, a1, Option.bind_some, he, Option.bind_some]
  rw [show e.xf.font = x.font by rw [hex, dup_font]]
  cases hxf : x.font with
  | none =>
    have hd : s1.fonts[0]? = some s1.fonts[0] := List.getElem?_eq_getElem (by omega)
    dsimp only
    rw [hd, Option.bind_some]
    obtain ⟨t, i, t1, t2, t3, t4⟩ := new s1.fonts[0].font
    refine ⟨t, i, s.fonts.length, s1.fonts[0].font, t1, t2, ?_, .inl ⟨rfl, t3, t4⟩⟩
    rw [← a2]
    exact get_fv hd
  | some p =>
    have hplt := hp p hxf
    have hd : s1.fonts[p]? = some s1.fonts[p] := List.getElem?_eq_getElem (by omega)
    dsimp only
    rw [hd, Option.bind_some]
    by_cases hu : s1.fonts[p].usage > 1
    · rw [if_pos hu]
      obtain ⟨t, i, t1, t2, t3, t4⟩ := new s1.fonts[p].font
      refine ⟨t, i, s.fonts.length, s1.fonts[p].font, t1, t2, ?_, .inl ⟨rfl, t3, t4⟩⟩
      rw [← a2]
      exact get_fv hd
    · rw [if_neg hu, Option.bind_some]
      obtain ⟨t, i, c1, c2, c3, c4⟩ := settle_vals (c := c) (q := q) a3 hqlt
      refine ⟨t, i, p, s1.fonts[p].font, c1, by rw [c3, a4], ?_, .inr ⟨rfl, by rw [c2, a2], c4⟩⟩
      rw [← a2]
      exact get_fv hd

theorem setFontOn_vals {s : State} {p : Nat} {o : FOp} {f g : Font} (hf : (fv s)[p]? = some f) (h : o.run f = some g) :
    ∃ t, setFontOn s p o = some t ∧ fv t = (fv s).set p g ∧ xv t = xv s ∧ t.cells = s.cells := by
  obtain ⟨e, he, rfl⟩ := fv_get hf
  unfold setFontOn
  rw [he, Option.bind_some, h, Option.map_some]
  refine ⟨_, rfl, ?_, rfl, rfl⟩
  unfold fv
  refine List.ext_getElem? fun i => ?_
  by_cases hi : i = p
  · subst hi
    have := (List.getElem?_eq_some_iff.mp he).1
    simp [List.getElem?_map, mod_same _ he, this]
  · simp only [List.getElem?_map, mod_ne _ hi]
    rw [List.getElem?_set_ne (fun h => hi h.symm), List.getElem?_map]

/-- A font operation of a cell. -/
theorem cellFont_vals {s : State} {c q : Nat} {o : FOp} {x : Xf} (hc : s.cells[c]? = some (some q)) (hx : (xv s)[q]? = some x) (h0 : 0 < s.fonts.length)
    (hp : ∀ p, x.font = some p → p < s.fonts.length) (ho : ∀ f ∈ fv s, ∃ g, o.run f = some g) :
    ∃ t i p f g, cellFont s c o = some t ∧ t.cells = s.cells.set c (some i) ∧ (fv s)[x.font.getD 0]? = some f ∧ o.run f = some g ∧
      ((p = s.fonts.length ∧ fv t = fv s ++ [g] ∧ Took (xv s) (xv t) i (Xf.setFont (Xf.dup x) (some p))) ∨
       (x.font = some p ∧ fv t = (fv s).set p g ∧ Took (xv s) (xv t) i (Xf.dup x))) := by
  obtain ⟨t1, i, p, f, e1, e2, e3, e4⟩ := setCellFont_vals hc hx h0 hp
  obtain ⟨g, hg⟩ := ho f (List.mem_of_getElem? e3)
  have hclt := (List.getElem?_eq_some_iff.mp hc).1
  have hci : t1.cells[c]? = some (some i) := by rw [e2]; simp [hclt]
  have fin : ∀ y : Xf, (xv t1)[i]? = some y → y.font = some p → (fv t1)[p]? = some f →
      ∃ t, cellFont s c o = some t ∧ fv t = (fv t1).set p g ∧ xv t = xv t1 ∧ t.cells = t1.cells := by
    intro y h1 h2 h3
    obtain ⟨e, he, rfl⟩ := xv_get h1
    obtain ⟨t, b1, b2, b3, b4⟩ := setFontOn_vals h3 hg
    refine ⟨t, ?_, b2, b3, b4⟩
    unfold cellFont
    rw [e1, Option.bind_some, hci, Option.join_some, Option.bind_some, he, Option.bind_some, h2, Option.bind_some, b1]
  rcases e4 with ⟨rfl, e4, e5⟩ | ⟨e4, e5, e6⟩
  · obtain ⟨t, b1, b2, b3, b4⟩ := fin _ e5.keeps.1 rfl (by rw [e4, ← fv_len]; simp)
    refine ⟨t, i, s.fonts.length, f, g, b1, by rw [b4, e2], e3, hg, .inl ⟨rfl, ?_, by rw [b3]; exact e5⟩⟩
    rw [b2, e4, ← fv_len, List.set_append_right _ _ (Nat.le_refl _), Nat.sub_self, List.set_cons_zero]
  · obtain ⟨t, b1, b2, b3, b4⟩ := fin _ e6.keeps.1 (by rw [dup_font, e4]) (by rw [e5]; rw [e4] at e3; exact e3)
    exact ⟨t, i, p, f, g, b1, by rw [b4, e2], e3, hg, .inr ⟨e4, by rw [b2, e5], by rw [b3]; exact e6⟩⟩

/-! ### The invariant -/

/-- Whatever was done: numbers are positions, all values fit the records, and every cell points to a format. -/
structure Well (s : State) : Prop where
  num : Num s
  fonts : ∀ f ∈ fv s, FontFits f
  xfs : ∀ x ∈ xv s, XfFits x
  live : ∀ (c q : Nat), s.cells[c]? = some (some q) → q < s.xfs.length
  many : 21 ≤ s.xfs.length

/-- A cell that is there. -/
def Live (s : State) (c : Nat) : Prop := ∃ q, s.cells[c]? = some (some q)

/-- A call of a setter with arguments of its types and a font that exists. -/
def Meant (s : State) (o : Xf.Op) : Prop := Xf.Spec.Valid o ∧ Has s o

/-- The program hands over objects that exist, and arguments of the right types; nothing else. -/
def Sane (s : State) : Action → Prop
  | .newFont n => n.length < 256
  | .stockFont n => n < 5
  | .copyFont p => p < s.fonts.length
  | .copyXf q => q < s.xfs.length
  | .font p o => p < s.fonts.length ∧ Font.Spec.Valid o
  | .newXf => True
  | .xf q o => q < s.xfs.length ∧ Meant s o
  | .newCell q => ∀ r, q = some r → r < s.xfs.length
  | .destroy c => Live s c
  | .setXf c q => Live s c ∧ q < s.xfs.length
  | .adopt c q _ => Live s c ∧ q < s.xfs.length
  | .cell c o => Live s c ∧ Meant s o
  | .cellFont c o => Live s c ∧ Font.Spec.Valid o

theorem Sane.known {s : State} {a : Action} (h : Sane s a) : Known s a := by
  cases a with
  | xf q o => exact h.2.2
  | cell c o => exact h.2.2
  | _ => exact trivial

theorem Live.get {s : State} (W : Well s) {c : Nat} (h : Live s c) : ∃ q x, s.cells[c]? = some (some q) ∧ (xv s)[q]? = some x ∧ XfFits x ∧ ∀ p, x.font = some p → p < s.fonts.length := by
  obtain ⟨q, hq⟩ := h
  have hlt := W.live c q hq
  have hx : (xv s)[q]? = some (s.xfs[q]).xf := by simp [xv, hlt]
  exact ⟨q, _, hq, hx, W.xfs _ (List.mem_of_getElem? hx), W.num.ptr _ (List.getElem_mem hlt)⟩

theorem mem_set {α : Type} {l : List α} {i : Nat} {a x : α} (h : x ∈ l.set i a) : x ∈ l ∨ x = a := List.mem_or_eq_of_mem_set h

theorem live_set {cells : List (Option Nat)} {c i n m : Nat} (h : ∀ c q : Nat, cells[c]? = some (some q) → q < n) (hnm : n ≤ m) (hi : i < m) :
    ∀ d q : Nat, (cells.set c (some i))[d]? = some (some q) → q < m := by
  intro d q hd
  by_cases e : c = d
  · subst e
    have hlt : c < cells.length := by
      have := (List.getElem?_eq_some_iff.mp hd).1
      simpa using this
    rw [List.getElem?_set_self hlt] at hd
    simp only [Option.some.injEq] at hd
    omega
  · rw [List.getElem?_set_ne e] at hd
    have := h d q hd
    omega

/-- Every action of a program that hands over existing objects is defined, keeps the invariant, loses no font or format, and no cell that it does
    not destroy. -/
theorem Well.step {s : State} (W : Well s) {a : Action} (ha : Sane s a) :
    ∃ t, step s a = some t ∧ Well t ∧ s.fonts.length ≤ t.fonts.length ∧ s.xfs.length ≤ t.xfs.length ∧ s.cells.length ≤ t.cells.length ∧
      (∀ c, Live s c → a ≠ .destroy c → Live t c) := by
  -- from values
  have build : ∀ t, Styles.step s a = some t → (∀ f ∈ fv t, FontFits f) → (∀ x ∈ xv t, XfFits x) → (∀ c q : Nat, t.cells[c]? = some (some q) → q < t.xfs.length) →
      s.xfs.length ≤ t.xfs.length → Well t :=
    fun t h h1 h2 h3 h4 => ⟨W.num.step ha.known h, h1, h2, h3, Nat.le_trans W.many h4⟩
  have keep : ∀ (cells : List (Option Nat)) (c' : Nat) (v : Nat), cells = s.cells.set c' (some v) → ∀ c, Live s c → ∃ q, cells[c]? = some (some q) := by
    rintro cells c' v rfl c ⟨q, hq⟩
    by_cases e : c' = c
    · subst e
      exact ⟨v, List.getElem?_set_self (List.getElem?_eq_some_iff.mp hq).1⟩
    · exact ⟨q, by rw [List.getElem?_set_ne e, hq]⟩
  have addF : ∀ f : Font, FontFits f → (∀ g ∈ fv (addFont s f), FontFits g) := by
    intro f hf g hg
    simp only [fv, addFont, List.map_append, List.mem_append, List.map_cons, List.map_nil, List.mem_singleton] at hg
    rcases hg with hg | rfl
    · exact W.fonts g hg
    · exact hf
  have named : ∀ n : List UInt16, n.length < 256 → FontFits { Font.fresh with name := n } := fun n hn =>
    ⟨hn, show (200 : Nat) < 65536 by decide, show (400 : Nat) < 65536 by decide, show (0 : Nat) < 65536 by decide, show (0x7fff : Nat) < 65536 by decide,
      show (0 : Nat) < 256 by decide, show (0 : Nat) < 256 by decide, show (1 : Nat) < 256 by decide, false, false, false, false, false, rfl⟩
  cases a with
  | newFont n =>
    refine ⟨_, rfl, build _ rfl (addF _ (named n ha))
      W.xfs W.live (Nat.le_refl _), by simp [addFont], Nat.le_refl _, Nat.le_refl _, fun c h _ => h⟩
  | stockFont n =>
    have h5 := W.num.five
    have hn : n < s.fonts.length := Nat.lt_of_lt_of_le ha h5
    have e : Styles.step s (.stockFont n) = some (addFont s s.fonts[n].font) := by
      simp only [Styles.step]
      rw [if_pos (show n < 5 from ha), List.getElem?_eq_getElem hn, Option.map_some]
    exact ⟨_, e, build _ e (addF _ (W.fonts _ (List.mem_map.mpr ⟨_, List.getElem_mem hn, rfl⟩))) W.xfs W.live (Nat.le_refl _), by simp [addFont], Nat.le_refl _,
      Nat.le_refl _, fun c h _ => h⟩
  | copyFont p =>
    have hn : p < s.fonts.length := ha
    have e : Styles.step s (.copyFont p) = some (addFont s s.fonts[p].font) := by
      simp only [Styles.step]
      rw [List.getElem?_eq_getElem hn, Option.map_some]
    exact ⟨_, e, build _ e (addF _ (W.fonts _ (List.mem_map.mpr ⟨_, List.getElem_mem hn, rfl⟩))) W.xfs W.live (Nat.le_refl _), by simp [addFont], Nat.le_refl _,
      Nat.le_refl _, fun c h _ => h⟩
  | copyXf q =>
    have hq : q < s.xfs.length := ha
    have hx : (xv s)[q]? = some s.xfs[q].xf := by simp [xv, hq]
    obtain ⟨t, t1, t2, t3, t4⟩ := dup_vals hx
    have hxl : t.xfs.length = s.xfs.length + 1 := by rw [← xv_len, t3, List.length_append, xv_len]; rfl
    have hfl : t.fonts.length = s.fonts.length := by rw [← fv_len, t2, fv_len]
    refine ⟨t, t1, build t t1 (by rw [t2]; exact W.fonts) ?_ (by rw [t4, hxl]; exact fun c q h => Nat.lt_succ_of_lt (W.live c q h)) (by omega), by omega, by omega,
      by rw [t4]; omega, fun c h _ => by unfold Live; rw [t4]; exact h⟩
    rw [t3]
    intro x hx'
    rcases List.mem_append.mp hx' with h | h
    · exact W.xfs x h
    · rw [List.mem_singleton.mp h]
      exact (W.xfs _ (List.mem_of_getElem? hx)).dup
  | font p o =>
    have hf : (fv s)[p]? = some (s.fonts[p]'ha.1).font := by simp [fv, show p < s.fonts.length from ha.1]
    obtain ⟨g, g1, g2⟩ := (W.fonts _ (List.mem_of_getElem? hf)).run ha.2
    obtain ⟨t, t1, t2, t3, t4⟩ := setFontOn_vals hf g1
    have hxl : t.xfs.length = s.xfs.length := by rw [← xv_len, t3, xv_len]
    have hfl : t.fonts.length = s.fonts.length := by rw [← fv_len, t2, List.length_set, fv_len]
    refine ⟨t, t1, build t t1 ?_ (by rw [t3]; exact W.xfs) (by rw [t4, hxl]; exact W.live) (by omega), by omega, by omega, by rw [t4]; omega,
      fun c h _ => by unfold Live; rw [t4]; exact h⟩
    rw [t2]
    intro f hf
    rcases mem_set hf with h | rfl
    · exact W.fonts f h
    · exact g2
  | newXf =>
    have hnew : (Xf.new true true false) = some Xf.fresh := Xf.new_user
    have e : Styles.step s .newXf = some (addXf s Xf.fresh) := by simp only [Styles.step, hnew, Option.map_some]
    refine ⟨_, e, build _ e W.fonts ?_ ?_ (by simp [addXf]), Nat.le_refl _, by simp [addXf], Nat.le_refl _, fun c h _ => h⟩
    · intro x hx
      simp only [xv, addXf, List.map_append, List.mem_append, List.map_cons, List.map_nil, List.mem_singleton] at hx
      rcases hx with h | rfl
      · exact W.xfs x h
      · refine ⟨by decide, by decide, by decide, by decide, by decide, by decide, ?_, by decide, by decide, by simp [Xf.fresh]⟩
        intro d
        cases d <;> decide
    · intro c q h
      have := W.live c q h
      simp [addXf]
      omega
  | xf q o =>
    have hx : (xv s)[q]? = some (s.xfs[q]'ha.1).xf := by simp [xv, show q < s.xfs.length from ha.1]
    obtain ⟨y, y1, y2⟩ := (W.xfs _ (List.mem_of_getElem? hx)).run ha.2.1
    obtain ⟨t, t1, t2, t3, t4⟩ := setOn_vals hx y1
    have hxl : t.xfs.length = s.xfs.length := by rw [← xv_len, t3, List.length_set, xv_len]
    have hfl : t.fonts.length = s.fonts.length := by rw [← fv_len, t2, fv_len]
    refine ⟨t, t1, build t t1 (by rw [t2]; exact W.fonts) ?_ (by rw [t4, hxl]; exact W.live) (by omega), by omega, by omega, by rw [t4]; omega,
      fun c h _ => by unfold Live; rw [t4]; exact h⟩
    rw [t3]
    intro f hf
    rcases mem_set hf with h | rfl
    · exact W.xfs f h
    · exact y2
  | newCell q =>
    have hq : q.getD 15 < s.xfs.length := by
      cases q with
      | none => have := W.many; simp only [Option.getD_none]; omega
      | some r => exact ha r rfl
    obtain ⟨a1, a2, a3⟩ := markXf_vals { s with cells := s.cells ++ [some (q.getD 15)] } (q.getD 15)
    have hxl : (newCell s q).xfs.length = s.xfs.length := by simp [newCell, markXf]
    refine ⟨_, rfl, build _ rfl (by show ∀ f ∈ fv (markXf _ _), _; rw [a1]; exact W.fonts) (by show ∀ f ∈ xv (markXf _ _), _; rw [a2]; exact W.xfs) ?_
      (by rw [hxl]; exact Nat.le_refl _), Nat.le_refl _, by rw [hxl]; exact Nat.le_refl _, by simp [newCell, markXf], ?_⟩
    · intro c r h
      rw [hxl]
      change (s.cells ++ [some (q.getD 15)])[c]? = some (some r) at h
      by_cases hc : c < s.cells.length
      · rw [List.getElem?_append_left hc] at h
        exact W.live c r h
      · rw [List.getElem?_append_right (by omega)] at h
        have := List.mem_of_getElem? h
        simp only [List.mem_singleton, Option.some.injEq] at this
        omega
    · rintro c ⟨r, hr⟩ -
      exact ⟨r, by show (s.cells ++ [some (q.getD 15)])[c]? = _; rw [List.getElem?_append_left (List.getElem?_eq_some_iff.mp hr).1, hr]⟩
  | destroy c =>
    obtain ⟨q, hq⟩ := ha
    obtain ⟨t, t1, t2, t3, t4⟩ := unmarkXf_vals (s := { s with cells := s.cells.set c none }) (q := q) (W.live c q hq)
    have e : Styles.step s (.destroy c) = some t := by
      simp only [Styles.step, Styles.destroy, hq, Option.join_some, Option.bind_some, t1]
    have hxl : t.xfs.length = s.xfs.length := by rw [← xv_len, t3]; exact xv_len s
    have hfl : t.fonts.length = s.fonts.length := by rw [← fv_len, t2]; exact fv_len s
    have get : ∀ d, d ≠ c → t.cells[d]? = s.cells[d]? := fun d hd => by
      rw [t4]
      exact List.getElem?_set_ne (fun h => hd h.symm)
    refine ⟨t, e, build t e (by rw [t2]; exact W.fonts) (by rw [t3]; exact W.xfs) ?_ (by omega), by omega, by omega, by rw [t4]; simp, ?_⟩
    · intro d r h
      rw [hxl]
      by_cases hd : d = c
      · subst hd
        rw [t4] at h
        have hlt := (List.getElem?_eq_some_iff.mp hq).1
        rw [List.getElem?_set_self hlt] at h
        cases h
      · rw [get d hd] at h
        exact W.live d r h
    · rintro d ⟨r, hr⟩ hne
      exact ⟨r, by rw [get d (fun e => hne (e ▸ rfl)), hr]⟩
  | setXf c q =>
    obtain ⟨⟨r, hr⟩, hq⟩ := ha
    obtain ⟨a1, a2, a3⟩ := markXf_vals { s with cells := s.cells.set c (some q) } q
    obtain ⟨t, t1, t2, t3, t4⟩ := unmarkXf_vals (s := markXf { s with cells := s.cells.set c (some q) } q) (q := r) (by
      have := W.live c r hr
      simpa [markXf] using this)
    have e : Styles.step s (.setXf c q) = some t := by
      simp only [Styles.step, Styles.setXf, hr, Option.join_some, Option.bind_some, t1]
    have hxl : t.xfs.length = s.xfs.length := by rw [← xv_len, t3, a2]; exact xv_len s
    have hfl : t.fonts.length = s.fonts.length := by rw [← fv_len, t2, a1]; exact fv_len s
    have hce : t.cells = s.cells.set c (some q) := by rw [t4, a3]
    exact ⟨t, e, build t e (by rw [t2, a1]; exact W.fonts) (by rw [t3, a2]; exact W.xfs) (by rw [hce]; exact live_set W.live (by omega) (by omega)) (by omega),
      by omega, by omega, by rw [hce]; simp, fun d h _ => keep _ _ _ hce d h⟩
  | adopt c q ops =>
    obtain ⟨⟨r, hr⟩, hq⟩ := ha
    obtain ⟨a1, a2, a3⟩ := markXf_vals { s with cells := s.cells.set c (some q) } q
    obtain ⟨t, t1, t2, t3, t4⟩ := unmarkXf_vals (s := markXf { s with cells := s.cells.set c (some q) } q) (q := r) (by
      have := W.live c r hr
      simpa [markXf] using this)
    have e : Styles.step s (.adopt c q ops) = some t := by
      simp only [Styles.step, Styles.setXf, hr, Option.join_some, Option.bind_some, t1]
    have hxl : t.xfs.length = s.xfs.length := by rw [← xv_len, t3, a2]; exact xv_len s
    have hfl : t.fonts.length = s.fonts.length := by rw [← fv_len, t2, a1]; exact fv_len s
    have hce : t.cells = s.cells.set c (some q) := by rw [t4, a3]
    exact ⟨t, e, build t e (by rw [t2, a1]; exact W.fonts) (by rw [t3, a2]; exact W.xfs) (by rw [hce]; exact live_set W.live (by omega) (by omega)) (by omega),
      by omega, by omega, by rw [hce]; simp, fun d h _ => keep _ _ _ hce d h⟩
  | cell c o =>
    obtain ⟨q, x, hq, hx, hfit, -⟩ := ha.1.get W
    obtain ⟨y, y1, y2⟩ := hfit.dup.run ha.2.1
    obtain ⟨t, i, t1, t2, t3, t4⟩ := cellOp_vals hq hx y1
    obtain ⟨k1, k2, k3, k4⟩ := t4.keeps
    rw [xv_len, xv_len] at k2
    have hi : i < t.xfs.length := by rw [← xv_len]; exact (List.getElem?_eq_some_iff.mp k1).1
    have hfl : t.fonts.length = s.fonts.length := by rw [← fv_len, t2, fv_len]
    refine ⟨t, t1, build t t1 (by rw [t2]; exact W.fonts) ?_ (by rw [t3]; exact live_set W.live k2 hi) k2, by omega, k2, by rw [t3]; simp,
      fun d h _ => keep _ _ _ t3 d h⟩
    intro z hz
    rcases k4 z hz with h | rfl
    · exact W.xfs z h
    · exact y2
  | cellFont c o =>
    obtain ⟨q, x, hq, hx, hfit, hptr⟩ := ha.1.get W
    have h5 := W.num.five
    obtain ⟨t, i, p, f, g, t1, t2, t3, t4, t5⟩ := cellFont_vals (o := o) hq hx (by omega) hptr (fun f hf => by
      obtain ⟨g, g1, -⟩ := (W.fonts f hf).run ha.2
      exact ⟨g, g1⟩)
    have hg : FontFits g := by
      obtain ⟨g', g1, g2⟩ := (W.fonts f (List.mem_of_getElem? t3)).run ha.2
      rw [t4] at g1
      exact Option.some.inj g1 ▸ g2
    obtain ⟨y, hy, hyf, hfl, hff⟩ : ∃ y, Took (xv s) (xv t) i y ∧ XfFits y ∧ s.fonts.length ≤ t.fonts.length ∧ ∀ f ∈ fv t, FontFits f := by
      rcases t5 with ⟨-, e1, e2⟩ | ⟨-, e1, e2⟩
      · refine ⟨_, e2, hfit.dup.font _, by rw [← fv_len, ← fv_len, e1]; simp, ?_⟩
        rw [e1]
        intro f hf
        rcases List.mem_append.mp hf with h | h
        · exact W.fonts f h
        · exact List.mem_singleton.mp h ▸ hg
      · refine ⟨_, e2, hfit.dup, by rw [← fv_len, ← fv_len, e1]; simp, ?_⟩
        rw [e1]
        intro f hf
        rcases mem_set hf with h | rfl
        · exact W.fonts f h
        · exact hg
    obtain ⟨k1, k2, k3, k4⟩ := hy.keeps
    rw [xv_len, xv_len] at k2
    have hi : i < t.xfs.length := by rw [← xv_len]; exact (List.getElem?_eq_some_iff.mp k1).1
    refine ⟨t, t1, build t t1 hff ?_ (by rw [t2]; exact live_set W.live k2 hi) k2, hfl, k2, by rw [t2]; simp, fun d h _ => keep _ _ _ t2 d h⟩
    intro z hz
    rcases k4 z hz with h | rfl
    · exact W.xfs z h
    · exact hyf

theorem init_well : ∃ s, Styles.init = some s ∧ Well s := by
  obtain ⟨s, h1, N⟩ := init_num
  have hb : Styles.init.map (fun s => (fv s).all (fun f => decide (f.name.length < 256 ∧ f.height < 65536 ∧ f.bold < 65536 ∧ f.script < 65536 ∧ f.color < 65536 ∧
      f.underline < 256 ∧ f.family < 256 ∧ f.charset < 256) && decide (f.attrs < 4)) &&
      ((xv s).all (fun x => decide (x.formatIndex < 65536 ∧ x.halign < 8 ∧ x.valign < 8 ∧ x.indent ∈ Xf.indentTable ∧ x.orient < 256 ∧ x.fill < 64 ∧
        x.flags < 256 ∧ x.flags % 4 = 0) && decide (x.bstyle = ⟨0, 0, 0, 0, 0⟩ ∧ x.format = none)) && (decide (s.cells = []) && decide (21 ≤ s.xfs.length)))) = some true := by
    decide +kernel
  rw [h1] at hb
  simp only [Option.map_some, Option.some.injEq, Bool.and_eq_true, List.all_eq_true, decide_eq_true_eq] at hb
  obtain ⟨b1, b2, b3, b4⟩ := hb
  refine ⟨s, h1, N, ?_, ?_, ?_, b4⟩
  · intro f hf
    obtain ⟨⟨c1, c2, c3, c4, c5, c6, c7, c8⟩, c9⟩ := b1 f hf
    refine ⟨c1, c2, c3, c4, c5, c6, c7, c8, ?_⟩
    have : ∀ n, n < 4 → ∃ z i, n = Font.word z i false false false := by decide
    obtain ⟨z, i, e⟩ := this _ c9
    exact ⟨z, i, false, false, false, e⟩
  · intro x hx
    obtain ⟨⟨c1, c2, c3, c4, c5, c6, c7, c8⟩, c9, c10⟩ := b2 x hx
    refine ⟨c1, c2, c3, c4, c5, c6, ?_, c7, c8, by simp [c10]⟩
    intro d
    rw [c9]
    cases d <;> decide
  · intro c q h
    rw [b3] at h
    simp at h

end Xls.Mirror
