import Verif.Touch.Range
/-
Font functions on a range.
-/
namespace Xls.Touch
open Xls.Range (Rect RangeOp each keys keys_nodup each_list mem_keys)
open Xls.Range.Spec (Inside)
open Xls.Whole Xls.Cells
open Xls.Styles (fv xv)
open Xls.Xf (Xf)
open Xls.Ask (askFormat askFont)
open Xls.Mirror (Sound Meant Well cellFont_vals cellAnswers formatAnswers fontAnswers cellAnswers_vals formatAnswers_vals fontAnswers_vals keep_answers)
open Xls.Area (styled setStyles step_styled findOrBlank fontBody onRange)
open Xls.Free (RangeAble found)

/-- Some place of `ks` has the font `p` at the start. -/
def Uses (s : Desk.State) (i : Nat) (ks : List Key) (p : Nat) : Prop :=
  ∃ k ∈ ks, ∃ x q z, Start s i k x q ∧ (xv (st s))[q]? = some z ∧ z.font = some p

/-- The font `f` is as it was or as the call makes it. -/
def Now (o : Font.FOp) (C : Prop) (f g : Font.Font) : Prop := askFont g = askFont f ∨ C ∧ askFont g = fontTold (askFont f) o

theorem Now.trans {o : Font.FOp} {C D E : Prop} {f g h : Font.Font} (h1 : Now o C f g) (h2 : Now o D g h) (hc : C → E) (hd : D → E) : Now o E f h := by
  rcases h1 with e1 | ⟨c, e1⟩ <;> rcases h2 with e2 | ⟨d, e2⟩
  · exact .inl (e2.trans e1)
  · exact .inr ⟨hd d, by rw [e2, e1]⟩
  · exact .inr ⟨hc c, by rw [e2, e1]⟩
  · exact .inr ⟨hc c, by rw [e2, e1, fontTold_twice]⟩

structure FontTouched (i : Nat) (ks : List Key) (o : Font.FOp) (s t : Desk.State) : Prop where
  fonts : ∀ p f, (fv (st s))[p]? = some f → ∃ g, (fv (st t))[p]? = some g ∧ Now o (Uses s i ks p) f g
  old : ∀ q, q < (xv (st s)).length → (xv (st t))[q]? = (xv (st s))[q]?
  grows : (xv (st s)).length ≤ (xv (st t)).length
  cells : ∀ d, d < (st s).cells.length → (∀ k ∈ ks, ∀ x, cellAt s i k = some x → x.id ≠ d) → (st t).cells[d]? = (st s).cells[d]?
  count : (st s).cells.length ≤ (st t).cells.length
  elsewhere : ∀ j k', ¬ (j = i ∧ k' ∈ ks) → cellAt t j k' = cellAt s j k'
  here : ∀ k ∈ ks, ∃ x q z f p y g, cellAt t i k = some x ∧ Start s i k x q ∧ (xv (st s))[q]? = some z ∧ (fv (st s))[z.font.getD 0]? = some f ∧
    (st t).cells[x.id]? = some (some p) ∧ (xv (st t))[p]? = some y ∧ (fv (st t))[y.font.getD 0]? = some g ∧ Refonted (askFormat z) (askFormat y) ∧
    askFont g = fontTold (askFont f) o

theorem FontTouched.nil (i : Nat) (o : Font.FOp) (s : Desk.State) : FontTouched i [] o s s :=
  ⟨fun _ f h => ⟨f, h, .inl rfl⟩, fun _ _ => rfl, Nat.le_refl _, fun _ _ _ => rfl, Nat.le_refl _, fun _ _ _ => rfl, fun _ h => by cases h⟩

theorem start_lt {s : Desk.State} {A : Prog.Asked} (G : Sound s.prog A) {i : Nat} {k : Key} {x : WCell} {q : Nat} (h : Start s i k x q) : q < (xv (st s)).length := by
  rw [Styles.xv_len]
  rcases h with ⟨-, b2⟩ | ⟨-, -, -, b4⟩
  · exact G.styles.live x.id q b2
  · have := G.styles.many
    rw [b4]
    show 15 < s.prog.look.styles.xfs.length
    omega

theorem FontTouched.cons {i : Nat} {k : Key} {r : List Key} {o : Font.FOp} {s u t : Desk.State} {A B : Prog.Asked} (G : Sound s.prog A) (Gu : Sound u.prog B)
    (hk : k ∉ r) (h1 : FontTouched i [k] o s u) (h2 : FontTouched i r o u t) : FontTouched i (k :: r) o s t := by
  have hu : ∀ k', k' ∈ r → cellAt u i k' = cellAt s i k' := fun k' hk' => h1.elsewhere i k' fun h => by
    have := h.2
    rw [List.mem_singleton] at this
    exact hk (this ▸ hk')
  have hback : ∀ k' ∈ r, ∀ x q, Start u i k' x q → Start s i k' x q ∧ (xv (st u))[q]? = (xv (st s))[q]? := by
    intro k' hk' x q h
    have hs : Start s i k' x q := by
      rcases h with ⟨c1, c2⟩ | ⟨c1, c2, c3, c4⟩
      · rw [hu k' hk'] at c1
        refine .inl ⟨c1, ?_⟩
        rw [← h1.cells x.id (cellAt_live G c1).lt, c2]
        intro k'' hk'' x'' hx'' e
        rw [List.mem_singleton] at hk''
        subst hk''
        exact hk ((cellAt_inj G hx'' c1 e).2 ▸ hk')
      · rw [hu k' hk'] at c1
        exact .inr ⟨c1, c2, Nat.le_trans h1.count c3, c4⟩
    exact ⟨hs, h1.old q (start_lt G hs)⟩
  have huse : ∀ p, Uses u i r p → Uses s i (k :: r) p := by
    rintro p ⟨k', hk', x, q, z, b1, b2, b3⟩
    obtain ⟨c1, c2⟩ := hback k' hk' x q b1
    exact ⟨k', by simp [hk'], x, q, z, c1, by rw [← c2, b2], b3⟩
  have hone : ∀ p, Uses s i [k] p → Uses s i (k :: r) p := by
    rintro p ⟨k', hk', rest⟩
    exact ⟨k', by rw [List.mem_singleton] at hk'; simp [hk'], rest⟩
  refine ⟨fun p f hf => ?_, fun q hq => (h2.old q (Nat.lt_of_lt_of_le hq h1.grows)).trans (h1.old q hq), Nat.le_trans h1.grows h2.grows, fun d hd hne => ?_,
    Nat.le_trans h1.count h2.count, fun j k' hne => ?_, fun k' hk' => ?_⟩
  · obtain ⟨g, g1, g2⟩ := h1.fonts p f hf
    obtain ⟨h, e1, e2⟩ := h2.fonts p g g1
    exact ⟨h, e1, g2.trans e2 (hone p) (huse p)⟩
  · rw [h2.cells d (Nat.lt_of_lt_of_le hd h1.count) fun k' hk' x' hx' => hne k' (by simp [hk']) x' (by rw [← hu k' hk']; exact hx')]
    exact h1.cells d hd fun k' hk' => hne k' (by rw [List.mem_singleton] at hk'; simp [hk'])
  · rw [h2.elsewhere j k' fun h => hne ⟨h.1, by simp [h.2]⟩]
    exact h1.elsewhere j k' fun h => hne ⟨h.1, by rw [List.mem_singleton] at h; simp [h.2]⟩
  · replace hk' := List.mem_cons.mp hk'
    rcases hk' with rfl | hk'
    · obtain ⟨x, q, z, f, p, y, g, a1, a2, a3, a4, a5, a6, a7, a8, a9⟩ := h1.here k' (by simp)
      obtain ⟨h, e1, e2⟩ := h2.fonts _ _ a7
      refine ⟨x, q, z, f, p, y, h, by rw [h2.elsewhere i k' fun h => hk h.2]; exact a1, a2, a3, a4, ?_, ?_, e1, a8, ?_⟩
      · rw [h2.cells x.id (cellAt_live Gu a1).lt, a5]
        intro k'' hk'' x' hx' e
        exact hk ((cellAt_inj Gu hx' a1 e).2 ▸ hk'')
      · rw [h2.old p (List.getElem?_eq_some_iff.mp a6).1, a6]
      · rcases e2 with e2 | ⟨-, e2⟩
        · rw [e2, a9]
        · rw [e2, a9, fontTold_twice]
    · obtain ⟨x, q, z, f, p, y, g, a1, a2, a3, a4, a5, a6, a7, a8, a9⟩ := h2.here k' hk'
      obtain ⟨c1, c2⟩ := hback k' hk' x q a2
      have hz : (xv (st s))[q]? = some z := by rw [← c2, a3]
      obtain ⟨f0, hf0⟩ := font_there G hz
      obtain ⟨g0, e1, e2⟩ := h1.fonts _ _ hf0
      rw [a4] at e1
      obtain rfl := Option.some.inj e1
      refine ⟨x, q, z, f0, p, y, g, a1, c1, hz, hf0, a5, a6, a7, a8, ?_⟩
      rcases e2 with e2 | ⟨-, e2⟩
      · rw [a9, e2]
      · rw [a9, e2, fontTold_twice]

theorem noFont_of {a b : Ask.FormatReport} (h : noFlags a = noFlags b) : noFont a = noFont b := by
  have : ∀ r : Ask.FormatReport, noFont r = { noFlags r with fontIndex := 0 } := fun _ => rfl
  rw [this, this, h]

theorem setFont_told {x : Xf} (hc : x.isCell = true) (p : Nat) :
    noFont (askFormat (Xf.setFont x (some p))) = noFont (askFormat x) ∧ (Xf.setFont x (some p)).flags = x.flags ||| 8 := by
  obtain ⟨a1, a2, a3, a4, a5, a6, a7, a8, a9, a10, a11, a12, a13, a14, a15, a16⟩ := x
  subst hc
  exact ⟨rfl, rfl⟩

/-- The font function at one place. -/
theorem font_touched {s : Desk.State} {A : Prog.Asked} (G : Sound s.prog A) (i : Nat) (hi : i < s.wb.sheets.length) (k : Key) (o : Font.FOp) (ho : Font.Spec.Valid o) :
    ∃ t B, fontBody i o k.1 k.2 s = some t ∧ FontTouched i [k] o s t ∧ Sound t.prog B ∧ t.wb = s.wb := by
  obtain ⟨t, h1, ⟨acts, h2⟩, -, -⟩ := Free.font_pass G i hi (fun _ l => l) k o ho
  refine ⟨t, _, h1, ?_, h2.sound, h2.wb⟩
  obtain ⟨⟨u, c⟩, g1, g2⟩ := Option.bind_eq_some_iff.mp (show (findOrBlank s i k.1 k.2).bind _ = some t from h1)
  have M := found_made G i hi k g1
  obtain ⟨u', c', e1, -, -, -, e5⟩ := found G i hi k
  obtain ⟨rfl, rfl⟩ : u = u' ∧ c = c' := Prod.mk.inj (Option.some.inj (g1.symm.trans e1))
  have Gu := (e5 fun _ l => l).1.sound
  have W := Gu.styles
  obtain ⟨x, q, a1, a2, a3, a4⟩ := M.here
  have hq := start_lt G a3
  have hzs : (xv (st s))[q]? = some (xv (st s))[q] := by simp [hq]
  generalize (xv (st s))[q] = z at hzs
  have hz : (xv (st u))[q]? = some z := by rw [M.xfs]; exact hzs
  have five : 0 < (st u).fonts.length := by
    have := W.num.five
    show 0 < u.prog.look.styles.fonts.length
    omega
  have hptr : ∀ p, z.font = some p → p < (st u).fonts.length := by
    intro p hp
    obtain ⟨e, he, hex⟩ := Styles.xv_get hz
    exact W.num.ptr e (List.mem_of_getElem? he) p (by rw [hex, hp])
  have hfit := W.xfs z (List.mem_of_getElem? hz)
  rw [step_styled] at g2
  obtain ⟨v, g3, rfl⟩ := Option.map_eq_some_iff.mp g2
  obtain ⟨t', n, p, f, g, t1, t2, t3, t4, t5⟩ := cellFont_vals (o := o) a4 hz five hptr (fun f hf => by
    obtain ⟨g, hg, -⟩ := (W.fonts f hf).run ho
    exact ⟨g, hg⟩)
  obtain rfl : v = t' := Option.some.inj (g3.symm.trans t1)
  have hvs : st (setStyles u v) = v := rfl
  have hat : ∀ j k', cellAt (setStyles u v) j k' = cellAt u j k' := fun _ _ => rfl
  have hclt := (List.getElem?_eq_some_iff.mp a4).1
  have hid : ∀ d, d < (st s).cells.length → (∀ x', cellAt s i k = some x' → x'.id ≠ d) → c ≠ d := by
    intro d hd hne e
    rcases a3 with ⟨b1, -⟩ | ⟨-, -, b3, -⟩
    · exact hne x b1 (a2.trans e)
    · omega
  have htold := font_told (W.fonts f (List.mem_of_getElem? t3)) ho t4
  obtain ⟨c1, c2, m, hm, c3⟩ := copied hfit
  obtain ⟨y, hy, k1, k2, k3, k4, hfo⟩ : ∃ y, (xv v)[n]? = some y ∧ (fv v)[y.font.getD 0]? = some g ∧ (xv (st u)).length ≤ (xv v).length ∧
      (∀ q, q < (xv (st u)).length → (xv v)[q]? = (xv (st u))[q]?) ∧ Refonted (askFormat z) (askFormat y) ∧
      ∀ p f, (fv (st u))[p]? = some f → ∃ g, (fv v)[p]? = some g ∧ Now o (z.font = some p) f g := by
    rcases t5 with ⟨rfl, u1, u2⟩ | ⟨u0, u1, u2⟩
    · obtain ⟨k1, k2, k3, -⟩ := u2.keeps
      refine ⟨_, k1, ?_, k2, k3, ?_, fun p f hf => ⟨f, ?_, .inl rfl⟩⟩
      · rw [u1]
        show (fv (st u) ++ [g])[(st u).fonts.length]? = _
        rw [← Styles.fv_len, List.getElem?_concat_length]
      · obtain ⟨d1, d2⟩ := setFont_told c2 (st u).fonts.length
        refine ⟨d1.trans (noFont_of c1), m ||| 8, ?_, ?_⟩
        · have : ∀ m ∈ [0, 4, 8, 12], m ||| 8 ∈ [0, 4, 8, 12] := by decide
          exact this m hm
        · show (Xf.setFont (Xf.dup z) (some (st u).fonts.length)).flags = z.flags ||| (m ||| 8)
          rw [d2, c3, Nat.or_assoc]
      · rw [u1, List.getElem?_append_left (List.getElem?_eq_some_iff.mp hf).1, hf]
    · obtain ⟨k1, k2, k3, -⟩ := u2.keeps
      refine ⟨_, k1, ?_, k2, k3, ⟨noFont_of c1, m, hm, c3⟩, fun p' f' hf => ?_⟩
      · rw [u1, Styles.dup_font, u0, Option.getD_some, List.getElem?_set_self (by rw [Styles.fv_len]; exact hptr p u0)]
      · by_cases e : p = p'
        · subst e
          refine ⟨g, by rw [u1, List.getElem?_set_self (List.getElem?_eq_some_iff.mp hf).1], .inr ⟨u0, ?_⟩⟩
          rw [u0, Option.getD_some, hf] at t3
          obtain rfl := Option.some.inj t3
          exact htold
        · exact ⟨f', by rw [u1, List.getElem?_set_ne e, hf], .inl rfl⟩
  refine ⟨fun p f hf => ?_, fun q hq => ?_, by rw [← M.xfs]; exact k2, fun d hd hne => ?_, ?_, fun j k' hne => ?_, fun k' hk' => ?_⟩
  · obtain ⟨g, b1, b2⟩ := hfo p f (by rw [M.fonts]; exact hf)
    exact ⟨g, b1, b2.trans (D := False) (.inl rfl) (fun h => ⟨k, by simp, x, q, z, a3, hzs, h⟩) False.elim⟩
  · rw [hvs, k3 q (by rw [M.xfs]; exact hq), M.xfs]
  · rw [hvs, t2, List.getElem?_set_ne (hid d hd (hne k (by simp))), M.cells d hd]
  · rw [hvs, t2, List.length_set]; exact M.count
  · rw [hat, M.elsewhere j k' fun h => hne ⟨h.1, by simp [h.2]⟩]
  · obtain rfl := List.mem_singleton.mp hk'
    refine ⟨x, q, z, f, n, y, g, a1, a3, hzs, by rw [← M.fonts]; exact t3, ?_, hy, k1, k4, htold⟩
    rw [hvs, t2, a2, List.getElem?_set_self hclt]

theorem loop_font {i : Nat} (o : Font.FOp) (ks : List Key) (hnd : ks.Nodup) {s : Desk.State} {A : Prog.Asked} (G : Sound s.prog A) (hi : i < s.wb.sheets.length)
    (ho : Font.Spec.Valid o) : ∃ t B, ks.foldlM (fun s k => fontBody i o k.1 k.2 s) s = some t ∧ FontTouched i ks o s t ∧ Sound t.prog B := by
  induction ks generalizing s A with
  | nil => exact ⟨s, A, rfl, .nil _ _ _, G⟩
  | cons k r ih =>
    rw [List.nodup_cons] at hnd
    obtain ⟨u, B, u1, u2, u3, u4⟩ := font_touched G i hi k o ho
    obtain ⟨t, C, t1, t2, t3⟩ := ih hnd.2 u3 (by rw [u4]; exact hi)
    exact ⟨t, C, by rw [List.foldlM_cons, u1]; exact t1, .cons G u3 hnd.1 u2 t2, t3⟩

theorem fontAt_vals {s : Desk.State} {i : Nat} {k : Key} {x : WCell} {q : Nat} {z : Xf} (h : Start s i k x q) (hz : (xv (st s))[q]? = some z) :
    fontAt s i k = some (z.font.getD 0) := by
  obtain ⟨e, he, rfl⟩ := Styles.xv_get hz
  unfold fontAt
  rcases h with ⟨h1, h2⟩ | ⟨h1, -, -, rfl⟩
  · rw [h1]
    simp only
    rw [h2, Option.join_some, Option.bind_some, he]
    rfl
  · rw [h1]
    simp only
    rw [Option.bind_some, he]
    rfl

theorem FontTouched.changed {i : Nat} {r : Rect} {o : Font.FOp} {s t : Desk.State} {A B : Prog.Asked} (G : Sound s.prog A) (G' : Sound t.prog B)
    (h : FontTouched i (keys r) o s t) : FontChanged i r o s t := by
  have huse : ∀ p, Uses s i (keys r) p → ∃ k', Inside r k' ∧ fontAt s i k' = some p := by
    rintro p ⟨k, hk, x, q, z, h1, h2, h3⟩
    exact ⟨k, (mem_keys r k).mp hk, by rw [fontAt_vals h1 h2, h3]; rfl⟩
  have hcell : ∀ d q z, d < (st s).cells.length → (∀ k ∈ keys r, ∀ x, cellAt s i k = some x → x.id ≠ d) → (st s).cells[d]? = some (some q) →
      (xv (st s))[q]? = some z → cellAnswers (st t) d = cellAnswers (st s) d ∨ ((∃ k', Inside r k' ∧ fontAt s i k' = some (z.font.getD 0)) ∧
        cellAnswers (st t) d = (cellAnswers (st s) d).map fun a => (a.1, a.2.1, fontTold a.2.2 o)) := by
    intro d q z hd hne hq hz
    obtain ⟨f, hf⟩ := font_there G hz
    obtain ⟨g, g1, g2⟩ := h.fonts _ _ hf
    rw [cellAnswers_vals G.styles.num, cellAnswers_vals G'.styles.num, show t.prog.look.styles = st t from rfl, h.cells d hd hne, hq, Option.join_some, Option.bind_some,
      Option.bind_some, h.old q (List.getElem?_eq_some_iff.mp hz).1, hz, Option.bind_some, Option.bind_some, hf, g1]
    rcases g2 with e | ⟨u, e⟩
    · left
      rw [Option.map_some, Option.map_some, e]
    · right
      refine ⟨huse _ u, ?_⟩
      rw [Option.map_some, Option.map_some, Option.map_some, e]
  refine ⟨fun k hk => ?_, fun j k hne => ?_, fun d hd hne => ?_, fun q hq => ?_, fun p hp => ?_⟩
  · obtain ⟨x, q, z, f, p, y, g, a1, a2, a3, a4, a5, a6, a7, a8, a9⟩ := h.here k ((mem_keys r k).mpr hk)
    obtain ⟨f', f1, f2⟩ := before_vals G a2 a3
    rw [a4] at f1
    obtain rfl := Option.some.inj f1
    refine ⟨_, _, _, askFormat y, f2, ?_, a8⟩
    rw [place_vals G' a1 a5 a6, a7, Option.map_some, a9]
  · rw [placeAnswers, placeAnswers, h.elsewhere j k fun hh => hne ⟨hh.1, (mem_keys r k).mp hh.2⟩]
    cases hx : cellAt s j k with
    | none => exact .inl rfl
    | some x =>
      obtain ⟨q, hq⟩ := cellAt_live G hx
      have hS : Start s j k x q := .inl ⟨hx, hq⟩
      have hz : (xv (st s))[q]? = some ((xv (st s))[q]'(start_lt G hS)) := by simp
      rw [fontAt_vals hS hz, Option.bind_some, Option.bind_some]
      rcases hcell x.id q _ (cellAt_live G hx).lt (fun k' hk' x' hx' e => by
        obtain ⟨rfl, rfl⟩ := cellAt_inj G hx' hx e
        exact hne ⟨rfl, (mem_keys r k').mp hk'⟩) hq hz with e | ⟨e1, e2⟩
      · exact .inl (by rw [show t.prog.look.styles = st t from rfl, e])
      · refine .inr ⟨e1, ?_⟩
        rw [show t.prog.look.styles = st t from rfl, e2, Option.map_map, Option.map_map]
        rfl
  · cases hq : (st s).cells[d]? with
    | none =>
      exact absurd hd (Nat.not_lt.mpr (List.getElem?_eq_none_iff.mp hq))
    | some o' =>
      cases o' with
      | none =>
        left
        rw [cellAnswers_vals G.styles.num, cellAnswers_vals G'.styles.num, show t.prog.look.styles = st t from rfl,
          h.cells d hd (fun k hk => hne k ((mem_keys r k).mp hk)), hq]
        rfl
      | some q =>
        have hlt : q < (xv (st s)).length := by rw [Styles.xv_len]; exact G.styles.live d q hq
        have hz : (xv (st s))[q]? = some ((xv (st s))[q]'hlt) := by simp [hlt]
        have hfo : fontOf s d = some (((xv (st s))[q]'hlt).font.getD 0) := by
          obtain ⟨e, he, hex⟩ := Styles.xv_get hz
          rw [fontOf, hq, Option.join_some, Option.bind_some, he, ← hex]
          rfl
        rw [hfo]
        exact hcell d q _ hd (fun k hk => hne k ((mem_keys r k).mp hk)) hq hz
  · rw [formatAnswers_vals, formatAnswers_vals, show t.prog.look.styles = st t from rfl, h.old q (by rw [Styles.xv_len]; exact hq)]
  · have hf : (fv (st s))[p]? = some ((fv (st s))[p]'(by rw [Styles.fv_len]; exact hp)) := by simp
    obtain ⟨g, g1, g2⟩ := h.fonts _ _ hf
    rw [fontAnswers_vals, fontAnswers_vals, show t.prog.look.styles = st t from rfl, g1, hf]
    rcases g2 with e | ⟨u, e⟩
    · left; rw [Option.map_some, Option.map_some, e]
    · right; exact ⟨huse p u, by rw [Option.map_some, Option.map_some, Option.map_some, e]⟩

/-- A font function on a range. -/
theorem range_fonts {s : Desk.State} {A : Prog.Asked} (G : Sound s.prog A) (i : Nat) (hi : i < s.wb.sheets.length) (r : Rect)
    (h1 : r.lastRow < 2 ^ 32 - 1) (h2 : r.lastCol < 2 ^ 32 - 1) (o : Font.FOp) (ho : Font.Spec.Valid o) :
    ∃ t B, Area.step s (.range i r (.font o)) = some t ∧ Sound t.prog B ∧ FontChanged i r o s t := by
  obtain ⟨t, B, t1, t2, t3⟩ := loop_font (i := i) o (keys r) (keys_nodup r) G hi ho
  exact ⟨t, B, by rw [Area.step, if_pos hi, onRange, each_list r h1 h2, t1], t3, t2.changed G t3⟩

end Xls.Touch
