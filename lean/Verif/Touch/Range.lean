import Verif.Touch.Loop
import Verif.Range.Props
/-
From the loop to the answers.
-/
namespace Xls.Touch
open Xls.Range (Rect RangeOp Cache each keys keys_nodup each_list colorOps boxTag boxOps mem_keys)
open Xls.Range.Spec (Inside)
open Xls.Whole Xls.Cells
open Xls.Styles (fv xv)
open Xls.Xf (Xf)
open Xls.Ask (askFormat askFont)
open Xls.Mirror (Sound Meant Well cellAnswers formatAnswers fontAnswers cellAnswers_vals formatAnswers_vals fontAnswers_vals keep_answers)
open Xls.Area (callBody memoBody onRange)
open Xls.Free (RangeAble)

/-- The font that a call leaves. -/
def nextFont (f : Option Nat) : Xf.Op → Option Nat
  | .font p => p
  | _ => f

/-- The font that some calls leave. -/
def lastFont (f : Option Nat) (ops : List Xf.Op) : Option Nat := ops.foldl nextFont f

theorem chain_font {x y : Xf} {ops : List Xf.Op} (h : chain x ops = some y) : y.font = lastFont x.font ops := by
  induction ops generalizing x with
  | nil => cases h; rfl
  | cons o r ih =>
    rw [chain] at h
    obtain ⟨z, h1, h2⟩ := Option.bind_eq_some_iff.mp h
    rw [ih h2]
    show lastFont z.font r = lastFont (nextFont x.font o) r
    congr 1
    rcases Styles.run_font h1 with e | ⟨f, rfl, e⟩
    · rw [e, Styles.dup_font]
      cases o with
      | font p =>
        obtain rfl := Option.some.inj h1
        rw [Styles.dup_font] at e
        rw [← e]
        cases p <;> simp [nextFont, Xf.setFont, Styles.dup_font]
      | _ => rfl
    · exact e

/-- The answers of a cell from its values. -/
theorem place_vals {s : Desk.State} {A : Prog.Asked} (G : Sound s.prog A) {i : Nat} {k : Key} {x : WCell} {p : Nat} {y : Xf} (h1 : cellAt s i k = some x)
    (h2 : (st s).cells[x.id]? = some (some p)) (h3 : (xv (st s))[p]? = some y) :
    placeAnswers s i k = ((fv (st s))[y.font.getD 0]?).map fun f => (x.val.2, askFormat y, askFont f) := by
  rw [placeAnswers, h1, Option.bind_some, cellAnswers_vals G.styles.num, h2, Option.join_some, Option.bind_some, h3, Option.bind_some, Option.map_map]
  rfl

theorem font_there {s : Desk.State} {A : Prog.Asked} (G : Sound s.prog A) {q : Nat} {y : Xf} (h : (xv (st s))[q]? = some y) :
    ∃ f, (fv (st s))[y.font.getD 0]? = some f := by
  have five := G.styles.num.five
  have : y.font.getD 0 < (fv (st s)).length := by
    rw [Styles.fv_len]
    obtain ⟨ey, hey, hexy⟩ := Styles.xv_get h
    cases hyf : y.font with
    | none => rw [Option.getD_none]; show 0 < s.prog.look.styles.fonts.length; omega
    | some p => exact G.styles.num.ptr ey (List.mem_of_getElem? hey) p (by rw [hexy, hyf])
  exact ⟨_, List.getElem?_eq_getElem this⟩

theorem before_vals {s : Desk.State} {A : Prog.Asked} (G : Sound s.prog A) {i : Nat} {k : Key} {x : WCell} {q : Nat} {z : Xf} (h : Start s i k x q)
    (hz : (xv (st s))[q]? = some z) : ∃ f, (fv (st s))[z.font.getD 0]? = some f ∧ before s i k = some (x.val.2, askFormat z, askFont f) := by
  obtain ⟨f, hf⟩ := font_there G hz
  refine ⟨f, hf, ?_⟩
  rcases h with ⟨h1, h2⟩ | ⟨h1, h2, -, rfl⟩
  · rw [before, place_vals G h1 h2 hz, hf]
    rfl
  · obtain ⟨e, he, rfl⟩ := Styles.xv_get hz
    obtain ⟨e', he', rfl⟩ := Styles.fv_get hf
    have : placeAnswers s i k = none := by rw [placeAnswers, h1]; rfl
    rw [before, this, Option.none_or, blankAnswers, he, Option.bind_some, he', h2]
    rfl

theorem fontAfter_vals {s : Desk.State} {A : Prog.Asked} (G : Sound s.prog A) {o : RangeOp} {r : Rect} {k : Key} {z : Xf} {f g : Font.Font}
    (hf : (fv (st s))[z.font.getD 0]? = some f) (hg : (fv (st s))[(lastFont z.font (placeOps r k o)).getD 0]? = some g) :
    askFont g = fontAfter s o (askFont f) := by
  have plain : ∀ ops : List Xf.Op, (∀ o ∈ ops, ∀ p, o ≠ .font p) → lastFont z.font ops = z.font := by
    intro ops
    unfold lastFont
    generalize z.font = a
    induction ops generalizing a with
    | nil => intro _; rfl
    | cons o r ih =>
      intro h
      rw [List.foldl_cons]
      have h1 := h o (by simp)
      rw [ih _ (fun o ho => h o (by simp [ho]))]
      cases o with
      | font p => exact absurd rfl (h1 p)
      | _ => rfl
  have same : (∀ o' ∈ placeOps r k o, ∀ p, o' ≠ .font p) → askFont g = askFont f := by
    intro h
    rw [plain _ h, hf] at hg
    cases hg
    rfl
  cases o with
  | call o =>
    cases o with
    | font p =>
      show askFont g = (fontAnswers (st s) (p.getD 0)).getD (askFont f)
      rw [fontAnswers_vals]
      rw [show lastFont z.font (placeOps r k (.call (.font p))) = p from rfl] at hg
      rw [hg]
      rfl
    | _ =>
      refine same fun o' ho' p => ?_
      obtain rfl := List.mem_singleton.mp ho'
      simp
  | font o => exact same fun o' ho' => by cases ho'
  | color n =>
    refine same fun o' ho' p => ?_
    simp only [placeOps, List.mem_cons, List.not_mem_nil, or_false] at ho'
    rcases ho' with rfl | rfl <;> simp
  | box b =>
    refine same fun o' ho' p => ?_
    simp only [placeOps, List.mem_append, List.mem_ite_nil_right, List.mem_cons, List.not_mem_nil, or_false] at ho'
    rcases ho' with (((⟨-, rfl | rfl⟩ | ⟨-, rfl | rfl⟩) | ⟨-, rfl | rfl⟩) | ⟨-, rfl | rfl⟩) | rfl | rfl | rfl <;> simp

/-- What the loop leaves, in the answers of the objects. -/
theorem Touched.changed {i : Nat} {r : Rect} {o : RangeOp} {s t : Desk.State} {A B : Prog.Asked} (G : Sound s.prog A) (G' : Sound t.prog B)
    (h : Touched i (keys r) (fun k => placeOps r k o) s t) (ho : ∀ k, ∀ o' ∈ placeOps r k o, Xf.Spec.Valid o') : Changed i r o s t := by
  have hcell : ∀ d, d < (st s).cells.length → (∀ k ∈ keys r, ∀ x, cellAt s i k = some x → x.id ≠ d) → cellAnswers (st t) d = cellAnswers (st s) d := by
    intro d hd hne
    exact keep_answers G.styles G'.styles (h.cells d hd hne) h.old fun _ _ _ _ => by rw [h.fonts]
  refine ⟨fun k hk => ?_, fun j k hne => ?_, fun d hd hne => hcell d hd fun k hk => hne k ((mem_keys r k).mp hk), fun q hq => ?_, fun p => ?_⟩
  · obtain ⟨x, q, z, p, y, a1, a2, a3, a4, a5, a6⟩ := h.here k ((mem_keys r k).mpr hk)
    obtain ⟨f, f1, f2⟩ := before_vals G a2 a3
    obtain ⟨g, g1⟩ := font_there G' a5
    rw [h.fonts] at g1
    refine ⟨_, _, _, askFormat y, f2, ?_, chain_became (G.styles.xfs z (List.mem_of_getElem? a3)) (ho k) a6⟩
    rw [place_vals G' a1 a4 a5, h.fonts, g1]
    rw [chain_font a6] at g1
    rw [Option.map_some, fontAfter_vals G f1 g1]
  · rw [placeAnswers, placeAnswers, h.elsewhere j k fun hh => hne ⟨hh.1, (mem_keys r k).mp hh.2⟩]
    cases hx : cellAt s j k with
    | none => rfl
    | some x =>
      rw [Option.bind_some, Option.bind_some, show t.prog.look.styles = st t from rfl, hcell x.id (cellAt_live G hx).lt]
      intro k' hk' x' hx' e
      obtain ⟨rfl, rfl⟩ := cellAt_inj G hx' hx e
      exact hne ⟨rfl, (mem_keys r k').mp hk'⟩
  · rw [formatAnswers_vals, formatAnswers_vals, show t.prog.look.styles = st t from rfl, h.old q (by rw [Styles.xv_len]; exact hq)]
  · rw [fontAnswers_vals, fontAnswers_vals, show t.prog.look.styles = st t from rfl, h.fonts]

/-- An operation with formats on a range. -/
theorem range_changed {s : Desk.State} {A : Prog.Asked} (G : Sound s.prog A) (i : Nat) (hi : i < s.wb.sheets.length) (r : Rect)
    (h1 : r.lastRow < 2 ^ 32 - 1) (h2 : r.lastCol < 2 ^ 32 - 1) (o : RangeOp) (ho : RangeAble (st s) o) (hn : ∀ p, o ≠ .font p) :
    ∃ t B, Area.step s (.range i r o) = some t ∧ Sound t.prog B ∧ ((∃ c, o = .call c) ∨ (st t).xfs.length ≤ 65536 → Changed i r o s t) := by
  have plain : ∀ (st : Styles.State) (o : Xf.Op), Range.CallOk (fun _ => none) o → Meant st o := by
    intro st o h
    refine ⟨h.1, fun p hp => ?_⟩
    obtain ⟨_, hh⟩ := h.2 p hp
    cases hh
  have hs : Area.step s (.range i r o) = onRange s i r o := by rw [Area.step, if_pos hi]
  have memo : ∀ (tag : Nat → Nat → Xf → Nat) (ops : Nat → Nat → List Xf.Op)
      (_ : ∀ (k k' : Key) (z : Xf), tag k.1 k.2 z = tag k'.1 k'.2 z → ops k.1 k.2 = ops k'.1 k'.2)
      (_ : ∀ (k : Key), ∀ o ∈ ops k.1 k.2, Range.CallOk (fun _ => none) o)
      (_ : onRange s i r o = (each r (memoBody i tag ops) (s, [])).map (·.1)) (_ : ∀ k : Key, ops k.1 k.2 = placeOps r k o) (_ : ∀ c, o ≠ .call c),
      ∃ t B, Area.step s (.range i r o) = some t ∧ Sound t.prog B ∧ ((∃ c, o = .call c) ∨ (st t).xfs.length ≤ 65536 → Changed i r o s t) := by
    intro tag ops htag hops hrun hpl hnc
    obtain ⟨t, cache', B, t1, t2, -, t3⟩ := loop_memo (i := i) tag ops htag (fun k o h s => plain s o (hops k o h)) (keys r) (keys_nodup r) G hi [] (by
      intro x p hm
      cases hm)
    refine ⟨t, B, by rw [hs, hrun, each_list r h1 h2, t1]; rfl, t2, fun hh => ?_⟩
    rcases hh with ⟨c, hc⟩ | hh
    · exact absurd hc (hnc c)
    · have := t3 hh (by intro key p hm; cases hm)
      rw [show (fun k : Key => ops k.1 k.2) = fun k => placeOps r k o from funext hpl] at this
      exact this.changed G t2 fun k o' ho' => (hops k o' (by rw [hpl]; exact ho')).1
  cases o with
  | call o =>
    obtain ⟨t, B, t1, t2, t3⟩ := loop_call (i := i) o (keys r) (keys_nodup r) G hi ho
    refine ⟨t, B, by rw [hs, onRange, each_list r h1 h2, t1], t3, fun _ => t2.changed (o := .call o) G t3 fun k o' ho' => ?_⟩
    obtain rfl := List.mem_singleton.mp ho'
    exact ho.1
  | font o => exact absurd rfl (hn o)
  | color n => exact memo (fun _ _ x => x.flags) (colorOps n) (fun _ _ _ _ => rfl) (Area.color_ops ho) rfl (fun _ => rfl) (fun _ h => by cases h)
  | box b => exact memo (boxTag r) (boxOps r b) (Range.box_tag r b) (Area.box_ops ho r) rfl (fun _ => rfl) (fun _ h => by cases h)

end Xls.Touch
