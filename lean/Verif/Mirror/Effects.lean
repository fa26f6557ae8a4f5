import Verif.Mirror.Spec
import Verif.Mirror.Steps
/-
C73: what single calls change of the answers, in any situation.
-/
namespace Xls.Mirror
open Xls.Styles (fv xv State Action)
open Xls.Ask (askFont askFormat FontReport FormatReport)

/-- What the getters of a cell, of its format and of its font answer: `GetXFIndex`, the getters of `xf_t` and those of `font_t` (the first default font
    where the format has none, as the record says). -/
def cellAnswers (s : State) (c : Nat) : Option (Nat × FormatReport × FontReport) :=
  (s.cells[c]?).join.bind fun q => (s.xfs[q]?).bind fun e => (s.fonts[e.xf.font.getD 0]?).map fun f => (e.index, askFormat e.xf, askFont f.font)

/-- What the getters of format object `q` answer. -/
def formatAnswers (s : State) (q : Nat) : Option FormatReport := (s.xfs[q]?).map fun e => askFormat e.xf

/-- What the getters of font object `p` answer. -/
def fontAnswers (s : State) (p : Nat) : Option FontReport := (s.fonts[p]?).map fun f => askFont f.font

/-- The font object of a cell. -/
def fontOfCell (s : State) (c : Nat) : Option Nat := (s.cells[c]?).join.bind fun q => (s.xfs[q]?).bind fun e => e.xf.font

/-- A program that hands over existing objects. -/
def AllSane (s : State) : List Action → Prop
  | [] => True
  | a :: r => Sane s a ∧ ∀ t, Styles.step s a = some t → AllSane t r

theorem Well.steps {s : State} (W : Well s) (acts : List Action) (h : AllSane s acts) : ∃ t, Styles.steps s acts = some t ∧ Well t := by
  induction acts generalizing s with
  | nil => exact ⟨s, rfl, W⟩
  | cons a r ih =>
    obtain ⟨t, t1, t2, -⟩ := W.step h.1
    obtain ⟨u, u1, u2⟩ := ih t2 (h.2 t t1)
    exact ⟨u, by rw [Styles.steps, t1, Option.bind_some, u1], u2⟩

theorem reach_well {acts : List Action} {s0 s : State} (h0 : Styles.init = some s0) (ha : AllSane s0 acts) (hs : Styles.steps s0 acts = some s) : Well s := by
  obtain ⟨s1, e1, W⟩ := init_well
  rw [h0] at e1
  obtain rfl := Option.some.inj e1
  obtain ⟨t, t1, W'⟩ := W.steps acts ha
  rw [hs] at t1
  exact Option.some.inj t1 ▸ W'

theorem index_of {s : State} (N : Styles.Num s) {q : Nat} {e : Styles.XEnt} (h : s.xfs[q]? = some e) : e.index = q % 65536 := by
  have hlt := (List.getElem?_eq_some_iff.mp h).1
  have := congrArg (·[q]?) N.xi
  simpa only [List.getElem?_map, h, List.getElem?_range hlt, Option.map_some, Option.some.injEq] using this

/-- The answers of a cell in terms of values. -/
theorem cellAnswers_vals {s : State} (N : Styles.Num s) (c : Nat) :
    cellAnswers s c = (s.cells[c]?).join.bind fun q => ((xv s)[q]?).bind fun x => ((fv s)[x.font.getD 0]?).map fun f => (q % 65536, askFormat x, askFont f) := by
  unfold cellAnswers
  cases hq : (s.cells[c]?).join with
  | none => rfl
  | some q =>
    rw [Option.bind_some, Option.bind_some]
    cases hx : s.xfs[q]? with
    | none => simp [xv, hx]
    | some e =>
      rw [show (xv s)[q]? = some e.xf by simp [xv, hx], Option.bind_some, Option.bind_some, index_of N hx, fv, List.getElem?_map, Option.map_map]
      rfl

theorem formatAnswers_vals (s : State) (q : Nat) : formatAnswers s q = ((xv s)[q]?).map askFormat := by
  simp [formatAnswers, xv, Option.map_map, Function.comp_def]

theorem fontAnswers_vals (s : State) (p : Nat) : fontAnswers s p = ((fv s)[p]?).map askFont := by
  simp [fontAnswers, fv, Option.map_map, Function.comp_def]

/-- A cell that keeps its format, when no old format changes and its font does not, keeps its answers. -/
theorem keep_answers {s t : State} (W : Well s) (W' : Well t) {d : Nat} (hd : t.cells[d]? = s.cells[d]?)
    (hx : ∀ q, q < (xv s).length → (xv t)[q]? = (xv s)[q]?)
    (hf : ∀ q x, s.cells[d]? = some (some q) → (xv s)[q]? = some x → (fv t)[x.font.getD 0]? = (fv s)[x.font.getD 0]?) : cellAnswers t d = cellAnswers s d := by
  rw [cellAnswers_vals W.num, cellAnswers_vals W'.num, hd]
  cases hq : s.cells[d]? with
  | none => rfl
  | some o =>
    cases o with
    | none => rfl
    | some q =>
      have hlt := W.live d q hq
      rw [← Styles.xv_len] at hlt
      simp only [Option.join_some, Option.bind_some]
      rw [hx q hlt, show (xv s)[q]? = some (xv s)[q] by simp [hlt], Option.bind_some, Option.bind_some, hf q _ hq (by simp [hlt])]

/-- C73: a format call on a cell -- in any situation that a program can reach -- changes no answer of any other cell, of any format and of any font that exist; the cell
    answers what the call makes of a copy of its format. -/
theorem c73_cell_call (acts : List Action) (s0 s : State) (h0 : Styles.init = some s0) (ha : AllSane s0 acts) (hs : Styles.steps s0 acts = some s)
    (c : Nat) (o : Xf.Op) (ho : Sane s (.cell c o)) :
    ∃ t, Styles.step s (.cell c o) = some t ∧ (∀ d, d ≠ c → cellAnswers t d = cellAnswers s d) ∧
      (∀ q, q < s.xfs.length → formatAnswers t q = formatAnswers s q) ∧ (∀ p, p < s.fonts.length → fontAnswers t p = fontAnswers s p) ∧
      ∃ q e y i f, s.cells[c]? = some (some q) ∧ s.xfs[q]? = some e ∧ o.run (Xf.dup e.xf) = some y ∧ t.fonts[y.font.getD 0]? = some f ∧
        cellAnswers t c = some (i, askFormat y, askFont f.font) := by
  have W := reach_well h0 ha hs
  obtain ⟨t', e', W', hF, hX, -⟩ := W.step ho
  obtain ⟨q, x, hc, hx, hfit, -⟩ := ho.1.get W
  obtain ⟨y, hy, -⟩ := hfit.dup.run ho.2.1
  obtain ⟨t, i, t1, t2, t3, t4⟩ := cellOp_vals hc hx hy
  obtain ⟨k1, k2, k3, -⟩ := t4.keeps
  obtain rfl : t' = t := Option.some.inj (e'.symm.trans t1)
  have hclt := (List.getElem?_eq_some_iff.mp hc).1
  have hci : t'.cells[c]? = some (some i) := by rw [t3]; simp [hclt]
  obtain ⟨e, he, hex⟩ := Styles.xv_get hx
  obtain ⟨ey, hey, hexy⟩ := Styles.xv_get k1
  have hfl : y.font.getD 0 < t'.fonts.length := by
    have five := W'.num.five
    cases hyf : y.font with
    | none => rw [Option.getD_none]; omega
    | some p => exact W'.num.ptr ey (List.mem_of_getElem? hey) p (by rw [hexy, hyf])
  refine ⟨t', e', fun d hd => keep_answers W W' (by rw [t3]; exact List.getElem?_set_ne (fun h => hd h.symm)) k3 (fun _ _ _ _ => by rw [t2]), fun r hr => ?_,
    fun p hp => by rw [fontAnswers_vals, fontAnswers_vals, t2], q, e, y, i % 65536, t'.fonts[y.font.getD 0], hc, he, by rw [hex]; exact hy, by simp [hfl], ?_⟩
  · rw [formatAnswers_vals, formatAnswers_vals, k3 r (by rw [Styles.xv_len]; exact hr)]
  · rw [cellAnswers_vals W'.num, hci, Option.join_some, Option.bind_some, k1, Option.bind_some, fv, List.getElem?_map, List.getElem?_eq_getElem hfl]
    rfl

/-- The answers of a format that have nothing to do with its font and number format. -/
def apartFont (r : FormatReport) : FormatReport := { r with fontIndex := 0, formatIndex := 0, format := 0, flags := 0 }

theorem apart_setFont (x : Xf.Xf) (p : Option Nat) : apartFont (askFormat (Xf.setFont x p)) = apartFont (askFormat x) := by
  cases p <;> rfl

theorem apart_user (x : Xf.Xf) (k : Nat) : apartFont (askFormat (Xf.setUserFormat x k)) = apartFont (askFormat x) := by
  unfold Xf.setUserFormat Xf.flagIf
  generalize Xf.formatIndexOf k = n
  by_cases h : (n != 0) = true
  · rw [if_pos h]; rfl
  · rw [if_neg h]; rfl

theorem apart_dup (x : Xf.Xf) : apartFont (askFormat (Xf.dup x)) = apartFont (askFormat x) := by
  unfold Xf.dup
  cases x.format with
  | none => exact (apart_setFont _ _).trans rfl
  | some k => exact (apart_user _ k).trans ((apart_setFont _ _).trans rfl)

/-- C73: a font call on a cell changes no answer of any format that exists and of any cell with another font object; of the fonts that exist at most the font
    object of the cell changes.  The cell answers what the call makes of its font. -/
theorem c73_cell_font (acts : List Action) (s0 s : State) (h0 : Styles.init = some s0) (ha : AllSane s0 acts) (hs : Styles.steps s0 acts = some s)
    (c : Nat) (o : Font.FOp) (ho : Sane s (.cellFont c o)) :
    ∃ t, Styles.step s (.cellFont c o) = some t ∧
      (∀ d, d ≠ c → (∀ p, fontOfCell s c = some p → (s.cells[d]?).join.bind (fun q => (s.xfs[q]?).map fun e => e.xf.font.getD 0) ≠ some p) → cellAnswers t d = cellAnswers s d) ∧
      (∀ q, q < s.xfs.length → formatAnswers t q = formatAnswers s q) ∧
      (∀ p, p < s.fonts.length → fontOfCell s c ≠ some p → fontAnswers t p = fontAnswers s p) ∧
      ∃ q e f g i r, s.cells[c]? = some (some q) ∧ s.xfs[q]? = some e ∧ s.fonts[e.xf.font.getD 0]? = some f ∧ o.run f.font = some g ∧
        cellAnswers t c = some (i, r, askFont g) ∧ apartFont r = apartFont (askFormat e.xf) := by
  have W := reach_well h0 ha hs
  obtain ⟨t', e', W', hF, hX, -⟩ := W.step ho
  obtain ⟨q, x, hc, hx, hfit, hptr⟩ := ho.1.get W
  have five := W.num.five
  obtain ⟨t, i, p, f, g, t1, t2, t3, t4, t5⟩ := cellFont_vals (o := o) hc hx (by omega) hptr (fun f hf => by
    obtain ⟨g, hg, -⟩ := (W.fonts f hf).run ho.2
    exact ⟨g, hg⟩)
  obtain rfl : t' = t := Option.some.inj (e'.symm.trans t1)
  have hclt := (List.getElem?_eq_some_iff.mp hc).1
  have hci : t'.cells[c]? = some (some i) := by rw [t2]; simp [hclt]
  obtain ⟨e, he, hex⟩ := Styles.xv_get hx
  obtain ⟨ef, hef, heff⟩ := Styles.fv_get t3
  have hfc : fontOfCell s c = x.font := by
    unfold fontOfCell
    rw [hc, Option.join_some, Option.bind_some, he, Option.bind_some, hex]
  have hother : ∀ d, d ≠ c → t'.cells[d]? = s.cells[d]? := fun d hd => by rw [t2]; exact List.getElem?_set_ne (fun h => hd h.symm)
  have hdf : ∀ (d r : Nat) (z : Xf.Xf), s.cells[d]? = some (some r) → (xv s)[r]? = some z →
      (s.cells[d]?).join.bind (fun q => (s.xfs[q]?).map fun e => e.xf.font.getD 0) = some (z.font.getD 0) ∧ z.font.getD 0 < s.fonts.length := by
    intro d r z h1 h2
    obtain ⟨e1, h3, h4⟩ := Styles.xv_get h2
    refine ⟨by rw [h1, Option.join_some, Option.bind_some, h3, Option.map_some, h4], ?_⟩
    cases hz : z.font with
    | none => rw [Option.getD_none]; omega
    | some p => exact W.num.ptr e1 (List.mem_of_getElem? h3) p (by rw [h4, hz])
  rcases t5 with ⟨rfl, u1, u2⟩ | ⟨u0, u1, u2⟩
  · obtain ⟨k1, k2, k3, -⟩ := u2.keeps
    refine ⟨t', e', fun d hd _ => keep_answers W W' (hother d hd) k3 (fun r z h1 h2 => ?_), fun r hr => ?_, fun r hr _ => ?_, q, e, ef, g, i % 65536,
      askFormat (Xf.setFont (Xf.dup x) (some s.fonts.length)),
      hc, he, by rw [hex]; exact hef, by rw [heff]; exact t4, ?_, by rw [hex]; exact (apart_setFont _ _).trans (apart_dup _)⟩
    · rw [u1]; exact List.getElem?_append_left (by rw [Styles.fv_len]; exact (hdf d r z h1 h2).2)
    · rw [formatAnswers_vals, formatAnswers_vals, k3 r (by rw [Styles.xv_len]; exact hr)]
    · rw [fontAnswers_vals, fontAnswers_vals, u1, List.getElem?_append_left (by rw [Styles.fv_len]; exact hr)]
    · rw [cellAnswers_vals W'.num, hci, Option.join_some, Option.bind_some, k1, Option.bind_some, u1]
      show ((fv s ++ [g])[s.fonts.length]?).map _ = _
      rw [← Styles.fv_len, List.getElem?_concat_length]
      rfl
  · obtain ⟨k1, k2, k3, -⟩ := u2.keeps
    have hplt : p < (fv s).length := by rw [Styles.fv_len]; exact hptr p u0
    refine ⟨t', e', fun d hd hne => keep_answers W W' (hother d hd) k3 (fun r z h1 h2 => ?_), fun r hr => ?_, fun r hr hne => ?_, q, e, ef, g, i % 65536, askFormat (Xf.dup x),
      hc, he, by rw [hex]; exact hef, by rw [heff]; exact t4, ?_, by rw [hex]; exact apart_dup _⟩
    · have := hne p (by rw [hfc, u0])
      rw [(hdf d r z h1 h2).1] at this
      rw [u1]
      exact List.getElem?_set_ne (fun h => this (by rw [h]))
    · rw [formatAnswers_vals, formatAnswers_vals, k3 r (by rw [Styles.xv_len]; exact hr)]
    · rw [hfc, u0] at hne
      rw [fontAnswers_vals, fontAnswers_vals, u1, List.getElem?_set_ne (fun h => hne (by rw [h]))]
    · rw [cellAnswers_vals W'.num, hci, Option.join_some, Option.bind_some, k1, Option.bind_some, u1, Styles.dup_font, u0]
      show (((fv s).set p g)[p]?).map _ = _
      rw [List.getElem?_set_self hplt]
      rfl

/-- C73: a setter of a format object changes the answers of that object and of the cells that have it, and no others; those cells answer what the object
    answers. -/
theorem c73_format_setter (acts : List Action) (s0 s : State) (h0 : Styles.init = some s0) (ha : AllSane s0 acts) (hs : Styles.steps s0 acts = some s)
    (q : Nat) (o : Xf.Op) (ho : Sane s (.xf q o)) :
    ∃ t, Styles.step s (.xf q o) = some t ∧ (∀ d, s.cells[d]? ≠ some (some q) → cellAnswers t d = cellAnswers s d) ∧
      (∀ r, r ≠ q → formatAnswers t r = formatAnswers s r) ∧ (∀ p, fontAnswers t p = fontAnswers s p) ∧
      ∃ e y, s.xfs[q]? = some e ∧ o.run e.xf = some y ∧ formatAnswers t q = some (askFormat y) ∧
        ∀ d, s.cells[d]? = some (some q) → (cellAnswers t d).map (·.2.1) = some (askFormat y) := by
  have W := reach_well h0 ha hs
  obtain ⟨t', e', W', hF, hX, -⟩ := W.step ho
  have hlt : q < (xv s).length := by rw [Styles.xv_len]; exact ho.1
  have hx : (xv s)[q]? = some (xv s)[q] := by simp [hlt]
  obtain ⟨y, hy, -⟩ := (W.xfs _ (List.mem_of_getElem? hx)).run ho.2.1
  obtain ⟨t, t1, t2, t3, t4⟩ := setOn_vals hx hy
  obtain rfl : t' = t := Option.some.inj (e'.symm.trans t1)
  obtain ⟨e, he, hex⟩ := Styles.xv_get hx
  have hyq : (xv t')[q]? = some y := by rw [t3]; exact List.getElem?_set_self hlt
  refine ⟨t', e', fun d hd => ?_, fun r hr => ?_, fun p => by rw [fontAnswers_vals, fontAnswers_vals, t2], e, y, he, by rw [hex]; exact hy, ?_, fun d hd => ?_⟩
  · rw [cellAnswers_vals W.num, cellAnswers_vals W'.num, t4, t2]
    cases hq : s.cells[d]? with
    | none => rfl
    | some o =>
      cases o with
      | none => rfl
      | some r =>
        have : q ≠ r := fun h => hd (by rw [hq, h])
        simp only [Option.join_some, Option.bind_some]
        rw [t3, List.getElem?_set_ne this]
  · rw [formatAnswers_vals, formatAnswers_vals, t3, List.getElem?_set_ne (fun h => hr h.symm)]
  · rw [formatAnswers_vals, hyq]; rfl
  · have hfl : y.font.getD 0 < t'.fonts.length := by
      have five := W'.num.five
      obtain ⟨ey, hey, hexy⟩ := Styles.xv_get hyq
      cases hyf : y.font with
      | none => rw [Option.getD_none]; omega
      | some p => exact W'.num.ptr ey (List.mem_of_getElem? hey) p (by rw [hexy, hyf])
    rw [cellAnswers_vals W'.num, t4, hd, Option.join_some, Option.bind_some, hyq, Option.bind_some, fv, List.getElem?_map, List.getElem?_eq_getElem hfl]
    rfl

/-- C73: a setter of a font object changes the answers of that object and of the cells whose formats have it, and no others. -/
theorem c73_font_setter (acts : List Action) (s0 s : State) (h0 : Styles.init = some s0) (ha : AllSane s0 acts) (hs : Styles.steps s0 acts = some s)
    (p : Nat) (o : Font.FOp) (ho : Sane s (.font p o)) :
    ∃ t, Styles.step s (.font p o) = some t ∧ (∀ q, formatAnswers t q = formatAnswers s q) ∧ (∀ r, r ≠ p → fontAnswers t r = fontAnswers s r) ∧
      (∀ d, (s.cells[d]?).join.bind (fun q => (s.xfs[q]?).map fun e => e.xf.font.getD 0) ≠ some p → cellAnswers t d = cellAnswers s d) ∧
      ∃ f g, s.fonts[p]? = some f ∧ o.run f.font = some g ∧ fontAnswers t p = some (askFont g) ∧
        ∀ d, (s.cells[d]?).join.bind (fun q => (s.xfs[q]?).map fun e => e.xf.font.getD 0) = some p →
          (cellAnswers t d).map (·.2.2) = some (askFont g) ∧ (cellAnswers t d).map (·.2.1) = (cellAnswers s d).map (·.2.1) := by
  have W := reach_well h0 ha hs
  obtain ⟨t', e', W', hF, hX, -⟩ := W.step ho
  have hlt : p < (fv s).length := by rw [Styles.fv_len]; exact ho.1
  have hf : (fv s)[p]? = some (fv s)[p] := by simp [hlt]
  obtain ⟨g, hg, -⟩ := (W.fonts _ (List.mem_of_getElem? hf)).run ho.2
  obtain ⟨t, t1, t2, t3, t4⟩ := setFontOn_vals hf hg
  obtain rfl : t' = t := Option.some.inj (e'.symm.trans t1)
  obtain ⟨e, he, hex⟩ := Styles.fv_get hf
  have hgp : (fv t')[p]? = some g := by rw [t2]; exact List.getElem?_set_self hlt
  have hdf : ∀ (d r : Nat) (z : Xf.Xf), s.cells[d]? = some (some r) → (xv s)[r]? = some z →
      (s.cells[d]?).join.bind (fun q => (s.xfs[q]?).map fun e => e.xf.font.getD 0) = some (z.font.getD 0) := by
    intro d r z h1 h2
    obtain ⟨e1, h3, h4⟩ := Styles.xv_get h2
    rw [h1, Option.join_some, Option.bind_some, h3, Option.map_some, h4]
  refine ⟨t', e', fun q => by rw [formatAnswers_vals, formatAnswers_vals, t3], fun r hr => ?_, fun d hd => ?_, e, g, he, by rw [hex]; exact hg, ?_, fun d hd => ?_⟩
  · rw [fontAnswers_vals, fontAnswers_vals, t2, List.getElem?_set_ne (fun h => hr h.symm)]
  · refine keep_answers W W' (by rw [t4]) (fun q _ => by rw [t3]) (fun r z h1 h2 => ?_)
    rw [hdf d r z h1 h2] at hd
    rw [t2]
    exact List.getElem?_set_ne (fun h => hd (by rw [h]))
  · rw [fontAnswers_vals, hgp]; rfl
  · obtain ⟨r, h1, h2⟩ := Option.bind_eq_some_iff.mp hd
    obtain ⟨e1, h3, h4⟩ := Option.map_eq_some_iff.mp h2
    have hz : (xv s)[r]? = some e1.xf := by simp [xv, h3]
    rw [cellAnswers_vals W'.num, cellAnswers_vals W.num, t4, h1, Option.bind_some, Option.bind_some, t3, hz, Option.bind_some, Option.bind_some, h4, hgp, hf]
    exact ⟨rfl, rfl⟩

def meantB (s : Styles.State) (o : Xf.Op) : Bool :=
  decide (Xf.Spec.Valid o) && (match o with | .font (some p) => decide (p < s.fonts.length) | _ => true)

def liveB (s : Styles.State) (c : Nat) : Bool := (s.cells[c]?).join.isSome

/-- `Sane`, computed. -/
def saneB (s : Styles.State) : Styles.Action → Bool
  | .newFont n => decide (n.length < 256)
  | .stockFont n => decide (n < 5)
  | .copyFont p => decide (p < s.fonts.length)
  | .copyXf q => decide (q < s.xfs.length)
  | .font p o => decide (p < s.fonts.length) && decide (Font.Spec.Valid o)
  | .newXf => true
  | .xf q o => decide (q < s.xfs.length) && meantB s o
  | .newCell none => true
  | .newCell (some q) => decide (q < s.xfs.length)
  | .destroy c => liveB s c
  | .setXf c q => liveB s c && decide (q < s.xfs.length)
  | .adopt c q _ => liveB s c && decide (q < s.xfs.length)
  | .cell c o => liveB s c && meantB s o
  | .cellFont c o => liveB s c && decide (Font.Spec.Valid o)

theorem meant_of {s : Styles.State} {o : Xf.Op} (h : meantB s o = true) : Meant s o := by
  simp only [meantB, Bool.and_eq_true, decide_eq_true_eq] at h
  refine ⟨h.1, ?_⟩
  rintro p rfl
  simpa using h.2

theorem live_of {s : Styles.State} {c : Nat} (h : liveB s c = true) : Live s c := by
  obtain ⟨q, hq⟩ := Option.isSome_iff_exists.mp h
  exact ⟨q, Option.join_eq_some_iff.mp hq⟩

theorem sane_of {s : Styles.State} {a : Styles.Action} (h : saneB s a = true) : Sane s a := by
  cases a with
  | newFont n => exact by simpa [saneB, Sane] using h
  | stockFont n => exact by simpa [saneB, Sane] using h
  | copyFont p => exact by simpa [saneB, Sane] using h
  | copyXf q => exact by simpa [saneB, Sane] using h
  | font p o => exact by simpa [saneB, Sane] using h
  | newXf => trivial
  | xf q o =>
    simp only [saneB, Bool.and_eq_true, decide_eq_true_eq] at h
    exact ⟨h.1, meant_of h.2⟩
  | newCell q =>
    rintro r rfl
    simpa [saneB] using h
  | destroy c => exact live_of h
  | setXf c q =>
    simp only [saneB, Bool.and_eq_true, decide_eq_true_eq] at h
    exact ⟨live_of h.1, h.2⟩
  | adopt c q ops =>
    simp only [saneB, Bool.and_eq_true, decide_eq_true_eq] at h
    exact ⟨live_of h.1, h.2⟩
  | cell c o =>
    simp only [saneB, Bool.and_eq_true] at h
    exact ⟨live_of h.1, meant_of h.2⟩
  | cellFont c o =>
    simp only [saneB, Bool.and_eq_true, decide_eq_true_eq] at h
    exact ⟨live_of h.1, h.2⟩

def allSaneB (s : State) : List Action → Bool
  | [] => true
  | a :: r => saneB s a && match Styles.step s a with | none => true | some t => allSaneB t r

theorem allSane_of {s : State} {acts : List Action} (h : allSaneB s acts = true) : AllSane s acts := by
  induction acts generalizing s with
  | nil => trivial
  | cons a r ih =>
    simp only [allSaneB, Bool.and_eq_true] at h
    refine ⟨sane_of h.1, fun t ht => ih ?_⟩
    have := h.2
    rw [ht] at this
    exact this

/-- Format 21 has the program's font; its first cell goes away, then two cells get it. -/
def shared : List Action := [.newFont [65], .newXf, .xf 21 (.font (some 5)), .newCell (some 21), .destroy 0, .newCell (some 21), .newCell (some 21)]

/-- The four theorems can be used after this program. -/
example : ∃ s0 s, Styles.init = some s0 ∧ AllSane s0 shared ∧ Styles.steps s0 shared = some s ∧ Sane s (.cell 1 (.halign 2)) ∧ Sane s (.cellFont 1 (.bold 0)) ∧
    Sane s (.xf 21 (.wrap true)) ∧ Sane s (.font 5 (.italic true)) := by
  obtain ⟨s0, h0, W⟩ := init_well
  have h : (Styles.init.bind fun s0 => (Styles.steps s0 shared).map fun s => allSaneB s0 shared && saneB s (.cell 1 (.halign 2)) && saneB s (.cellFont 1 (.bold 0)) &&
    saneB s (.xf 21 (.wrap true)) && saneB s (.font 5 (.italic true))) = some true := by decide +kernel
  rw [h0, Option.bind_some] at h
  obtain ⟨s, s1, h⟩ := Option.map_eq_some_iff.mp h
  simp only [Bool.and_eq_true] at h
  exact ⟨s0, s, h0, allSane_of h.1.1.1.1, s1, sane_of h.1.1.1.2, sane_of h.1.1.2, sane_of h.1.2, sane_of h.2⟩

/-- That a font call on a cell changes no other cell fails: after `shared` the font counts too few users, and bold for cell 1 makes cell 2 bold. -/
theorem c73_font_shown_elsewhere : ∃ acts s0 s t, Styles.init = some s0 ∧ AllSane s0 acts ∧ Styles.steps s0 acts = some s ∧ Sane s (.cellFont 1 (.bold 0)) ∧
    Styles.step s (.cellFont 1 (.bold 0)) = some t ∧ (cellAnswers s 2).map (·.2.2.bold) = some 400 ∧ (cellAnswers t 2).map (·.2.2.bold) = some 700 := by
  obtain ⟨s0, h0, W⟩ := init_well
  have h : (Styles.init.bind fun s0 => (Styles.steps s0 shared).bind fun s => (Styles.step s (.cellFont 1 (.bold 0))).map fun t =>
    (allSaneB s0 shared && saneB s (.cellFont 1 (.bold 0)), (cellAnswers s 2).map (·.2.2.bold), (cellAnswers t 2).map (·.2.2.bold))) = some (true, some 400, some 700) := by
    decide +kernel
  rw [h0, Option.bind_some] at h
  obtain ⟨s, s1, h⟩ := Option.bind_eq_some_iff.mp h
  obtain ⟨t, t1, h⟩ := Option.map_eq_some_iff.mp h
  simp only [Prod.mk.injEq, Bool.and_eq_true] at h
  exact ⟨shared, s0, s, t, h0, allSane_of h.1.1, s1, sane_of h.1.2, t1, h.2⟩

end Xls.Mirror
