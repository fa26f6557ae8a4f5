import Verif.Desk.Props
/-
C69: the boxes of comments, from a new workbook to the saved stream.
-/
namespace Xls.Desk
open Xls.Biff Xls.Book Xls.Cells Xls.Save Xls.Whole
open Xls.Page (Act latest beside need halvings breaks)

/-- The calls on sheet `i` that do not concern its cells. -/
def actsOn (i : Nat) (calls : List Call) : List Act := (calls.filterMap Call.inner).filterMap (Prog.onSheet i)

/-- A box lies on a sheet (of 256 columns and 65536 rows), with its left side not right of its right side and its upper side not below its lower side. -/
def OnSheet (p : Spec.Place) : Prop := p.left ≤ p.right ∧ p.right.toNat < 256 ∧ p.top ≤ p.bottom

/-- C69: any program on a new workbook that puts comments on cells, colours their boxes and moves them, and does whatever else C65 says, is carried out and
    saved, and a reader finds for each comment of each sheet, and for nothing else, a box with the colour last given, red, green and blue as given, (that of
    tips if none was given since the comment was made) and at the place last given (beside the cell if none was given since).
    Missing for the full claim: the conditions of C65. -/
theorem c69_boxes_partial {ar : Nat → Option Nat} (hA : Formula.KnowsArity ar) (calls : List Call) (p0 : Prog.State) (h0 : Prog.init = some p0)
    (hp : Possible 0 calls) (hf : Prog.Fine p0 Prog.nothing (calls.filterMap Call.inner))
    (hm : Prog.Modest (Prog.asked p0 Prog.nothing (calls.filterMap Call.inner))) (cs : WCell → Nat)
    (hn0 : names calls ≠ []) (hn1 : (names calls).length ≤ 1000) (hn2 : ∀ n ∈ names calls, n.length < 256) :
    ∃ s0 s, init = some s0 ∧ steps s0 calls = some s ∧ (s.prog.look.styles.xfs.length ≤ 65536 → ∃ fuel wb, units cs fuel s = some wb ∧
      (wb.flatten.length < 2 ^ 32 → ∀ pad, ∃ M, Page.openPages (wb.flatten ++ pad) = some ((names calls).zip M) ∧ M.length = (names calls).length ∧
        ∀ (i : Nat) P, M[i]? = some P →
          (∀ row col, (∃ x, latest (Act.remark row col) (actsOn i calls) = some x) ↔ (row, col) ∈ P.boxes.map fun b => (b.row, b.col)) ∧
          (P.boxes.map fun b => (b.row, b.col)).Nodup ∧
          ∀ b ∈ P.boxes, latest (Act.tint b.row b.col) (actsOn i calls) = some b.box.fill ∧ latest (Act.lie b.row b.col) (actsOn i calls) = some b.box.place)) := by
  obtain ⟨s0, s, e1, e2, H⟩ := c65_stream_partial hA calls p0 h0 hp hf hm cs hn0 hn1 hn2
  refine ⟨s0, s, e1, e2, fun hx => ?_⟩
  obtain ⟨n, wb, f1, f2⟩ := H hx
  refine ⟨n, wb, f1, fun h32 pad => ?_⟩
  obtain ⟨⟨L, M, R, recs, -, m1, -, -, -, m2, -, -, m3, -⟩, -⟩ := f2 h32 pad
  refine ⟨M, m1, m2, fun i P hP => ?_⟩
  obtain ⟨a, -⟩ := m3 i P hP
  obtain ⟨p, h1, G0⟩ := Prog.init_good
  rw [h0] at h1
  cases Option.some.inj h1
  rw [Prog.asked_acts G0 hf, show Prog.nothing.acts i = [] from rfl, List.nil_append] at a
  refine ⟨fun row col => ?_, ?_, a.boxes⟩
  · rw [a.boxOrder, List.mem_map]
    constructor
    · rintro ⟨⟨au, t⟩, hx⟩
      exact ⟨_, (a.comments row col au _).mpr ⟨t, hx, rfl⟩, rfl⟩
    · rintro ⟨⟨r, c, au, sh⟩, hc, he⟩
      simp only [Prod.mk.injEq] at he
      obtain ⟨rfl, rfl⟩ := he
      obtain ⟨t, ht, -⟩ := (a.comments r c au sh).mp hc
      exact ⟨_, ht⟩
  · rw [a.boxOrder]
    unfold List.Nodup
    rw [List.pairwise_map]
    refine a.commentOrder.imp fun {x y} h e => ?_
    simp only [Prod.mk.injEq] at e
    omega

/-- How often a height must be halved. -/
theorem halvings_spec {n : Nat} (hn : n < 65536) : n / 2 ^ halvings n ≤ 20 ∧ halvings n ≤ 12 ∧ ∀ i < halvings n, 20 < n / 2 ^ i := by
  obtain ⟨k, k1, -, k3, k4⟩ := Page.shrink_eq 12 17 2 n (by decide) (Nat.lt_of_lt_of_le hn (by decide)) (by decide)
  rw [Page.halvings_eq (by omega) k3 k4]
  exact ⟨k3, k1, k4⟩

/-- The box that a comment gets is at most 20 rows high, and more than 9 if it is wider than two columns; it is at most 256 columns wide; and
    it has room for the text: width times height is what two columns of the needed height have, up to the height that is lost by rounding down. -/
theorem c69_size (a t : List UInt16) (ha : a.length ≤ 54) (ht : t.length ≤ 2048) :
    ∃ w h, (∀ row col, beside row col a t = ⟨3, .ofNat (col + 1), 205, .ofNat row, 39, .ofNat (col + 1 + w), 123, .ofNat (row + h), 59⟩) ∧
      2 ≤ h ∧ h ≤ 20 ∧ 2 ≤ w ∧ w ≤ 256 ∧ (2 < w → 10 ≤ h) ∧ w * h ≤ 2 * need a t ∧ 2 * need a t < w * (h + 1) := by
  have hc : need a t < 2560 := by
    have h1 : t.count 10 ≤ t.length := List.count_le_length
    have h2 : (t.zip t.tail).count (10, 10) ≤ (t.zip t.tail).length := List.count_le_length
    rw [List.length_zip] at h2
    unfold need breaks
    omega
  have h2 : 2 ≤ need a t := by unfold need; omega
  obtain ⟨k1, k2, k3⟩ := halvings_spec (Nat.lt_trans hc (by decide : 2560 < 65536))
  refine ⟨2 * 2 ^ halvings (need a t), need a t / 2 ^ halvings (need a t), fun _ _ => rfl, ?_⟩
  generalize need a t = n at *
  generalize halvings n = k at *
  have hk : k ≤ 7 := by
    apply Classical.byContradiction
    intro hk
    have := k3 7 (by omega)
    omega
  have hd := Nat.div_add_mod n (2 ^ k)
  have hl := Nat.mod_lt n (Nat.two_pow_pos k)
  have hp : 2 ^ k ≤ 2 ^ 7 := Nat.pow_le_pow_right (by decide) hk
  have h1 : 1 ≤ 2 ^ k := Nat.two_pow_pos k
  have e1 : 2 * 2 ^ k * (n / 2 ^ k) = 2 * (2 ^ k * (n / 2 ^ k)) := Nat.mul_assoc ..
  have e2 : 2 * 2 ^ k * (n / 2 ^ k + 1) = 2 * (2 ^ k * (n / 2 ^ k)) + 2 * 2 ^ k := by rw [Nat.mul_add, e1, Nat.mul_one]
  have e3 : 0 < k → 10 ≤ n / 2 ^ k := by
    intro h
    obtain ⟨j, rfl⟩ : ∃ j, k = j + 1 := ⟨k - 1, by omega⟩
    have := k3 j (by omega)
    rw [Nat.pow_succ, ← Nat.div_div_eq_div_mul]
    omega
  refine ⟨?_, k1, by omega, by omega, ?_, by omega, by omega⟩
  · cases k with
    | zero => simpa using h2
    | succ j => have := e3 (by omega); omega
  · intro h
    refine e3 ?_
    cases k with
    | zero => simp at h
    | succ j => omega

/-- When the box that a comment gets lies on the sheet: not when the comment is in one of the last columns or rows. -/
theorem c69_on_sheet (row col : Nat) (hr : row < 65536) (hc : col < 256) (a t : List UInt16) (ha : a.length ≤ 54) (ht : t.length ≤ 2048) :
    OnSheet (beside row col a t) ↔ col + 1 + 2 * 2 ^ halvings (need a t) < 256 ∧ row + need a t / 2 ^ halvings (need a t) < 65536 := by
  obtain ⟨w, h, e, h1, h2, h3, h4, -⟩ := c69_size a t ha ht
  have e0 := e row col
  have e1 : (beside row col a t).right = .ofNat (col + 1 + w) := by rw [e0]
  have e2 : (beside row col a t).bottom = .ofNat (row + h) := by rw [e0]
  have f1 : UInt16.ofNat (col + 1 + 2 * 2 ^ halvings (need a t)) = .ofNat (col + 1 + w) := e1
  have hw : 2 * 2 ^ halvings (need a t) = w := by
    have k2 := (halvings_spec (Page.need_lt ha ht)).2.1
    have hp : 2 ^ halvings (need a t) ≤ 2 ^ 12 := Nat.pow_le_pow_right (by decide) k2
    have := congrArg UInt16.toNat f1
    simp only [UInt16.toNat_ofNat'] at this
    omega
  have f2 : UInt16.ofNat (row + need a t / 2 ^ halvings (need a t)) = .ofNat (row + h) := e2
  have hh : need a t / 2 ^ halvings (need a t) = h := by
    have k1 := (halvings_spec (Page.need_lt ha ht)).1
    have := congrArg UInt16.toNat f2
    simp only [UInt16.toNat_ofNat'] at this
    generalize need a t / 2 ^ halvings (need a t) = q at *
    omega
  rw [hw, hh, e0]
  unfold OnSheet
  simp only [UInt16.le_iff_toNat_le, UInt16.toNat_ofNat']
  omega

/-- The claim that comments are shown on the sheet fails in the saved stream of every such program that puts a comment in one of the last three columns or the last two
    rows and does not move its box. -/
theorem c69_box_off_sheet {ar : Nat → Option Nat} (hA : Formula.KnowsArity ar) (calls : List Call) (p0 : Prog.State) (h0 : Prog.init = some p0)
    (hp : Possible 0 calls) (hf : Prog.Fine p0 Prog.nothing (calls.filterMap Call.inner))
    (hm : Prog.Modest (Prog.asked p0 Prog.nothing (calls.filterMap Call.inner))) (cs : WCell → Nat)
    (hn1 : (names calls).length ≤ 1000) (hn2 : ∀ n ∈ names calls, n.length < 256)
    {i row col : Nat} {a t : List UInt16} (hi : i < (names calls).length) (hr : row < 65536) (hc : col < 256) (hlast : 253 ≤ col ∨ 65534 ≤ row)
    (hrem : latest (Act.remark row col) (actsOn i calls) = some (a, t)) (hstay : latest (Act.lie row col) (actsOn i calls) = some (beside row col a t)) :
    ∃ s0 s, init = some s0 ∧ steps s0 calls = some s ∧ (s.prog.look.styles.xfs.length ≤ 65536 → ∃ fuel wb, units cs fuel s = some wb ∧
      (wb.flatten.length < 2 ^ 32 → ∀ pad, ∃ M P b, Page.openPages (wb.flatten ++ pad) = some ((names calls).zip M) ∧ M[i]? = some P ∧ b ∈ P.boxes ∧
        (b.row, b.col) = (row, col) ∧ ¬ OnSheet b.box.place)) := by
  have hn0 : names calls ≠ [] := by
    intro e
    rw [e] at hi
    cases hi
  obtain ⟨s0, s, e1, e2, H⟩ := c69_boxes_partial hA calls p0 h0 hp hf hm cs hn0 hn1 hn2
  refine ⟨s0, s, e1, e2, fun hx => ?_⟩
  obtain ⟨n, wb, f1, f2⟩ := H hx
  refine ⟨n, wb, f1, fun h32 pad => ?_⟩
  obtain ⟨M, m1, m2, m3⟩ := f2 h32 pad
  have hg : M[i]? = some M[i] := by simp [show i < M.length by omega]
  obtain ⟨k1, -, k2⟩ := m3 i _ hg
  obtain ⟨b, hb, he⟩ := List.mem_map.mp ((k1 row col).mp ⟨_, hrem⟩)
  refine ⟨M, M[i], b, m1, hg, hb, he, ?_⟩
  have hpl := (k2 b hb).2
  simp only [Prod.mk.injEq] at he
  rw [he.1, he.2, hstay] at hpl
  rw [← Option.some.inj hpl]
  have hfit : a.length ≤ 54 ∧ t.length ≤ 2048 := by
    obtain ⟨act, hact, hact'⟩ := Page.latest_mem hrem
    cases act with
    | comment r c au tx =>
      simp only [Act.remark] at hact'
      split at hact'
      · simp only [Option.some.injEq, Prod.mk.injEq] at hact'
        rw [← hact'.1, ← hact'.2]
        exact ⟨(Page.signed_length au).2, (Page.worded_length tx).2⟩
      · cases hact'
    | _ => cases hact'
  rw [c69_on_sheet row col hr hc a t hfit.1 hfit.2]
  obtain ⟨w, h, e, g1, g2, g3, -⟩ := c69_size a t hfit.1 hfit.2
  rintro ⟨q1, q2⟩
  have hk : 2 ≤ 2 * 2 ^ halvings (need a t) := by have := Nat.two_pow_pos (halvings (need a t)); omega
  have f2 : UInt16.ofNat (0 + need a t / 2 ^ halvings (need a t)) = .ofNat (0 + h) := congrArg Spec.Place.bottom (e 0 0)
  have k1 := (halvings_spec (Page.need_lt hfit.1 hfit.2)).1
  have := congrArg UInt16.toNat f2
  simp only [UInt16.toNat_ofNat'] at this
  generalize need a t / 2 ^ halvings (need a t) = q at *
  omega

/-! ### A program -/

/-- Three comments, one of them in the last column, one without author and text; one box is coloured, and coloured and moved again after its comment was replaced. -/
def boxSample : List Call :=
  [.sheet [65], .on (.page 0 (.comment 3 4 [65] [66])), .on (.page 0 (.box 3 4 (.fill 1 2 3))), .on (.page 0 (.comment 3 4 [65] [67, 10, 10, 68])),
   .on (.page 0 (.comment 9 255 [65] [66])), .on (.page 0 (.box 3 4 (.fill 255 128 0))), .on (.page 0 (.box 3 4 (.place ⟨0, 6, 0, 1, 0, 9, 0, 8, 0⟩))), .on (.page 0 (.comment 9 8 [] []))]

theorem boxSample_fine : ∃ p0, Prog.init = some p0 ∧ Possible 0 boxSample ∧ Prog.Fine p0 Prog.nothing (boxSample.filterMap Call.inner) ∧
    Prog.Modest (Prog.asked p0 Prog.nothing (boxSample.filterMap Call.inner)) := by
  obtain ⟨p0, h0, G⟩ := Prog.init_good
  have h : (Prog.init.map fun s => Prog.alongB (fun s A c => Prog.mildB s A c && Prog.keptB A c) s Prog.nothing (boxSample.filterMap Call.inner) &&
      decide ((Prog.asked s Prog.nothing (boxSample.filterMap Call.inner)).look.writes.length = 0)) = some true := by decide +kernel
  rw [h0] at h
  simp only [Option.map_some, Option.some.injEq, Bool.and_eq_true, decide_eq_true_eq, List.length_eq_zero_iff] at h
  obtain ⟨h1, h2⟩ := h
  have hf : Prog.Fine p0 Prog.nothing (boxSample.filterMap Call.inner) :=
    Prog.along_of (fun s A c hc => ⟨Prog.mild_of (Bool.and_eq_true _ _ ▸ hc).1, Prog.kept_of (Bool.and_eq_true _ _ ▸ hc).2⟩) h1
  have ha : ∀ i, (Prog.asked p0 Prog.nothing (boxSample.filterMap Call.inner)).acts i = (boxSample.filterMap Call.inner).filterMap (Prog.onSheet i) :=
    fun i => Prog.asked_acts G hf i
  have hlen : ∀ i, ((boxSample.filterMap Call.inner).filterMap (Prog.onSheet i)).length ≤ 8 := fun i =>
    Nat.le_trans (List.length_filterMap_le ..) (Nat.le_trans (List.length_filterMap_le ..) (by simp [boxSample]))
  refine ⟨p0, h0, by simp [boxSample, Possible, target], hf, ⟨?_, by rw [h2]; decide, Whole.fewRows_of fun p hp => by (rw [h2] at hp; cases hp), ?_, ?_, ?_⟩, ?_⟩
  · intro i row col c hw
    rw [h2] at hw
    cases hw
  · intro i a hm
    rw [ha] at hm
    obtain ⟨c, hc, he⟩ := List.mem_filterMap.mp hm
    simp only [boxSample, Call.inner, List.filterMap_cons, List.filterMap_nil, List.mem_cons, List.not_mem_nil, or_false] at hc
    rcases hc with rfl | rfl | rfl | rfl | rfl | rfl | rfl <;> simp only [Prog.onSheet] at he <;>
      (split at he <;> first | cases he | skip) <;> simp [Page.Fit, Page.InLimits, Page.Short, Page.RowFit, Act.rowHeight]
  · intro i
    rw [ha]
    have := hlen i
    omega
  · intro i
    rw [ha]
    have := hlen i
    exact Nat.le_trans List.countP_le_length (by omega)
  · intro i
    refine Page.few_steady _ _ ?_
    rw [ha]
    have := hlen i
    exact Nat.lt_of_le_of_lt List.countP_le_length (by omega)

/-- What it asks for: orange at columns 6 to 9, and the colour of tips from column 256 on. -/
example : latest (Act.tint 3 4) (actsOn 0 boxSample) = some (255 + 256 * 128) ∧ latest (Act.lie 3 4) (actsOn 0 boxSample) = some ⟨0, 6, 0, 1, 0, 9, 0, 8, 0⟩ ∧
    latest (Act.tint 9 255) (actsOn 0 boxSample) = some 0x08000050 ∧
    latest (Act.lie 9 255) (actsOn 0 boxSample) = some ⟨3, 256, 205, 9, 39, 258, 123, 11, 59⟩ ∧
    beside 3 4 [65] [67, 10, 10, 68] = ⟨3, 5, 205, 3, 39, 7, 123, 7, 59⟩ ∧
    (latest (Act.remark 9 8) (actsOn 0 boxSample)).map Prod.snd = some (Page.ascii "Text Must Be 1 to 2048chars long".toList) := by decide +kernel

example : ∃ s0 s, init = some s0 ∧ steps s0 boxSample = some s ∧ (s.prog.look.styles.xfs.length ≤ 65536 → ∃ fuel wb, units (fun _ => 0) fuel s = some wb ∧
      (wb.flatten.length < 2 ^ 32 → ∀ pad, ∃ M P b, Page.openPages (wb.flatten ++ pad) = some ((names boxSample).zip M) ∧ M[0]? = some P ∧ b ∈ P.boxes ∧
        (b.row, b.col) = (9, 255) ∧ ¬ OnSheet b.box.place)) := by
  obtain ⟨p0, h0, hp, hf, hm⟩ := boxSample_fine
  exact c69_box_off_sheet (a := [65]) (t := [66]) Formula.tableArity_knows boxSample p0 h0 hp hf hm (fun _ => 0) (by decide) (by decide) (by decide) (by decide) (by decide)
    (.inl (by decide)) (by decide +kernel) (by decide +kernel)

end Xls.Desk
