import Verif.Area.Sim
/-
The operations on a range as a whole.
-/
namespace Xls.Area
open Xls.Range (Rect RangeOp Cache each keys keys_nodup each_list okLoop ArgsOk Room colorOps boxTag boxOps box_tag)
open Xls.Range.Spec (rangeCalls fontCall)
open Xls.Whole Xls.Cells
open Xls.Styles.Spec (Look plain upd onCall)
open Xls.Xf (Xf)

theorem askPlace_writes (i : Nat) (f : Key → Look → Look) (p : Nat × Look.Asked) (k : Key) (i' : Nat) (k' : Key) (h : ¬ (i' = i ∧ k' = k)) :
    lastWrite (askPlace i f p k).2.writes i' k'.1 k'.2 = lastWrite p.2.writes i' k'.1 k'.2 := by
  unfold askPlace
  cases lastWrite p.2.writes i k.1 k.2 with
  | some d => rfl
  | none =>
    simp only [lastWrite_append]
    rw [if_neg]
    rintro ⟨rfl, h1, h2⟩
    exact h ⟨rfl, Prod.ext h1.symm h2.symm⟩

theorem askPlace_fonts (i : Nat) (f : Key → Look → Look) (p : Nat × Look.Asked) (k : Key) : (askPlace i f p k).2.looks.fonts = p.2.looks.fonts := by
  unfold askPlace
  cases lastWrite p.2.writes i k.1 k.2 <;> rfl

/-- The plain calls are blank cells on these places, on all where there is no cell, and calls on styles. -/
structure Covers (i : Nat) (ks : List Key) (A : Prog.Asked) (calls : List Desk.Call) : Prop where
  only : ∀ c ∈ calls, (∃ k ∈ ks, c = blankAt i k.1 k.2) ∨ ∃ a, c = styled a
  all : ∀ k ∈ ks, lastWrite A.look.writes i k.1 k.2 = none → blankAt i k.1 k.2 ∈ calls

theorem loop {σ : Type} (i : Nat) (f : Key → Look → Look) (P : σ → Prop) (body : Nat → Nat → σ → Option σ) (pr : σ → Desk.State)
    (fonts : Nat → Option Styles.Spec.FontH) (I : List Key → σ → Prog.Asked → Prop)
    (hstep : ∀ k ks w A, k ∉ ks → A.look.looks.fonts = fonts → Prog.Good (pr w).prog A → i < (pr w).wb.sheets.length → I (k :: ks) w A → P w →
      ∃ w', body k.1 k.2 w = some w' ∧ Pass i f k (pr w) A (pr w') ∧ I ks w' (after i f (pr w) A k))
    (ks : List Key) (hnd : ks.Nodup) (w : σ) (A : Prog.Asked) (hA : A.look.looks.fonts = fonts) (G : Prog.Good (pr w).prog A)
    (hi : i < (pr w).wb.sheets.length) (hI : I ks w A) (hP : okLoop P body ks w) :
    ∃ w' calls, ks.foldlM (fun w k => body k.1 k.2 w) w = some w' ∧
      Plain (pr w) A calls (pr w') { A with look := (ks.foldl (askPlace i f) ((pr w).prog.look.styles.cells.length, A.look)).2 } ∧ Covers i ks A calls := by
  induction ks generalizing w A with
  | nil => exact ⟨w, [], rfl, Plain.nil G, ⟨by simp, by simp⟩⟩
  | cons k r ih =>
    rw [List.nodup_cons] at hnd
    obtain ⟨w1, h1, ⟨⟨acts, h2⟩, h3⟩, h4⟩ := hstep k r w A hnd.1 hA G hi hI hP.1
    obtain ⟨w2, calls, e1, e2, e3⟩ := ih hnd.2 w1 (after i f (pr w) A k) (by rw [← hA]; exact askPlace_fonts _ _ _ _) h2.good (by rw [h2.wb]; exact hi) h4
      (hP.2 w1 h1)
    refine ⟨w2, (making A i k ++ acts.map styled) ++ calls, ?_, ?_, ?_, ?_⟩
    · rw [List.foldlM_cons, h1]
      exact e1
    · have : (r.foldl (askPlace i f) ((pr w1).prog.look.styles.cells.length, (after i f (pr w) A k).look)) =
          (k :: r).foldl (askPlace i f) ((pr w).prog.look.styles.cells.length, A.look) := by
        rw [List.foldl_cons, h3]
        rfl
      rw [this] at e2
      exact h2.append e2
    · intro c hc
      rcases List.mem_append.mp hc with hc | hc
      · rcases List.mem_append.mp hc with hc | hc
        · unfold making at hc
          split at hc
          · cases hc
          · exact .inl ⟨k, by simp, List.mem_singleton.mp hc⟩
        · obtain ⟨a, -, rfl⟩ := List.mem_map.mp hc
          exact .inr ⟨a, rfl⟩
      · rcases e3.only c hc with ⟨k', hk', rfl⟩ | h
        · exact .inl ⟨k', by simp [hk'], rfl⟩
        · exact .inr h
    · intro k' hk' hw
      rcases List.mem_cons.mp hk' with rfl | hk'
      · refine List.mem_append_left _ (List.mem_append_left _ ?_)
        unfold making
        rw [hw]
        simp
      · refine List.mem_append_right _ (e3.all k' hk' ?_)
        rw [← hw]
        exact askPlace_writes _ _ _ _ _ _ (fun h => hnd.1 (h.2 ▸ hk'))

/-- There is room for fonts and formats before each cell. -/
def RangeRoom (s : Desk.State) (i : Nat) (r : Rect) : RangeOp → Prop
  | .call o => okLoop (fun s : Desk.State => Room s.prog.look.styles) (callBody i o) (keys r) s
  | .font o => okLoop (fun s : Desk.State => Room s.prog.look.styles) (fontBody i o) (keys r) s
  | .color n => okLoop (fun w : Desk.State × Cache => Room w.1.prog.look.styles) (memoBody i (fun _ _ x => x.flags) (colorOps n)) (keys r) (s, [])
  | .box b => okLoop (fun w : Desk.State × Cache => Room w.1.prog.look.styles) (memoBody i (boxTag r) (boxOps r b)) (keys r) (s, [])

theorem box_ops {fonts : Nat → Option Styles.Spec.FontH} {b : Range.Box} (ho : ArgsOk fonts (.box b)) (r : Rect) (k : Key) :
    ∀ o ∈ boxOps r b k.1 k.2, Range.CallOk fonts o := by
  obtain ⟨b1, b2, b3, b4, b5⟩ := ho
  have b1 : ∀ s, Xf.Spec.Valid (.bstyle s b.border) := fun s => b1
  have b2 : ∀ s, Xf.Spec.Valid (.bcolor s b.color) := fun s => b2
  intro o hm
  have hif : ∀ (c : Prop) [Decidable c] (x y : Xf.Op), (o ∈ if c then [x, y] else []) → o = x ∨ o = y := by
    intro c _ x y h
    split at h
    · simpa using h
    · simp at h
  simp only [boxOps, List.mem_append] at hm
  rcases hm with (((hm | hm) | hm) | hm) | hm
  · rcases hif _ _ _ hm with rfl | rfl
    · exact ⟨b1 _, by simp⟩
    · exact ⟨b2 _, by simp⟩
  · rcases hif _ _ _ hm with rfl | rfl
    · exact ⟨b1 _, by simp⟩
    · exact ⟨b2 _, by simp⟩
  · rcases hif _ _ _ hm with rfl | rfl
    · exact ⟨b1 _, by simp⟩
    · exact ⟨b2 _, by simp⟩
  · rcases hif _ _ _ hm with rfl | rfl
    · exact ⟨b1 _, by simp⟩
    · exact ⟨b2 _, by simp⟩
  · simp only [List.mem_cons, List.not_mem_nil, or_false] at hm
    rcases hm with rfl | rfl | rfl
    · exact ⟨b3, by simp⟩
    · exact ⟨b4, by simp⟩
    · exact ⟨b5, by simp⟩

theorem color_ops {fonts : Nat → Option Styles.Spec.FontH} {n : Nat} (ho : ArgsOk fonts (.color n)) (k : Key) :
    ∀ o ∈ colorOps n k.1 k.2, Range.CallOk fonts o := by
  intro o hm
  simp only [colorOps, List.mem_cons, List.not_mem_nil, or_false] at hm
  rcases hm with rfl | rfl
  · exact ⟨ho, by simp⟩
  · exact ⟨by simp [Xf.Spec.Valid], by simp⟩

/-- An operation on a range. -/
theorem range_plain {s : Desk.State} {A : Prog.Asked} (G : Prog.Good s.prog A) (i : Nat) (hi : i < s.wb.sheets.length) (r : Rect)
    (h1 : r.lastRow < 2 ^ 32 - 1) (h2 : r.lastCol < 2 ^ 32 - 1) (o : RangeOp) (ho : ArgsOk A.look.looks.fonts o) (hroom : RangeRoom s i r o) :
    ∃ t calls, onRange s i r o = some t ∧ Plain s A calls t (ask s A (.range i r o)) ∧ Covers i (keys r) A calls := by
  have memo : ∀ (tag : Nat → Nat → Xf → Nat) (ops : Nat → Nat → List Xf.Op)
      (_ : ∀ (k k' : Key) x, tag k.1 k.2 x = tag k'.1 k'.2 x → ops k.1 k.2 = ops k'.1 k'.2)
      (_ : ∀ (k : Key), ∀ o ∈ ops k.1 k.2, Range.CallOk A.look.looks.fonts o)
      (_ : okLoop (fun w : Desk.State × Cache => Room w.1.prog.look.styles) (memoBody i tag ops) (keys r) (s, [])),
      ∃ t calls, (each r (memoBody i tag ops) (s, [])).map (·.1) = some t ∧
        Plain s A calls t { A with look := ((keys r).foldl (askPlace i fun k l => (ops k.1 k.2).foldl onCall l) (s.prog.look.styles.cells.length, A.look)).2 } ∧
        Covers i (keys r) A calls := by
    intro tag ops htag hops hroom
    obtain ⟨w, calls, w1, w2, w3⟩ := loop i (fun k l => (ops k.1 k.2).foldl onCall l) (fun w : Desk.State × Cache => Room w.1.prog.look.styles)
      (memoBody i tag ops) (·.1) A.look.looks.fonts (fun ks w A => CacheOk i tag ops ks w.1.prog.look.styles A.look.writes w.2)
      (by
        rintro k ks ⟨s, cache⟩ A' hk hA G' hi' hI hP
        obtain ⟨t, c', m1, m2, m3⟩ := memo_pass tag ops htag G' i hi' (by rw [hA]; exact hops) k ks hk cache hI hP
        exact ⟨(t, c'), m1, m2, m3⟩)
      (keys r) (keys_nodup r) (s, []) A rfl G hi (by intro j tg p hm; cases hm) hroom
    refine ⟨w.1, calls, ?_, w2, w3⟩
    rw [each_list r h1 h2, w1]
    rfl
  cases o with
  | call o =>
    obtain ⟨t, calls, t1, t2, t3⟩ := loop i (fun _ l => onCall l o) (fun s : Desk.State => Room s.prog.look.styles) (callBody i o) id A.look.looks.fonts
      (fun _ _ _ => True)
      (by
        intro k ks s A' hk hA G' hi' _ hP
        obtain ⟨t, m1, m2⟩ := call_pass G' i hi' k hP.1 o (by rw [hA]; exact ho)
        exact ⟨t, m1, m2, trivial⟩)
      (keys r) (keys_nodup r) s A rfl G hi trivial hroom
    exact ⟨t, calls, by rw [onRange, each_list r h1 h2, t1], t2, t3⟩
  | font o =>
    obtain ⟨t, calls, t1, t2, t3⟩ := loop i (fun _ => fontCall A.look.looks.fonts o) (fun s : Desk.State => Room s.prog.look.styles) (fontBody i o) id
      A.look.looks.fonts (fun _ _ _ => True)
      (by
        intro k ks s A' hk hA G' hi' _ hP
        obtain ⟨t, m1, m2⟩ := font_pass G' i hi' k hP.1 o ho
        rw [hA] at m2
        exact ⟨t, m1, m2, trivial⟩)
      (keys r) (keys_nodup r) s A rfl G hi trivial hroom
    exact ⟨t, calls, by rw [onRange, each_list r h1 h2, t1], t2, t3⟩
  | color n => exact memo (fun _ _ x => x.flags) (colorOps n) (fun _ _ _ _ => rfl) (color_ops ho) hroom
  | box b => exact memo (boxTag r) (boxOps r b) (box_tag r b) (box_ops ho r) hroom

end Xls.Area
