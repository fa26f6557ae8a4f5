import Verif.Page.Read
import Verif.Page.Model
import Verif.Sheet.Props
/-
What the data of a sheet are after any calls.
-/
namespace Xls.Page
open Xls.Biff Xls.Sheet Xls.Cells

variable {α : Type}

theorem applyAll_snoc (D : Data α Note.Note) (l : List Act) (a : Act) : applyAll D (l ++ [a]) = apply (applyAll D l) a := by
  simp [applyAll]

theorem latest_snoc {β γ : Type} (f : β → Option γ) (l : List β) (a : β) : latest f (l ++ [a]) = (f a).or (latest f l) := by
  induction l with
  | nil => simp [latest]
  | cons b r ih => rw [List.cons_append, latest, ih, latest, Option.or_assoc]

theorem latest_mem {β γ : Type} {f : β → Option γ} {l : List β} {x : γ} (h : latest f l = some x) : ∃ a ∈ l, f a = some x := by
  induction l with
  | nil => cases h
  | cons b r ih =>
    rw [latest] at h
    cases hr : latest f r with
    | some y =>
      rw [hr, Option.some_or] at h
      obtain ⟨a, ha, he⟩ := ih (hr.trans h)
      exact ⟨a, by simp [ha], he⟩
    | none =>
      rw [hr, Option.none_or] at h
      exact ⟨b, by simp, h⟩

theorem authorWarning_eq : Note.authorWarning = ascii "Author Must Be 1 to 54chars long".toList := by decide +kernel

theorem textWarning_eq : Note.textWarning = ascii "Text Must Be 1 to 2048chars long".toList := by decide +kernel

theorem signed_length (a : List UInt16) : 1 ≤ (signed a).length ∧ (signed a).length ≤ 54 := by
  unfold signed
  split
  · assumption
  · rw [← authorWarning_eq]; decide

theorem worded_length (t : List UInt16) : 1 ≤ (worded t).length ∧ (worded t).length ≤ 2048 := by
  unfold worded
  split
  · assumption
  · rw [← textWarning_eq]; decide

/-- Making a comment is making it of the author and text shown. -/
theorem mk_said (r c : UInt32) (a t : List UInt16) : Note.mk r c a t = Note.mk r c (signed a) (worded t) := by
  have e1 : (if a.length = 0 ∨ a.length > 54 then Note.authorWarning else a) = signed a := by
    unfold signed
    by_cases h : a.length = 0 ∨ a.length > 54
    · rw [if_pos h, if_neg (by omega), authorWarning_eq]
    · rw [if_neg h, if_pos (by omega)]
  have e2 : (if t.length = 0 ∨ t.length > 2048 then Note.textWarning else t) = worded t := by
    unfold worded
    by_cases h : t.length = 0 ∨ t.length > 2048
    · rw [if_pos h, if_neg (by omega), textWarning_eq]
    · rw [if_neg h, if_pos (by omega)]
  have f1 := signed_length a
  have f2 := worded_length t
  unfold Note.mk
  simp only [e1, e2, show ¬ ((signed a).length = 0 ∨ (signed a).length > 54) by omega, show ¬ ((worded t).length = 0 ∨ (worded t).length > 2048) by omega, if_false]

theorem place_notes (n : Note.Note) (l : List Note.Note) (h : Ordered noteKey l) :
    Ordered noteKey (place n l) ∧ ∀ y, y ∈ place n l ↔ y = n ∨ (y ∈ l ∧ noteKey y ≠ noteKey n) := by
  have := set_replace noteKey n l h
  unfold place
  simp only at this ⊢
  cases hf : setFind noteKey (noteKey n) l with
  | some _ => rw [hf] at this; exact this
  | none => rw [hf] at this; exact this

theorem edit_key (n : Note.Note) (e : Edit) : noteKey (edit n e) = noteKey n ∧ (edit n e).author = n.author ∧ (edit n e).text = n.text ∧
    (edit n e).row = n.row ∧ (edit n e).col = n.col := by
  cases e <;> exact ⟨rfl, rfl, rfl, rfl, rfl⟩

/-- The parts of a sheet that a call cannot change are not changed, and each part is what the calls say. -/
structure After (acts : List Act) (D : Data α Note.Note) : Prop where
  rowHeight : D.defRowHeight = ((latest Act.rowHeight acts).getD (15, false)).1
  colWidth : D.defColWidth = (latest Act.colWidth acts).getD 10
  colOrder : Ordered ColInfo.key D.cols
  cols : ∀ y, y ∈ D.cols ↔ y.last = y.first ∧ y.flags = 0 ∧ latest (Act.column y.first) acts = some (y.width, y.xf)
  merged : D.merged = acts.filterMap Act.merge
  links : D.links = acts.filterMap fun a => a.link.map fun l => { l with row := l.row % 65536, col := l.col % 65536 }
  dvals : (D.dvals.map fun v => (⟨v.options, v.promptTitle, v.errorTitle, v.promptText, v.errorText, condTokens v.cond1, condTokens v.cond2, [v.rect]⟩ : DVRead)) =
    acts.filterMap Act.validation
  dvalsMem : ∀ v ∈ D.dvals, .call (.validate v) ∈ acts
  split : (D.rowSplit, D.colSplit) = (latest Act.freeze acts).getD (0, 0)
  noteOrder : Ordered noteKey D.notes
  notes : ∀ y ∈ D.notes, latest (Act.remark y.row.toNat y.col.toNat) acts = some (y.author, y.text)
  noteAll : ∀ r c a t, latest (Act.remark r c) acts = some (a, t) → ∃ y ∈ D.notes, y.row.toNat = r ∧ y.col.toNat = c ∧ y.author = a ∧ y.text = t

theorem after_new (D : Data α Note.Note) : After [] (new D) where
  rowHeight := rfl
  colWidth := rfl
  colOrder := by simp [new, Data.fresh, Ordered]
  cols := by simp [new, Data.fresh, latest]
  merged := rfl
  links := rfl
  dvals := rfl
  dvalsMem := by simp [new, Data.fresh]
  split := rfl
  noteOrder := by simp [new, Ordered]
  notes := by simp [new]
  noteAll := by simp [latest]

theorem latest_other {β γ : Type} {f : β → Option γ} {l : List β} {a : β} (h : f a = none) : latest f (l ++ [a]) = latest f l := by
  rw [latest_snoc, h, Option.none_or]

theorem filterMap_other {β γ : Type} {f : β → Option γ} {l : List β} {a : β} (h : f a = none) : (l ++ [a]).filterMap f = l.filterMap f := by
  simp [h]

/-- What each call adds. -/
theorem After.step {acts : List Act} {D : Data α Note.Note} (h : After acts D) (a : Act) : After (acts ++ [a]) (apply D a) := by
  have hmem : ∀ v ∈ D.dvals, .call (.validate v) ∈ acts ++ [a] := fun v hv => by simp [h.dvalsMem v hv]
  cases a with
  | call c =>
    cases c with
    | colwidth k w x =>
      obtain ⟨h1, h2⟩ := colwidth_cols D k w x h.colOrder
      have e : ∀ {β : Type} (f : Data α Note.Note → β), (∀ D cols, f { D with cols := cols } = f D) → f (D.colwidth k w x) = f D := by
        intro β f hf
        unfold Data.colwidth; simp only; split <;> exact hf _ _
      refine ⟨?_, ?_, h1, ?_, ?_, ?_, ?_, ?_, ?_, ?_, ?_, ?_⟩
      · rw [latest_other rfl, ← h.rowHeight]; exact e (·.defRowHeight) fun _ _ => rfl
      · rw [latest_other rfl, ← h.colWidth]; exact e (·.defColWidth) fun _ _ => rfl
      · intro y
        refine (h2 y).trans ?_
        rw [h.cols, latest_snoc]
        simp only [Act.column]
        by_cases hk : k.toNat = y.first
        · rw [if_pos hk, Option.some_or]
          obtain ⟨f, la, wd, xf, fl⟩ := y
          simp only at hk
          subst hk
          simp only [ColInfo.mk.injEq, true_and, ne_eq, not_true_eq_false, and_false, or_false, Option.some.injEq, Prod.mk.injEq]
          constructor
          · rintro ⟨rfl, rfl, rfl, rfl⟩; simp
          · rintro ⟨rfl, rfl, rfl, rfl⟩; simp
        · rw [if_neg hk, Option.none_or]
          constructor
          · rintro (rfl | ⟨h, _⟩)
            · simp at hk
            · exact h
          · intro h
            exact Or.inr ⟨h, fun e => hk e.symm⟩
      · rw [filterMap_other rfl, ← h.merged]; exact e (·.merged) fun _ _ => rfl
      · rw [filterMap_other rfl, ← h.links]; exact e (·.links) fun _ _ => rfl
      · rw [filterMap_other rfl, ← h.dvals]; rw [show (apply D (.call (.colwidth k w x))).dvals = D.dvals from e (·.dvals) fun _ _ => rfl]
      · rw [show (apply D (.call (.colwidth k w x))).dvals = D.dvals from e (·.dvals) fun _ _ => rfl]; exact hmem
      · rw [latest_other rfl, ← h.split]; exact e (fun D => (D.rowSplit, D.colSplit)) fun _ _ => rfl
      · rw [show (apply D (.call (.colwidth k w x))).notes = D.notes from e (·.notes) fun _ _ => rfl]; exact h.noteOrder
      · rw [show (apply D (.call (.colwidth k w x))).notes = D.notes from e (·.notes) fun _ _ => rfl]
        intro y hy; rw [latest_other rfl]; exact h.notes y hy
      · rw [show (apply D (.call (.colwidth k w x))).notes = D.notes from e (·.notes) fun _ _ => rfl]
        intro r c a t; rw [latest_other rfl]; exact h.noteAll r c a t
    | rowheight k w x =>
      have e' : ∃ hs, apply D (.call (.rowheight k w x)) = { D with heights := hs } := by
        show ∃ hs, D.rowheight k w x = _
        unfold Data.rowheight; simp only; split <;> exact ⟨_, rfl⟩
      obtain ⟨hs, e'⟩ := e'
      rw [e']
      exact ⟨by rw [latest_other rfl]; exact h.rowHeight, by rw [latest_other rfl]; exact h.colWidth, h.colOrder,
        fun y => by rw [latest_other rfl]; exact h.cols y, by rw [filterMap_other rfl]; exact h.merged, by rw [filterMap_other rfl]; exact h.links,
        by rw [filterMap_other rfl]; exact h.dvals, hmem, by rw [latest_other rfl]; exact h.split, h.noteOrder,
        fun y hy => by rw [latest_other rfl]; exact h.notes y hy, fun r c a t => by rw [latest_other rfl]; exact h.noteAll r c a t⟩
    | merge r1 c1 r2 c2 =>
      exact ⟨by rw [latest_other rfl]; exact h.rowHeight, by rw [latest_other rfl]; exact h.colWidth, h.colOrder,
        fun y => by rw [latest_other rfl]; exact h.cols y, by rw [List.filterMap_append, ← h.merged]; rfl, by rw [filterMap_other rfl]; exact h.links,
        by rw [filterMap_other rfl]; exact h.dvals, hmem, by rw [latest_other rfl]; exact h.split, h.noteOrder,
        fun y hy => by rw [latest_other rfl]; exact h.notes y hy, fun r c a t => by rw [latest_other rfl]; exact h.noteAll r c a t⟩
    | hyperLink r c u m =>
      exact ⟨by rw [latest_other rfl]; exact h.rowHeight, by rw [latest_other rfl]; exact h.colWidth, h.colOrder,
        fun y => by rw [latest_other rfl]; exact h.cols y, by rw [filterMap_other rfl]; exact h.merged, by rw [List.filterMap_append, ← h.links]; rfl,
        by rw [filterMap_other rfl]; exact h.dvals, hmem, by rw [latest_other rfl]; exact h.split, h.noteOrder,
        fun y hy => by rw [latest_other rfl]; exact h.notes y hy, fun r c a t => by rw [latest_other rfl]; exact h.noteAll r c a t⟩
    | validate v =>
      refine ⟨by rw [latest_other rfl]; exact h.rowHeight, by rw [latest_other rfl]; exact h.colWidth, h.colOrder,
        fun y => by rw [latest_other rfl]; exact h.cols y, by rw [filterMap_other rfl]; exact h.merged, by rw [filterMap_other rfl]; exact h.links,
        ?_, ?_, by rw [latest_other rfl]; exact h.split, h.noteOrder,
        fun y hy => by rw [latest_other rfl]; exact h.notes y hy, fun r c a t => by rw [latest_other rfl]; exact h.noteAll r c a t⟩
      · rw [List.filterMap_append, ← h.dvals]
        show List.map _ (D.dvals ++ [v]) = _
        rw [List.map_append]; rfl
      · show ∀ u ∈ D.dvals ++ [v], _
        intro u hu
        rcases List.mem_append.mp hu with hu | hu
        · exact hmem u hu
        · simp only [List.mem_singleton] at hu; subst hu; simp
    | defRowHeight w =>
      exact ⟨by rw [latest_snoc]; rfl, by rw [latest_other rfl]; exact h.colWidth, h.colOrder,
        fun y => by rw [latest_other rfl]; exact h.cols y, by rw [filterMap_other rfl]; exact h.merged, by rw [filterMap_other rfl]; exact h.links,
        by rw [filterMap_other rfl]; exact h.dvals, hmem, by rw [latest_other rfl]; exact h.split, h.noteOrder,
        fun y hy => by rw [latest_other rfl]; exact h.notes y hy, fun r c a t => by rw [latest_other rfl]; exact h.noteAll r c a t⟩
    | defColWidth w =>
      exact ⟨by rw [latest_other rfl]; exact h.rowHeight, by rw [latest_snoc]; rfl, h.colOrder,
        fun y => by rw [latest_other rfl]; exact h.cols y, by rw [filterMap_other rfl]; exact h.merged, by rw [filterMap_other rfl]; exact h.links,
        by rw [filterMap_other rfl]; exact h.dvals, hmem, by rw [latest_other rfl]; exact h.split, h.noteOrder,
        fun y hy => by rw [latest_other rfl]; exact h.notes y hy, fun r c a t => by rw [latest_other rfl]; exact h.noteAll r c a t⟩
  | defRow w b =>
    exact ⟨by rw [latest_snoc]; rfl, by rw [latest_other rfl]; exact h.colWidth, h.colOrder,
      fun y => by rw [latest_other rfl]; exact h.cols y, by rw [filterMap_other rfl]; exact h.merged, by rw [filterMap_other rfl]; exact h.links,
      by rw [filterMap_other rfl]; exact h.dvals, hmem, by rw [latest_other rfl]; exact h.split, h.noteOrder,
      fun y hy => by rw [latest_other rfl]; exact h.notes y hy, fun r c a t => by rw [latest_other rfl]; exact h.noteAll r c a t⟩
  | split r c =>
    exact ⟨by rw [latest_other rfl]; exact h.rowHeight, by rw [latest_other rfl]; exact h.colWidth, h.colOrder,
      fun y => by rw [latest_other rfl]; exact h.cols y, by rw [filterMap_other rfl]; exact h.merged, by rw [filterMap_other rfl]; exact h.links,
      by rw [filterMap_other rfl]; exact h.dvals, hmem, by rw [latest_snoc]; rfl, h.noteOrder,
      fun y hy => by rw [latest_other rfl]; exact h.notes y hy, fun r c a t => by rw [latest_other rfl]; exact h.noteAll r c a t⟩
  | comment r c a t =>
    obtain ⟨n, hmk, hr, hc, ha, ht, -⟩ := Note.c47_call r c (signed a) (worded t)
    rw [← mk_said] at hmk
    replace ha := ha (signed_length a)
    replace ht := ht (worded_length t)
    have e' : apply D (.comment r c a t) = { D with notes := place n D.notes } := by simp only [apply, hmk]
    obtain ⟨p1, p2⟩ := place_notes n D.notes h.noteOrder
    rw [e']
    refine ⟨by rw [latest_other rfl]; exact h.rowHeight, by rw [latest_other rfl]; exact h.colWidth, h.colOrder,
      fun y => by rw [latest_other rfl]; exact h.cols y, by rw [filterMap_other rfl]; exact h.merged, by rw [filterMap_other rfl]; exact h.links,
      by rw [filterMap_other rfl]; exact h.dvals, hmem, by rw [latest_other rfl]; exact h.split, p1, ?_, ?_⟩
    · intro y hy
      rw [latest_snoc]
      simp only [Act.remark]
      rcases (p2 y).mp hy with rfl | ⟨hy, hk⟩
      · rw [if_pos ⟨by rw [hr], by rw [hc]⟩, Option.some_or, ha, ht]
      · rw [if_neg (fun e => hk (by simp only [noteKey, hr, hc, e.1, e.2])), Option.none_or]
        exact h.notes y hy
    · intro r' c' a' t' hl
      rw [latest_snoc] at hl
      simp only [Act.remark] at hl
      by_cases hk : r.toNat = r' ∧ c.toNat = c'
      · rw [if_pos hk, Option.some_or] at hl
        simp only [Option.some.injEq, Prod.mk.injEq] at hl
        exact ⟨n, (p2 n).mpr (.inl rfl), by rw [hr, hk.1], by rw [hc, hk.2], by rw [ha, hl.1], by rw [ht, hl.2]⟩
      · rw [if_neg hk, Option.none_or] at hl
        obtain ⟨y, hy, y1, y2, y3, y4⟩ := h.noteAll r' c' a' t' hl
        refine ⟨y, (p2 y).mpr (.inr ⟨hy, fun e => hk ?_⟩), y1, y2, y3, y4⟩
        simp only [noteKey, Prod.mk.injEq, hr, hc] at e
        exact ⟨by rw [← e.1, y1], by rw [← e.2, y2]⟩
  | box r c e =>
    have hk : ∀ n : Note.Note, noteKey (if noteKey n = (r.toNat, c.toNat) then edit n e else n) = noteKey n := fun n => by
      split
      · exact (edit_key n e).1
      · rfl
    refine ⟨by rw [latest_other rfl]; exact h.rowHeight, by rw [latest_other rfl]; exact h.colWidth, h.colOrder,
      fun y => by rw [latest_other rfl]; exact h.cols y, by rw [filterMap_other rfl]; exact h.merged, by rw [filterMap_other rfl]; exact h.links,
      by rw [filterMap_other rfl]; exact h.dvals, hmem, by rw [latest_other rfl]; exact h.split, ?_, ?_, ?_⟩
    · show Ordered noteKey (D.notes.map _)
      unfold Ordered
      rw [List.pairwise_map]
      refine h.noteOrder.imp fun {a b} hab => ?_
      rw [hk, hk]
      exact hab
    · intro y hy
      rw [latest_other rfl]
      obtain ⟨n, hn, rfl⟩ := List.mem_map.mp hy
      split
      · obtain ⟨-, e1, e2, e3, e4⟩ := edit_key n e
        rw [e1, e2, e3, e4]
        exact h.notes n hn
      · exact h.notes n hn
    · intro r' c' a' t' hl
      rw [latest_other rfl] at hl
      obtain ⟨y, hy, y1, y2, y3, y4⟩ := h.noteAll r' c' a' t' hl
      refine ⟨_, List.mem_map.mpr ⟨y, hy, rfl⟩, ?_⟩
      split
      · obtain ⟨-, e1, e2, e3, e4⟩ := edit_key y e
        rw [e1, e2, e3, e4]
        exact ⟨y1, y2, y3, y4⟩
      · exact ⟨y1, y2, y3, y4⟩

theorem after_all (D : Data α Note.Note) (acts : List Act) : After acts (applyAll (new D) acts) := by
  induction acts using snoc_induction with
  | h0 => exact after_new D
  | h1 l a ih =>
    rw [applyAll_snoc]
    exact ih.step a

/-! ### Boxes -/

theorem countNL_eq (t : List UInt16) : ∀ last, Note.countNL t last = t.count 10 + (t.zip t.tail).count (10, 10) + if last = true ∧ t.head? = some 10 then 1 else 0 := by
  induction t with
  | nil => intro last; simp [Note.countNL]
  | cons c r ih =>
    intro last
    rw [Note.countNL]
    by_cases hc : c = 10
    · subst hc
      rw [if_pos rfl, ih true]
      simp only [List.count_cons_self, List.tail_cons, List.head?_cons, and_true]
      cases r with
      | nil => cases last <;> simp
      | cons d r' =>
        simp only [List.zip_cons_cons, List.tail_cons, List.head?_cons]
        by_cases hd : d = 10
        · subst hd
          simp only [List.count_cons_self]
          cases last <;> simp <;> omega
        · rw [List.count_cons_of_ne (a := ((10 : UInt16), (10 : UInt16))) (b := (10, d)) (by simp [hd])]
          cases last <;> simp [hd] <;> omega
    · rw [if_neg hc, ih false, List.count_cons_of_ne hc]
      have h0 : ¬ (last = true ∧ (c :: r).head? = some 10) := by simp [hc]
      rw [if_neg h0]
      cases r with
      | nil => simp
      | cons d r' =>
        simp only [List.tail_cons, List.zip_cons_cons]
        rw [List.count_cons_of_ne (a := ((10 : UInt16), (10 : UInt16))) (b := (c, d)) (by simp [hc])]
        simp

theorem shrink_eq (m : Nat) : ∀ (f c l : Nat), m < f → l < 21 * 2 ^ m → c * 2 ^ m < 65536 →
    ∃ k, k ≤ m ∧ Note.shrink f c l = some (c * 2 ^ k, l / 2 ^ k) ∧ l / 2 ^ k ≤ 20 ∧ ∀ i < k, 20 < l / 2 ^ i := by
  induction m with
  | zero =>
    intro f c l hf hl hc
    obtain ⟨g, rfl⟩ : ∃ g, f = g + 1 := ⟨f - 1, by omega⟩
    refine ⟨0, Nat.le_refl _, ?_, by simp; omega, by omega⟩
    rw [Note.shrink, if_neg (by omega)]
    simp
  | succ m ih =>
    intro f c l hf hl hc
    obtain ⟨g, rfl⟩ : ∃ g, f = g + 1 := ⟨f - 1, by omega⟩
    by_cases h : l > 20
    · have h1 : 1 ≤ 2 ^ m := Nat.one_le_two_pow
      rw [Nat.pow_succ] at hl hc
      have h2 : c * 2 * 2 ^ m = c * (2 ^ m * 2) := by rw [Nat.mul_assoc, Nat.mul_comm 2]
      have h3 : c * 2 < 65536 := by
        refine Nat.lt_of_le_of_lt ?_ (h2 ▸ hc)
        exact Nat.le_mul_of_pos_right _ (by omega)
      obtain ⟨k, k1, k2, k3, k4⟩ := ih g (c * 2 % 65536) (l / 2) (by omega) (by omega) (by rw [Nat.mod_eq_of_lt h3, h2]; exact hc)
      have hd : ∀ i, l / 2 / 2 ^ i = l / 2 ^ (i + 1) := fun i => by rw [Nat.div_div_eq_div_mul, Nat.pow_succ, Nat.mul_comm 2]
      refine ⟨k + 1, by omega, ?_, by rw [← hd]; exact k3, ?_⟩
      · rw [Note.shrink, if_pos h, k2, Nat.mod_eq_of_lt h3, hd, Nat.mul_assoc, Nat.pow_succ, Nat.mul_comm 2]
      · intro i hi
        cases i with
        | zero => simpa using h
        | succ i => rw [← hd]; exact k4 i (by omega)
    · refine ⟨0, by omega, ?_, by simp; omega, by omega⟩
      rw [Note.shrink, if_neg h]
      simp

theorem halvings_eq {n k : Nat} (hk : k < 17) (h1 : n / 2 ^ k ≤ 20) (h2 : ∀ i < k, 20 < n / 2 ^ i) : halvings n = k := by
  have : (List.range 17).find? (fun k => decide (n / 2 ^ k ≤ 20)) = some k := by
    rw [List.find?_range_eq_some]
    refine ⟨by simpa using h1, by simpa using hk, fun j hj => ?_⟩
    have := h2 j hj
    simp
    omega
  unfold halvings
  rw [this]
  rfl

theorem need_lt {a t : List UInt16} (ha : a.length ≤ 54) (ht : t.length ≤ 2048) : need a t < 65536 := by
  have h1 : t.count 10 ≤ t.length := List.count_le_length
  have h2 : (t.zip t.tail).count (10, 10) ≤ (t.zip t.tail).length := List.count_le_length
  rw [List.length_zip] at h2
  unfold need breaks
  omega

/-- A new comment lies beside its cell and has the colour of tips. -/
theorem mk_box {r c : UInt32} {a t : List UInt16} (h1 : 1 ≤ a.length ∧ a.length ≤ 54) (h2 : 1 ≤ t.length ∧ t.length ≤ 2048) {n : Note.Note} (hn : Note.mk r c a t = some n) :
    n.fill.toNat = 0x08000050 ∧ n.anchor.place = beside r.toNat c.toNat a t := by
  obtain ⟨f1, f2⟩ := h1
  obtain ⟨f3, f4⟩ := h2
  have hc := need_lt f2 f4
  unfold need breaks at hc
  unfold Note.mk at hn
  simp only [show ¬ (a.length = 0 ∨ a.length > 54) by omega, show ¬ (t.length = 0 ∨ t.length > 2048) by omega, if_false] at hn
  obtain ⟨p, hp, rfl⟩ := Option.map_eq_some_iff.mp hn
  rw [countNL_eq] at hp
  simp only [Bool.false_eq_true, false_and, if_false, Nat.add_zero] at hp
  have e : (1 + ((a.length + t.length + 2) / 11 + (t.count 10 + (t.zip t.tail).count (10, 10)) + 1) / 2 + 1) % 65536 = need a t := by
    rw [Nat.mod_eq_of_lt (by omega)]
    unfold need breaks
    omega
  rw [e] at hp
  obtain ⟨k, k1, k2, k3, k4⟩ := shrink_eq 12 17 2 (need a t) (by decide) (Nat.lt_of_lt_of_le (need_lt f2 f4) (by decide)) (by decide)
  rw [k2] at hp
  obtain rfl := Option.some.inj hp
  have hk := halvings_eq (by omega) k3 k4
  have hm : ∀ x, UInt16.ofNat (x % 65536) = UInt16.ofNat x := Note.ofNat_mod16
  refine ⟨rfl, ?_⟩
  unfold beside Note.Anchor.place
  simp only [hk, hm]
  have h1 : UInt16.ofNat (c.toNat % 65536 + 1) = UInt16.ofNat (c.toNat + 1) := by rw [← hm, ← hm (c.toNat + 1)]; congr 1; omega
  have h2 : UInt16.ofNat (c.toNat % 65536 + 1 + 2 * 2 ^ k) = UInt16.ofNat (c.toNat + 1 + 2 * 2 ^ k) := by
    rw [← hm, ← hm (c.toNat + 1 + 2 * 2 ^ k)]; congr 1; omega
  have h3 : UInt16.ofNat (r.toNat % 65536 + need a t / 2 ^ k) = UInt16.ofNat (r.toNat + need a t / 2 ^ k) := by
    rw [← hm, ← hm (r.toNat + need a t / 2 ^ k)]; congr 1; omega
  rw [h1, h2, h3]
  rfl

theorem fill_nat (n : Note.Note) (r g b : UInt8) : (n.setFill r g b).fill.toNat = r.toNat + 256 * g.toNat + 65536 * b.toNat := by
  have hr := r.toNat_lt
  have hg := g.toNat_lt
  have hb := b.toNat_lt
  simp only [Note.Note.setFill, UInt32.toNat_or, UInt32.toNat_shiftLeft, UInt8.toNat_toUInt32]
  simp only [show (16 : UInt32).toNat % 32 = 16 from rfl, show (8 : UInt32).toNat % 32 = 8 from rfl, Nat.shiftLeft_eq]
  rw [Nat.mod_eq_of_lt (by omega), Nat.mod_eq_of_lt (by omega)]
  have e1 : b.toNat * 2 ^ 16 ||| g.toNat * 2 ^ 8 = 2 ^ 16 * b.toNat + g.toNat * 2 ^ 8 := by
    rw [Nat.mul_comm b.toNat, ← Nat.two_pow_add_eq_or_of_lt (by omega)]
  have e2 : 2 ^ 16 * b.toNat + g.toNat * 2 ^ 8 = 2 ^ 8 * (256 * b.toNat + g.toNat) := by omega
  rw [e1, e2, ← Nat.two_pow_add_eq_or_of_lt (by omega)]
  omega

/-- The boxes of a sheet's comments are what the calls say. -/
def AfterBoxes (acts : List Act) (D : Data α Note.Note) : Prop :=
  ∀ y ∈ D.notes, latest (Act.tint y.row.toNat y.col.toNat) acts = some y.fill.toNat ∧ latest (Act.lie y.row.toNat y.col.toNat) acts = some y.anchor.place

theorem place_anchorOf (p : Spec.Place) : (anchorOf p).place = p := by
  simp [anchorOf, Note.Anchor.place]

theorem AfterBoxes.step {acts : List Act} {D : Data α Note.Note} (h : AfterBoxes acts D) (ho : Ordered noteKey D.notes) (a : Act) :
    AfterBoxes (acts ++ [a]) (apply D a) := by
  have same : (∀ r c, a.tint r c = none) → (∀ r c, a.lie r c = none) → (apply D a).notes = D.notes → AfterBoxes (acts ++ [a]) (apply D a) := by
    intro h1 h2 h3 y hy
    rw [h3] at hy
    rw [latest_other (h1 _ _), latest_other (h2 _ _)]
    exact h y hy
  cases a with
  | call c =>
    refine same (fun _ _ => rfl) (fun _ _ => rfl) ?_
    cases c with
    | colwidth k w x => show (D.colwidth k w x).notes = _; unfold Data.colwidth; simp only; split <;> rfl
    | rowheight k w x => show (D.rowheight k w x).notes = _; unfold Data.rowheight; simp only; split <;> rfl
    | _ => rfl
  | defRow w b => exact same (fun _ _ => rfl) (fun _ _ => rfl) rfl
  | split r c => exact same (fun _ _ => rfl) (fun _ _ => rfl) rfl
  | comment r c a t =>
    obtain ⟨n, hmk, hr, hc, -⟩ := Note.c47_call r c a t
    have e' : apply D (.comment r c a t) = { D with notes := place n D.notes } := by simp only [apply, hmk]
    obtain ⟨p1, p2⟩ := place_notes n D.notes ho
    obtain ⟨b1, b2⟩ := mk_box (signed_length a) (worded_length t) ((mk_said r c a t).symm.trans hmk)
    rw [e']
    intro y hy
    rw [latest_snoc, latest_snoc]
    simp only [Act.tint, Act.lie]
    rcases (p2 y).mp hy with rfl | ⟨hy, hk⟩
    · rw [if_pos ⟨by rw [hr], by rw [hc]⟩, if_pos ⟨by rw [hr], by rw [hc]⟩, Option.some_or, Option.some_or, b1, b2, hr, hc]
      exact ⟨rfl, rfl⟩
    · have : ¬ (r.toNat = y.row.toNat ∧ c.toNat = y.col.toNat) := fun e => hk (by simp only [noteKey, hr, hc, e.1, e.2])
      rw [if_neg this, if_neg this, Option.none_or, Option.none_or]
      exact h y hy
  | box r c e =>
    intro y hy
    obtain ⟨n, hm, rfl⟩ := List.mem_map.mp hy
    obtain ⟨-, -, -, e3, e4⟩ := edit_key n e
    by_cases hk : noteKey n = (r.toNat, c.toNat)
    · rw [if_pos hk, e3, e4, latest_snoc, latest_snoc]
      have hk' : r.toNat = n.row.toNat ∧ c.toNat = n.col.toNat := by
        simp only [noteKey, Prod.mk.injEq] at hk
        exact ⟨hk.1.symm, hk.2.symm⟩
      obtain ⟨o1, o2⟩ := h n hm
      cases e with
      | fill red green blue =>
        simp only [Act.tint, Act.lie, if_pos hk', Option.some_or, Option.none_or, edit, fill_nat]
        exact ⟨trivial, o2⟩
      | place p =>
        simp only [Act.tint, Act.lie, if_pos hk', Option.some_or, Option.none_or, edit, Note.Note.setRect, place_anchorOf]
        exact ⟨o1, trivial⟩
    · rw [if_neg hk, latest_snoc, latest_snoc]
      have hk' : ¬ (r.toNat = n.row.toNat ∧ c.toNat = n.col.toNat) := fun h => hk (by simp only [noteKey, h.1, h.2])
      cases e <;> simp only [Act.tint, Act.lie, if_neg hk', Option.none_or] <;> exact h n hm

theorem boxes_all (D : Data α Note.Note) (acts : List Act) : AfterBoxes acts (applyAll (new D) acts) := by
  induction acts using snoc_induction with
  | h0 => intro y hy; cases hy
  | h1 l a ih =>
    rw [applyAll_snoc]
    exact ih.step (after_all D l).noteOrder a

end Xls.Page
