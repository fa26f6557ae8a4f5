import Verif.Range.Loop
import Verif.Cells.Props
import Verif.Styles.Read
/-
The sheet with its styles does what the program asks for, one cell at a time.
-/
namespace Xls.Range
open Xls.Cells (Key Cell Ordered addLoop addLoop_spec findCell_mem ordered_unique)
open Xls.Styles (fv xv Looks cellOp cellFont)
open Xls.Styles.Spec (FontH Look plain upd onCall onFontCall)
open Xls.Font (FOp)
open Spec

variable {κ : Type}

structure Rel (s : State κ) (A : Styles.Spec.State) (G : Spec.State κ) : Prop where
  good : Styles.Good s.st A
  fonts : A.fonts = G.fonts
  formats : A.formats = G.formats
  ord : Ordered Cell.key s.sheet.cells
  ids : ∀ x ∈ s.sheet.cells, ∀ y ∈ s.sheet.cells, x.id = y.id → x = y
  live : ∀ x ∈ s.sheet.cells, ∃ l, A.cells x.id = some l ∧ G.grid x.key = some (x.val, l)
  empty : ∀ k, (∀ x ∈ s.sheet.cells, x.key ≠ k) → G.grid k = none

theorem Rel.lt {s : State κ} {A G} (R : Rel s A G) {x : Cell (Option κ)} (hx : x ∈ s.sheet.cells) : x.id < s.st.cells.length := by
  obtain ⟨l, h, -⟩ := R.live x hx
  obtain ⟨q, e, h1, -⟩ := R.good.cell h
  exact (List.getElem?_eq_some_iff.mp h1).1

theorem Rel.find {s : State κ} {A G} (R : Rel s A G) {k : Key} {v : Option κ} {l : Look} (h : G.grid k = some (v, l)) :
    ∃ x, s.sheet.findCell k.1 k.2 = some x ∧ x ∈ s.sheet.cells ∧ x.key = k ∧ x.val = v ∧ A.cells x.id = some l := by
  by_cases hk : ∃ x ∈ s.sheet.cells, x.key = k
  · obtain ⟨x, hx, rfl⟩ := hk
    obtain ⟨l', h1, h2⟩ := R.live x hx
    rw [h] at h2
    cases h2
    exact ⟨x, (findCell_mem R.ord _ _ _).mpr ⟨hx, rfl, rfl⟩, hx, rfl, rfl, h1⟩
  · rw [R.empty k (fun x hx e => hk ⟨x, hx, e⟩)] at h
    simp at h

theorem Rel.missing {s : State κ} {A G} (R : Rel s A G) {k : Key} (h : G.grid k = none) :
    s.sheet.findCell k.1 k.2 = none ∧ ∀ x ∈ s.sheet.cells, x.key ≠ k := by
  have hn : ∀ x ∈ s.sheet.cells, x.key ≠ k := by
    intro x hx e
    obtain ⟨l', h1, h2⟩ := R.live x hx
    rw [e, h] at h2
    simp at h2
  refine ⟨?_, hn⟩
  cases hf : s.sheet.findCell k.1 k.2 with
  | none => rfl
  | some x =>
    obtain ⟨h1, h2, h3⟩ := (findCell_mem R.ord _ _ _).mp hf
    exact absurd (Prod.ext h2 h3) (hn x h1)

/-- Something happens to the format of one cell. -/
theorem Rel.at {s : State κ} {A G} (R : Rel s A G) {x : Cell (Option κ)} (hx : x ∈ s.sheet.cells) {st : Styles.State} {l : Look}
    (hg : Styles.Good st { A with cells := upd A.cells x.id (some l) }) :
    Rel { s with st := st } { A with cells := upd A.cells x.id (some l) } { G with grid := Spec.set G.grid x.key (some (x.val, l)) } := by
  refine ⟨hg, R.fonts, R.formats, R.ord, R.ids, ?_, ?_⟩
  · intro y hy
    by_cases e : y = x
    · subst e
      exact ⟨l, by simp [upd], by simp [Spec.set]⟩
    · obtain ⟨l', h1, h2⟩ := R.live y hy
      have e1 : y.id ≠ x.id := fun h => e (R.ids y hy x hx h)
      have e2 : y.key ≠ x.key := fun h => e (ordered_unique R.ord hy hx h)
      exact ⟨l', by simp [upd, e1, h1], by simp [Spec.set, e2, h2]⟩
  · intro k hk
    have : k ≠ x.key := fun e => hk x hx e.symm
    simp [Spec.set, this, R.empty k hk]

/-- A new cell. -/
theorem Rel.put {s : State κ} {A G} (R : Rel s A G) (row col : Nat) (v : Option κ) (q : Option Nat) (l : Look)
    (hg : Styles.Good (Styles.newCell s.st q) { A with cells := upd A.cells s.st.cells.length (some l) }) :
    ∃ t x A', put s row col v q = some (t, x) ∧ Rel t A' { G with grid := Spec.set G.grid (row, col) (some (v, l)) } ∧
      x ∈ t.sheet.cells ∧ x.key = (row, col) ∧ x.val = v ∧ (G.grid (row, col) = none → t.st = Styles.newCell s.st q) ∧
      ∀ y ∈ s.sheet.cells, y.key ≠ (row, col) → y ∈ t.sheet.cells := by
  let x : Cell (Option κ) := ⟨s.st.cells.length, row, col, v⟩
  obtain ⟨l', d, e1, e2, e3, e4, e5⟩ := addLoop_spec x R.ord s.sheet.cells.length
  have hadd : s.sheet.addCell x = some ({ s.sheet.extend row col with cells := l' }, d) := by
    unfold Cells.Sheet.addCell
    rw [e1]
    rfl
  have hother : ∀ y ∈ s.sheet.cells, y.id ≠ s.st.cells.length := fun y hy => Nat.ne_of_lt (R.lt hy)
  have main : ∀ (st : Styles.State) (A' : Styles.Spec.State),
      d.foldlM (fun st (y : Cell (Option κ)) => Styles.destroy st y.id) (Styles.newCell s.st q) = some st → Styles.Good st A' →
      A'.fonts = A.fonts → A'.formats = A.formats → A'.cells s.st.cells.length = some l →
      (∀ y ∈ s.sheet.cells, y.key ≠ (row, col) → A'.cells y.id = A.cells y.id) →
      (G.grid (row, col) = none → st = Styles.newCell s.st q) →
      ∃ t x A', Range.put s row col v q = some (t, x) ∧ Rel t A' { G with grid := Spec.set G.grid (row, col) (some (v, l)) } ∧
      x ∈ t.sheet.cells ∧ x.key = (row, col) ∧ x.val = v ∧ (G.grid (row, col) = none → t.st = Styles.newCell s.st q) ∧
      ∀ y ∈ s.sheet.cells, y.key ≠ (row, col) → y ∈ t.sheet.cells := by
    intro st A' hd hgood hfo hfm hnew hold hst
    refine ⟨⟨st, { s.sheet.extend row col with cells := l' }⟩, x, A', ?_, ?_, (e3 x).mpr (.inl rfl), rfl, rfl, hst,
      fun y hy hk => (e3 y).mpr (.inr ⟨hy, hk⟩)⟩
    · show ((s.sheet.addCell x).bind _) = _
      rw [hadd, Option.bind_some]
      show Option.map _ (d.foldlM _ _) = _
      rw [hd]
      rfl
    · refine ⟨hgood, hfo.trans R.fonts, hfm.trans R.formats, e2, ?_, ?_, ?_⟩
      · intro a ha b hb hab
        rcases (e3 a).mp ha with rfl | ⟨ha, ka⟩ <;> rcases (e3 b).mp hb with rfl | ⟨hb, kb⟩
        · rfl
        · exact absurd hab.symm (hother b hb)
        · exact absurd hab (hother a ha)
        · exact R.ids a ha b hb hab
      · intro a ha
        rcases (e3 a).mp ha with rfl | ⟨ha, ka⟩
        · exact ⟨l, hnew, by simp [Spec.set, x, Cell.key]⟩
        · obtain ⟨la, h1, h2⟩ := R.live a ha
          have ka : a.key ≠ (row, col) := ka
          exact ⟨la, by rw [hold a ha ka, h1], by simp [Spec.set, ka, h2]⟩
      · intro k hk
        have h1 : k ≠ (row, col) := fun e => hk x ((e3 x).mpr (.inl rfl)) e.symm
        simp only [Spec.set, if_neg h1]
        refine R.empty k fun a ha e => ?_
        exact hk a ((e3 a).mpr (.inr ⟨ha, by rw [e]; exact h1⟩)) e
  cases d with
  | nil =>
    refine main _ _ rfl hg rfl rfl (by simp [upd]) ?_ (fun _ => rfl)
    intro y hy _
    simp [upd, hother y hy]
  | cons y r =>
    have hr : r = [] := by
      cases r with
      | nil => rfl
      | cons a b => simp at e5
    subst hr
    obtain ⟨hy, ky⟩ := (e4 y).mp (by simp)
    obtain ⟨ly, hly, hgy⟩ := R.live y hy
    have hyn := hother y hy
    obtain ⟨st, d1, d2⟩ := Styles.sim_destroy hg y.id ⟨ly, by simp [upd, hyn, hly]⟩
    refine main st _ ?_ d2 rfl rfl ?_ ?_ ?_
    · rw [List.foldlM_cons, d1]
      rfl
    · simp [upd, Ne.symm hyn]
    · intro a ha ka
      have h1 : a.id ≠ y.id := by
        intro e
        have := R.ids a ha y hy e
        subst this
        exact ka ky
      simp [upd, h1, hother a ha]
    · intro hnone
      have ky : y.key = (row, col) := ky
      rw [ky] at hgy
      rw [hgy] at hnone
      simp at hnone

theorem newCell_plain {st : Styles.State} {A : Styles.Spec.State} (G : Styles.Good st A) :
    Styles.Good (Styles.newCell st none) { A with cells := upd A.cells st.cells.length (some plain) } := by
  obtain ⟨e, h1, h2⟩ := Styles.xv_get G.rel.x15
  have hu := (G.inv.use 15 e h1).1
  have hd : Styles.dead e = false := by
    have : e.usage ≠ 0 := by
      rw [if_pos (by decide)] at hu
      omega
    simp [Styles.dead, this]
  exact Styles.sim_newCell G 15 (.inl rfl) e h1 hd plain (by rw [h2]; exact Styles.fresh_looks _ _ false)

theorem newCell_format {st : Styles.State} {A : Styles.Spec.State} (G : Styles.Good st A) {q : Nat} {l : Look} (hl : A.formats q = some l)
    (hd : ∀ e, st.xfs[q]? = some e → Styles.dead e = false) :
    Styles.Good (Styles.newCell st (some q)) { A with cells := upd A.cells st.cells.length (some l) } := by
  obtain ⟨h21, x, h1, h2⟩ := G.rel.formats q l hl
  obtain ⟨e, h3, rfl⟩ := Styles.xv_get h1
  exact Styles.sim_newCell G q (.inr h21) e h3 (hd e h3) l h2

/-- The cell at `k`, or a new blank one. -/
def orBlank (G : Spec.State κ) (k : Key) : Option κ × Look := (G.grid k).getD (none, plain)

theorem Rel.findOrBlank {s : State κ} {A G} (R : Rel s A G) (k : Key) :
    ∃ t x A', findOrBlank s k.1 k.2 = some (t, x) ∧ Rel t A' { G with grid := Spec.set G.grid k (some (orBlank G k)) } ∧
      x ∈ t.sheet.cells ∧ x.key = k ∧ x.val = (orBlank G k).1 ∧ A'.cells x.id = some (orBlank G k).2 ∧
      (t.st = s.st ∨ t.st = Styles.newCell s.st none) ∧ ∀ y ∈ s.sheet.cells, y ∈ t.sheet.cells := by
  unfold Range.findOrBlank orBlank
  cases h : G.grid k with
  | none =>
    obtain ⟨f1, f2⟩ := R.missing h
    rw [f1]
    obtain ⟨t, x, A', h1, h2, h3, h4, h5, h6, h7⟩ := R.put k.1 k.2 none none plain (newCell_plain R.good)
    refine ⟨t, x, A', h1, h2, h3, h4, h5, ?_, .inr (h6 h), fun y hy => h7 y hy (f2 y hy)⟩
    obtain ⟨l, g1, g2⟩ := h2.live x h3
    rw [h4] at g2
    simp only [Spec.set, if_pos, Option.some.injEq, Prod.mk.injEq] at g2
    rw [g1, ← g2.2]
    rfl
  | some c =>
    obtain ⟨v, l⟩ := c
    obtain ⟨x, h1, h2, h3, h4, h5⟩ := R.find h
    rw [h1]
    refine ⟨s, x, A, rfl, ?_, h2, h3, h4, h5, .inl rfl, fun _ h => h⟩
    have : Spec.set G.grid k (some ((some (v, l)).getD (none, plain))) = G.grid := by
      funext i
      unfold Spec.set
      split
      · subst_vars; exact h.symm
      · rfl
    rw [this]
    exact ⟨R.good, R.fonts, R.formats, R.ord, R.ids, R.live, R.empty⟩

theorem set_set (g : Key → Option (Option κ × Look)) (k : Key) (a b : Option (Option κ × Look)) :
    Spec.set (Spec.set g k a) k b = Spec.set g k b := by
  funext i
  unfold Spec.set
  split <;> rfl

end Xls.Range
