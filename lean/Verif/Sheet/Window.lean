import Verif.Sheet.Props
/-
C19 and C48 in the bytes written: the row range in the INDEX record and the flags in the WINDOW2 record.
-/
namespace Xls.Sheet
open Xls.Biff Xls.Rows Xls.Cells

variable {α ν : Type}

/-- WINDOW2 ([MS-XLS] 2.4.346): the flags word; bit 9 says that the sheet's tab is selected, bit 10 that the sheet is
    the one displayed. -/
def readWindow2 (p : Bytes) : Option (Bool × Bool) :=
  if p.length = 18 then (rdLE 2 p 0).map fun f => (f / 2 ^ 9 % 2 == 1, f / 2 ^ 10 % 2 == 1) else none

/-- INDEX ([MS-XLS] 2.4.144): first row with cells and first row after them. -/
def readIndexRows (p : Bytes) : Option (Nat × Nat) :=
  (rdLE 4 p 4).bind fun a => (rdLE 4 p 8).map fun b => (a, b)

theorem indexRows_fold (cells : List (Cell α)) (f l : Nat) (res : Nat × Nat)
    (h : cells.foldl (fun (f, l) c => (if f > c.row then c.row else f, if l < c.row then c.row else l)) (f, l) = res) :
    (res.1 ≤ f ∧ ∀ c ∈ cells, res.1 ≤ c.row) ∧ (res.1 = f ∨ ∃ c ∈ cells, res.1 = c.row) ∧
    (l ≤ res.2 ∧ ∀ c ∈ cells, c.row ≤ res.2) ∧ (res.2 = l ∨ ∃ c ∈ cells, res.2 = c.row) := by
  induction cells generalizing f l with
  | nil => subst h; simp
  | cons c r ih =>
    obtain ⟨⟨a1, a2⟩, b, ⟨c1, c2⟩, d⟩ := ih (if f > c.row then c.row else f) (if l < c.row then c.row else l) h
    refine ⟨⟨?_, ?_⟩, ?_, ⟨?_, ?_⟩, ?_⟩
    · split at a1 <;> omega
    · intro x hx
      rcases List.mem_cons.mp hx with rfl | h
      · split at a1 <;> omega
      · exact a2 x h
    · rcases b with b | ⟨x, hx, e⟩
      · split at b
        · exact .inr ⟨c, List.mem_cons_self, b⟩
        · exact .inl b
      · exact .inr ⟨x, List.mem_cons_of_mem _ hx, e⟩
    · split at c1 <;> omega
    · intro x hx
      rcases List.mem_cons.mp hx with rfl | h
      · split at c1 <;> omega
      · exact c2 x h
    · rcases d with b | ⟨x, hx, e⟩
      · split at b
        · exact .inr ⟨c, List.mem_cons_self, b⟩
        · exact .inl b
      · exact .inr ⟨x, List.mem_cons_of_mem _ hx, e⟩

/-- C19, the row range: the INDEX record of a saved sheet with cells names the first row that has a cell and the row
    after the last one that has. -/
theorem c19_row_range (env : Env α ν) (ht : env.Typed) (D : Data α ν) (off fuel : Nat) (s : St α) (us : List Book.U)
    (x : Data α ν × St α) (hs : Ready D s) (hlen : D.cells.length < 2 ^ 32) (h16 : D.notes.length ≤ 65535)
    (hne : D.cells ≠ []) (hrow : ∀ c ∈ D.cells, c.row < 2 ^ 32 - 1)
    (hd : drain (next env) fuel off 0 (D, s) = .done us x) :
    ∃ r p first last, inSection 1 us = [r] ∧ r = enc (0x20B, p) ∧ readIndexRows p = some (first, last + 1) ∧
      (∃ c ∈ D.cells, c.row = first) ∧ (∃ c ∈ D.cells, c.row = last) ∧ ∀ c ∈ D.cells, first ≤ c.row ∧ c.row ≤ last := by
  obtain ⟨bs, hb, rfl, -, -⟩ := drain_done hs hlen h16 hd
  obtain ⟨⟨a1, a2⟩, b, ⟨c1, c2⟩, d⟩ := indexRows_fold D.cells (2 ^ 32 - 1) 0 _ rfl
  obtain ⟨c0, hc0⟩ := List.exists_mem_of_ne_nil _ hne
  change (indexRows D.cells).1 ≤ _ at a1
  change ∀ c ∈ D.cells, (indexRows D.cells).1 ≤ c.row at a2
  change (indexRows D.cells).1 = _ ∨ ∃ c ∈ D.cells, (indexRows D.cells).1 = c.row at b
  change ∀ c ∈ D.cells, c.row ≤ (indexRows D.cells).2 at c2
  change (indexRows D.cells).2 = _ ∨ ∃ c ∈ D.cells, (indexRows D.cells).2 = c.row at d
  have k0 := hrow c0 hc0
  have hf : ∃ c ∈ D.cells, (indexRows D.cells).1 = c.row := by
    rcases b with b | b
    · have := a2 c0 hc0; omega
    · exact b
  have hl : ∃ c ∈ D.cells, (indexRows D.cells).2 = c.row := by
    rcases d with b | b
    · have := c2 c0 hc0; exact ⟨c0, hc0, by omega⟩
    · exact b
  refine ⟨_, indexPayload (indexRows D.cells).1 (indexRows D.cells).2 (indexOffsets env.cellSize (off + 20) D.cols.length D.cells),
    (indexRows D.cells).1, (indexRows D.cells).2, ?_, rfl, ?_, ?_, ?_, fun c hc => ⟨a2 c hc, c2 c hc⟩⟩
  · rw [inSection_units ht]
    simp only [layout, List.filter_append, filter_pane (j := 1) (by omega), filter_dv (j := 1) (by omega) (by omega),
      filter_draw (j := 1) (by omega), filter_note (j := 1) (by omega)]
    rw [filter_sec_none Ev.colinfo 3 1 (by omega) _ (fun _ => rfl), filter_sec_none Ev.rb 6 1 (by omega) _ (fun _ => rfl),
      filter_sec_none Ev.merged 9 1 (by omega) _ (fun _ => rfl), filter_sec_none Ev.link 12 1 (by omega) _ (fun _ => rfl)]
    simp [Ev.sec]
    rfl
  · obtain ⟨x1, h1, e1⟩ := hf
    obtain ⟨x2, h2, e2⟩ := hl
    have g1 := hrow x1 h1
    have g2 := hrow x2 h2
    generalize (indexRows D.cells).1 = f at e1 ⊢
    generalize (indexRows D.cells).2 = l at e2 ⊢
    unfold readIndexRows indexPayload
    generalize List.flatMap _ _ = q
    have r1 : rdLE 4 (leN 4 0 ++ leN 4 f ++ leN 4 ((l + 1) % 2 ^ 32) ++ q) 4 = some (f % 256 ^ 4) := by
      have := rdLE_at' (i := 4) 4 f (leN 4 0) (leN 4 ((l + 1) % 2 ^ 32) ++ q) (by simp)
      simpa using this
    have r2 : rdLE 4 (leN 4 0 ++ leN 4 f ++ leN 4 ((l + 1) % 2 ^ 32) ++ q) 8 = some ((l + 1) % 2 ^ 32 % 256 ^ 4) := by
      have := rdLE_at' (i := 8) 4 ((l + 1) % 2 ^ 32) (leN 4 0 ++ leN 4 f) q (by simp)
      simpa using this
    rw [r1, r2]
    have h1 : f % 256 ^ 4 = f := Nat.mod_eq_of_lt (by omega)
    have h2 : (l + 1) % 2 ^ 32 % 256 ^ 4 = l + 1 := by omega
    rw [h1, h2]
    rfl
  · obtain ⟨c, hc, e⟩ := hf; exact ⟨c, hc, e.symm⟩
  · obtain ⟨c, hc, e⟩ := hl; exact ⟨c, hc, e.symm⟩

/-- C48, the flags: the WINDOW2 record of a saved sheet marks the sheet as selected and displayed exactly if it is the
    active one. -/
theorem c48_flags (env : Env α ν) (ht : env.Typed) (D : Data α ν) (off fuel : Nat) (s : St α) (us : List Book.U)
    (x : Data α ν × St α) (hs : Ready D s) (hlen : D.cells.length < 2 ^ 32) (h16 : D.notes.length ≤ 65535)
    (hd : drain (next env) fuel off 0 (D, s) = .done us x) :
    ∃ r p, inSection 10 us = [r] ∧ r = enc (0x23E, p) ∧ readWindow2 p = some (D.active, D.active) := by
  obtain ⟨bs, hb, rfl, -, -⟩ := drain_done hs hlen h16 hd
  refine ⟨_, window2Payload D.active, ?_, rfl, by cases D.active <;> decide⟩
  rw [inSection_units ht]
  simp only [layout, List.filter_append, filter_pane (j := 10) (by omega), filter_dv (j := 10) (by omega) (by omega),
    filter_draw (j := 10) (by omega), filter_note (j := 10) (by omega)]
  rw [filter_sec_none Ev.colinfo 3 10 (by omega) _ (fun _ => rfl), filter_sec_none Ev.rb 6 10 (by omega) _ (fun _ => rfl),
    filter_sec_none Ev.merged 9 10 (by omega) _ (fun _ => rfl), filter_sec_none Ev.link 12 10 (by omega) _ (fun _ => rfl)]
  simp [Ev.sec]
  rfl

end Xls.Sheet
