import Verif.Sheet.Layout
import Verif.Sheet.Ops
/-
C20, C21, C35, and C19 against the real stream positions.
-/
namespace Xls.Sheet
open Xls.Cells Xls.Biff Xls.Rows

variable {α ν : Type}

/-! ### C21 -/

/-- C21, what is handed out: whatever the sheet holds, wherever its substream begins and whatever an earlier save
    left, once all records are pulled they lie in the sections of the file format in order, each section with exactly the
    records the data ask for (one BOF first, one EOF last); the cell table is what C17 and C18 speak about and is
    empty only if there are no cells; and the sheet is ready to be saved again.  At most 65535 comments. -/
theorem c21_sections (env : Env α ν) (ht : env.Typed) (D : Data α ν) (off fuel : Nat) (s : St α) (us : List Book.U)
    (x : Data α ν × St α) (hs : Ready D s) (hlen : D.cells.length < 2 ^ 32) (h16 : D.notes.length ≤ 65535)
    (hd : drain (next env) fuel off 0 (D, s) = .done us x) :
    x.1 = D ∧ Ready D x.2 ∧ ∃ rb,
      us.map (fun u => (typeOf u.data).bind sectionOf) =
        ((List.range 16).flatMap fun k => List.replicate (expected D rb.length k) k).map some ∧
      (rb = [] ↔ D.cells = []) ∧ inSection 6 us = rb.map (Rows.Ev.bytes env.cellData) ∧
      ∀ p old, ∃ m t, ∀ fuel, Rows.run (fun c => (env.cellData c).length) D.heights (fuel + m) p (enter D.cells old) = .done rb t := by
  obtain ⟨bs, hb, rfl, h1, h2, h3⟩ := drain_done hs hlen h16 hd
  refine ⟨h1, h2, bs.flatMap (Block.evs fun c => (env.cellData c).length), ?_, ?_, ?_, fun p old => ?_⟩
  · rw [← layout_secs env D s.spid off bs, List.map_map, List.map_map]
    exact List.map_congr_left fun e _ => sec_unit ht D e
  · have hc := blocks_cells D.cells D.heights bs hb
    have hci := cellsIn_blocks (fun c => (env.cellData c).length) bs
    rw [hc] at hci
    constructor
    · intro h0
      rw [h0] at hci
      exact hci.symm
    · intro he
      rw [he, blocks] at hb
      cases hb
      rfl
  · rw [inSection_units ht, layout_rb, List.map_map]
    rfl
  · obtain ⟨m, t, hm⟩ := run_blocks (fun c => (env.cellData c).length) D.heights D.cells old p bs hlen hb
    exact ⟨m, t, fun fuel => (hm fuel).1⟩

/-- C21, termination under the condition `NoStall` of C17.  Missing for the full claim: sheets without
    it, which run into undefined behaviour (`c21_stalled_runs_past_end`). -/
theorem c21_terminates_partial (env : Env α ν) (D : Data α ν) (R : List Nat) (off : Nat) (s : St α)
    (hs : Ready D s) (ho : Ordered Cell.key D.cells) (hh : HtSorted D.heights) (hlen : D.cells.length < 2 ^ 32)
    (hR : RowList D.cells D.heights R) (hst : NoStall D.cells R) (h16 : D.notes.length ≤ 65535) :
    ∃ n us x, ∀ fuel, drain (next env) (fuel + n) off 0 (D, s) = .done us x := by
  have hsort := rowSorted_of_ordered ho
  rw [rowList_unique hR hsort hh] at hst
  obtain ⟨bs, hb⟩ := (blocks_some_iff D.cells D.heights hsort hh).mpr hst
  obtain ⟨n, s', h, _, hr⟩ := sheet_drain env D off bs s hs hb hlen h16
  exact ⟨n, _, _, h⟩

/-- C21, termination in full for sheets without row-height settings. -/
theorem c21_terminates_without_heights (env : Env α ν) (D : Data α ν) (off : Nat) (s : St α)
    (hs : Ready D s) (ho : Ordered Cell.key D.cells) (hh : D.heights = []) (hlen : D.cells.length < 2 ^ 32)
    (h16 : D.notes.length ≤ 65535) :
    ∃ n us x, ∀ fuel, drain (next env) (fuel + n) off 0 (D, s) = .done us x := by
  have hb : ∃ bs, blocks D.cells [] = some bs := by
    obtain ⟨n, evs, s1, h, _⟩ := c17_without_heights (fun _ => 0) D.cells ⟨.init, [], [], [], 0, 0, 0, 0, []⟩ 0 ho hlen
    cases hb : blocks D.cells [] with
    | some bs => exact ⟨bs, rfl⟩
    | none =>
      obtain ⟨m, hm⟩ := run_to_ub (fun _ => 0) D.cells [] ⟨.init, [], [], [], 0, 0, 0, 0, []⟩ 0 hlen hb
      have h1 := h m
      have h2 := hm n
      rw [Nat.add_comm, h2] at h1
      simp at h1
  obtain ⟨bs, hb⟩ := hb
  obtain ⟨n, s', h, _, hr⟩ := sheet_drain env D off bs s hs (by rw [hh]; exact hb) hlen h16
  exact ⟨n, _, _, h⟩

/-- The negation of C21 in all other cases: the sheet reads past the end of its cells. -/
theorem c21_stalled_runs_past_end (env : Env α ν) (D : Data α ν) (R : List Nat) (off : Nat) (s : St α)
    (hs : Ready D s) (ho : Ordered Cell.key D.cells) (hh : HtSorted D.heights) (hlen : D.cells.length < 2 ^ 32)
    (hR : RowList D.cells D.heights R) (hst : ¬ NoStall D.cells R) :
    ∃ n, ∀ fuel, drain (next env) (fuel + n) off 0 (D, s) = .ub := by
  have hsort := rowSorted_of_ordered ho
  rw [rowList_unique hR hsort hh, ← blocks_some_iff D.cells D.heights hsort hh] at hst
  have hb : blocks D.cells D.heights = none := by
    cases h : blocks D.cells D.heights with
    | none => rfl
    | some bs => exact absurd ⟨bs, h⟩ hst
  obtain ⟨evs, p, s', h1, h2⟩ := sheet_stall env D off s hs hb hlen
  exact h1.drain_ub (by omega) h2

/-! ### C20 -/

/-- C20: the MERGEDCELLS records of a saved sheet, read as the file format says, hold the requested rectangles in
    order, each once, at most 1027 to a record; no record is empty.  Rows and columns must be less than 65536, the
    limit of the file format. -/
theorem c20_merged (env : Env α ν) (ht : env.Typed) (D : Data α ν) (off fuel : Nat) (s : St α) (us : List Book.U)
    (x : Data α ν × St α) (hs : Ready D s) (hlen : D.cells.length < 2 ^ 32) (h16 : D.notes.length ≤ 65535)
    (hd : drain (next env) fuel off 0 (D, s) = .done us x)
    (hm : ∀ r ∈ D.merged, r.firstRow < 65536 ∧ r.lastRow < 65536 ∧ r.firstCol < 65536 ∧ r.lastCol < 65536) :
    ∃ groups : List (List Rect), (inSection 9 us).map (fun b => (payloadOf b).bind readMerged) = groups.map some ∧
      groups.flatten = D.merged ∧ ∀ g ∈ groups, 0 < g.length ∧ g.length ≤ 1027 := by
  obtain ⟨bs, hb, rfl, h1, h2, h3⟩ := drain_done hs hlen h16 hd
  have hmem := Book.chunks_mem (n := 1027) (by omega) D.merged
  refine ⟨Book.chunks 1027 D.merged, ?_, Book.chunks_flatten (by omega) _, fun g hg => hmem g hg⟩
  rw [inSection_units ht, layout_merged, List.map_map, List.map_map]
  refine List.map_congr_left fun g hg => ?_
  obtain ⟨g1, g2⟩ := hmem g hg
  have hin : ∀ r ∈ g, r ∈ D.merged := fun r hr => by
    rw [← Book.chunks_flatten (n := 1027) (by omega) D.merged]
    exact List.mem_flatten.mpr ⟨g, hg, hr⟩
  have hlenp : (mergedPayload g).length = 2 + 8 * g.length := by
    unfold mergedPayload
    rw [List.length_append, leN_length]
    congr 1
    clear hmem hg g1 g2 hin
    induction g with
    | nil => rfl
    | cons a r ih => rw [List.flatMap_cons, List.length_append, ih]; simp; omega
  simp only [Function.comp_apply, Ev.bytes]
  rw [payloadOf_enc _ _ (by omega)]
  simp only [Option.bind_some, readMerged, mergedPayload, takeLE_leN_append]
  rw [Nat.mod_eq_of_lt (by omega)]
  exact readRects_payload g fun r hr => hm r (hin r hr)

/-! ### C35 -/

/-- The width and format that a call gives to a column. -/
def Call.width (col : Nat) : Call → Option (Nat × Option Nat)
  | .colwidth k w x => if k.toNat = col then some (w.toNat, x) else none
  | _ => none

/-- The height and format that a call gives to a row. -/
def Call.height (row : Nat) : Call → Option (Nat × Option Nat)
  | .rowheight k w x => if k.toNat = row then some (w.toNat, x) else none
  | _ => none

/-- The width and format given last for a column. -/
def lastWidth (col : Nat) : List Call → Option (Nat × Option Nat)
  | [] => none
  | c :: r => (lastWidth col r).or (c.width col)

/-- The height and format given last for a row. -/
def lastHeight (row : Nat) : List Call → Option (Nat × Option Nat)
  | [] => none
  | c :: r => (lastHeight row r).or (c.height row)

theorem lastWidth_snoc (col : Nat) (l : List Call) (c : Call) :
    lastWidth col (l ++ [c]) = (c.width col).or (lastWidth col l) := by
  induction l with
  | nil => simp [lastWidth]
  | cons a r ih => rw [List.cons_append, lastWidth, ih, lastWidth, Option.or_assoc]

theorem lastHeight_snoc (row : Nat) (l : List Call) (c : Call) :
    lastHeight row (l ++ [c]) = (c.height row).or (lastHeight row l) := by
  induction l with
  | nil => simp [lastHeight]
  | cons a r ih => rw [List.cons_append, lastHeight, ih, lastHeight, Option.or_assoc]

/-- Setting one element of a set: the old one with the key goes, the new one comes. -/
theorem set_replace {β : Type} (key : β → Key) (x : β) (l : List β) (hl : Ordered key l) :
    let l' := match setFind key (key x) l with
      | some _ => (setInsert key x (setErase key (key x) l)).1
      | none => (setInsert key x l).1
    Ordered key l' ∧ ∀ y, y ∈ l' ↔ y = x ∨ (y ∈ l ∧ key y ≠ key x) := by
  intro l'
  cases hf : setFind key (key x) l with
  | some z =>
    have he := setErase_ordered (key := key) hl (key x)
    have hm := mem_setErase (key := key) hl (key x)
    obtain ⟨_, h2, h3⟩ := setInsert_new (key := key) he x (fun y hy => ((hm y).mp hy).2)
    simp only [l', hf]
    exact ⟨h2, fun y => by rw [h3, hm]⟩
  | none =>
    have hn : ∀ y ∈ l, key y ≠ key x := by
      intro y hy e
      have := setFind_of_mem (key := key) hl hy
      rw [e, hf] at this
      simp at this
    obtain ⟨_, h2, h3⟩ := setInsert_new (key := key) hl x hn
    simp only [l', hf]
    refine ⟨h2, fun y => ?_⟩
    rw [h3]
    constructor
    · rintro (h | h)
      · exact Or.inl h
      · exact Or.inr ⟨h, hn y h⟩
    · rintro (h | h)
      · exact Or.inl h
      · exact Or.inr h.1

theorem colwidth_cols (D : Data α ν) (c : UInt32) (w : UInt16) (x : Option Nat) (h : Ordered ColInfo.key D.cols) :
    Ordered ColInfo.key (D.colwidth c w x).cols ∧ ∀ y, y ∈ (D.colwidth c w x).cols ↔
      y = ⟨c.toNat, c.toNat, w.toNat, x, 0⟩ ∨ (y ∈ D.cols ∧ y.first ≠ c.toNat) := by
  have := set_replace ColInfo.key ⟨c.toNat, c.toNat, w.toNat, x, 0⟩ D.cols h
  unfold Data.colwidth
  simp only at this ⊢
  cases hf : setFind ColInfo.key (ColInfo.key ⟨c.toNat, c.toNat, w.toNat, x, 0⟩) D.cols with
  | some _ =>
    rw [hf] at this
    refine ⟨this.1, fun y => (this.2 y).trans ?_⟩
    simp [ColInfo.key]
  | none =>
    rw [hf] at this
    refine ⟨this.1, fun y => (this.2 y).trans ?_⟩
    simp [ColInfo.key]

theorem rowheight_heights (D : Data α ν) (c : UInt32) (w : UInt16) (x : Option Nat) (h : Ordered heightKey D.heights) :
    Ordered heightKey (D.rowheight c w x).heights ∧ ∀ y, y ∈ (D.rowheight c w x).heights ↔
      y = ⟨c.toNat, w.toNat, x⟩ ∨ (y ∈ D.heights ∧ y.row ≠ c.toNat) := by
  have := set_replace heightKey ⟨c.toNat, w.toNat, x⟩ D.heights h
  unfold Data.rowheight
  simp only at this ⊢
  cases hf : setFind heightKey (heightKey ⟨c.toNat, w.toNat, x⟩) D.heights with
  | some _ =>
    rw [hf] at this
    refine ⟨this.1, fun y => (this.2 y).trans ?_⟩
    simp [heightKey]
  | none =>
    rw [hf] at this
    refine ⟨this.1, fun y => (this.2 y).trans ?_⟩
    simp [heightKey]

theorem rowheight_cols (D : Data α ν) (c : UInt32) (w : UInt16) (x : Option Nat) : (D.rowheight c w x).cols = D.cols := by
  unfold Data.rowheight; simp only; split <;> rfl

theorem colwidth_heights (D : Data α ν) (c : UInt32) (w : UInt16) (x : Option Nat) : (D.colwidth c w x).heights = D.heights := by
  unfold Data.colwidth; simp only; split <;> rfl

theorem snoc_induction {β : Type} {P : List β → Prop} (h0 : P []) (h1 : ∀ l a, P l → P (l ++ [a])) (l : List β) : P l := by
  have : ∀ l : List β, P l.reverse := by
    intro l
    induction l with
    | nil => exact h0
    | cons a r ih => rw [List.reverse_cons]; exact h1 _ _ ih
  have h := this l.reverse
  rwa [List.reverse_reverse] at h

theorem calls_snoc (D : Data α ν) (l : List Call) (c : Call) : D.calls (l ++ [c]) = (D.calls l).call c := by
  simp [Data.calls]

theorem cols_calls (D : Data α ν) (l : List Call) :
    Ordered ColInfo.key (D.fresh.calls l).cols ∧ ∀ y, y ∈ (D.fresh.calls l).cols ↔
      y.last = y.first ∧ y.flags = 0 ∧ lastWidth y.first l = some (y.width, y.xf) := by
  induction l using snoc_induction with
  | h0 => simp [Data.calls, Data.fresh, Ordered, lastWidth]
  | h1 l c ih =>
    obtain ⟨ih1, ih2⟩ := ih
    rw [calls_snoc]
    have other : (D.fresh.calls l).call c = D.fresh.calls (l ++ [c]) := (calls_snoc _ _ _).symm
    cases c with
    | colwidth k w x =>
      obtain ⟨h1, h2⟩ := colwidth_cols (D.fresh.calls l) k w x ih1
      refine ⟨h1, fun y => ?_⟩
      simp only [Data.call]
      rw [h2, ih2, lastWidth_snoc]
      simp only [Call.width]
      by_cases hk : k.toNat = y.first
      · rw [if_pos hk, Option.some_or]
        obtain ⟨f, la, wd, xf, fl⟩ := y
        simp only at hk
        subst hk
        simp only [ColInfo.mk.injEq, true_and, ne_eq, not_true_eq_false, and_false, or_false, Option.some.injEq, Prod.mk.injEq]
        constructor
        · rintro ⟨rfl, rfl, rfl, rfl⟩; simp
        · rintro ⟨rfl, rfl, rfl, rfl⟩; simp
      · rw [if_neg hk, Option.none_or]
        constructor
        · rintro (rfl | ⟨h, _⟩)
          · simp at hk
          · exact h
        · intro h
          exact Or.inr ⟨h, fun e => hk e.symm⟩
    | rowheight k w x =>
      simp only [Data.call, rowheight_cols]
      exact ⟨ih1, fun y => by rw [ih2, lastWidth_snoc]; rfl⟩
    | merge a b c d => exact ⟨ih1, fun y => by rw [lastWidth_snoc]; exact ih2 y⟩
    | hyperLink a b c d => exact ⟨ih1, fun y => by rw [lastWidth_snoc]; exact ih2 y⟩
    | validate v => exact ⟨ih1, fun y => by rw [lastWidth_snoc]; exact ih2 y⟩
    | defRowHeight v => exact ⟨ih1, fun y => by rw [lastWidth_snoc]; exact ih2 y⟩
    | defColWidth v => exact ⟨ih1, fun y => by rw [lastWidth_snoc]; exact ih2 y⟩

theorem heights_calls (D : Data α ν) (l : List Call) :
    Ordered heightKey (D.fresh.calls l).heights ∧ ∀ y, y ∈ (D.fresh.calls l).heights ↔
      lastHeight y.row l = some (y.height, y.xf) := by
  induction l using snoc_induction with
  | h0 => simp [Data.calls, Data.fresh, Ordered, lastHeight]
  | h1 l c ih =>
    obtain ⟨ih1, ih2⟩ := ih
    rw [calls_snoc]
    cases c with
    | rowheight k w x =>
      obtain ⟨h1, h2⟩ := rowheight_heights (D.fresh.calls l) k w x ih1
      refine ⟨h1, fun y => ?_⟩
      simp only [Data.call]
      rw [h2, ih2, lastHeight_snoc]
      simp only [Call.height]
      by_cases hk : k.toNat = y.row
      · rw [if_pos hk, Option.some_or]
        obtain ⟨r, ht, xf⟩ := y
        simp only at hk
        subst hk
        simp only [RowHeight.mk.injEq, true_and, ne_eq, not_true_eq_false, and_false, or_false, Option.some.injEq, Prod.mk.injEq]
        constructor
        · rintro ⟨rfl, rfl⟩; simp
        · rintro ⟨rfl, rfl⟩; simp
      · rw [if_neg hk, Option.none_or]
        constructor
        · rintro (rfl | ⟨h, _⟩)
          · simp at hk
          · exact h
        · intro h
          exact Or.inr ⟨h, fun e => hk e.symm⟩
    | colwidth k w x =>
      simp only [Data.call, colwidth_heights]
      exact ⟨ih1, fun y => by rw [ih2, lastHeight_snoc]; rfl⟩
    | merge a b c d => exact ⟨ih1, fun y => by rw [lastHeight_snoc]; exact ih2 y⟩
    | hyperLink a b c d => exact ⟨ih1, fun y => by rw [lastHeight_snoc]; exact ih2 y⟩
    | validate v => exact ⟨ih1, fun y => by rw [lastHeight_snoc]; exact ih2 y⟩
    | defRowHeight v => exact ⟨ih1, fun y => by rw [lastHeight_snoc]; exact ih2 y⟩
    | defColWidth v => exact ⟨ih1, fun y => by rw [lastHeight_snoc]; exact ih2 y⟩

theorem readColInfo_payload (c : ColInfo) :
    readColInfo (colinfoPayload c) = some (c.first % 65536, c.last % 65536, c.width % 65536, (c.xf.getD 15) % 65536) := by
  have h0 := rdLE_at' (i := 0) 2 c.first [] (leN 2 c.last ++ leN 2 c.width ++ leN 2 (c.xf.getD 15) ++ leN 2 c.flags ++ leN 2 0) rfl
  have h1 := rdLE_at' (i := 2) 2 c.last (leN 2 c.first) (leN 2 c.width ++ leN 2 (c.xf.getD 15) ++ leN 2 c.flags ++ leN 2 0) (by simp)
  have h2 := rdLE_at' (i := 4) 2 c.width (leN 2 c.first ++ leN 2 c.last) (leN 2 (c.xf.getD 15) ++ leN 2 c.flags ++ leN 2 0) (by simp)
  have h3 := rdLE_at' (i := 6) 2 (c.xf.getD 15) (leN 2 c.first ++ leN 2 c.last ++ leN 2 c.width) (leN 2 c.flags ++ leN 2 0) (by simp)
  have e : colinfoPayload c = leN 2 c.first ++ leN 2 c.last ++ leN 2 c.width ++ leN 2 (c.xf.getD 15) ++ leN 2 c.flags ++ leN 2 0 := by
    unfold colinfoPayload
    cases c.xf <;> rfl
  have hl : (colinfoPayload c).length = 12 := by rw [e]; simp
  unfold readColInfo
  rw [hl]
  simp only [List.append_assoc, List.nil_append] at h0 h1 h2 h3 e
  rw [e, h0, h1, h2, h3]
  rfl

/-- C35, columns: after any calls on a new sheet the saved COLINFO records, read as the file format says, come in
    strictly increasing column order; they describe exactly the columns that were given a width, each as one column
    with the width and format (or the default format, 15) given last.  Column numbers and format indices are less than
    65536 here, the limit of the file format. -/
theorem c35_columns (env : Env α ν) (ht : env.Typed) (D0 : Data α ν) (calls : List Call) (off fuel : Nat)
    (s : St α) (us : List Book.U) (x : Data α ν × St α) (hs : Ready (D0.fresh.calls calls) s)
    (hlen : (D0.fresh.calls calls).cells.length < 2 ^ 32) (h16 : (D0.fresh.calls calls).notes.length ≤ 65535)
    (hd : drain (next env) fuel off 0 (D0.fresh.calls calls, s) = .done us x)
    (hc : ∀ k w x, Call.colwidth k w x ∈ calls → k.toNat < 65536 ∧ ∀ i, x = some i → i < 65536) :
    ∃ l : List (Nat × Nat × Nat × Nat), (inSection 3 us).map (fun b => (payloadOf b).bind readColInfo) = l.map some ∧
      l.Pairwise (fun a b => a.1 < b.1) ∧
      (∀ f la w x, (f, la, w, x) ∈ l ↔ la = f ∧ ∃ y, lastWidth f calls = some (w, y) ∧ x = y.getD 15) := by
  obtain ⟨bs, hb, rfl, _, _⟩ := drain_done hs hlen h16 hd
  obtain ⟨c1, c2⟩ := cols_calls D0 calls
  have last_lt : ∀ (l : List Call) (f w : Nat) (y : Option Nat), (∀ k w x, Call.colwidth k w x ∈ l → k.toNat < 65536 ∧ ∀ i, x = some i → i < 65536) →
      lastWidth f l = some (w, y) → f < 65536 ∧ w < 65536 ∧ y.getD 15 < 65536 := by
    intro l
    induction l with
    | nil => intro f w y _ h; simp [lastWidth] at h
    | cons a r ih =>
      intro f w y hl h
      rw [lastWidth] at h
      rcases Option.or_eq_some_iff.mp h with h | ⟨_, h⟩
      · exact ih f w y (fun k w x hm => hl k w x (by simp [hm])) h
      · cases a with
        | colwidth k w' x =>
          simp only [Call.width] at h
          by_cases e : k.toNat = f
          · rw [if_pos e] at h
            simp only [Option.some.injEq, Prod.mk.injEq] at h
            obtain ⟨rfl, rfl⟩ := h
            obtain ⟨h1, h2⟩ := hl k w' x (by simp)
            refine ⟨by omega, w'.toNat_lt, ?_⟩
            cases x with
            | none => simp
            | some i => exact h2 i rfl
          · rw [if_neg e] at h; simp at h
        | _ => simp [Call.width] at h
  refine ⟨(D0.fresh.calls calls).cols.map fun c => (c.first, c.last, c.width, c.xf.getD 15), ?_, ?_, ?_⟩
  · rw [inSection_units ht, layout_cols, List.map_map, List.map_map, List.map_map]
    refine List.map_congr_left fun c hc' => ?_
    obtain ⟨m1, m2, m3⟩ := (c2 c).mp hc'
    obtain ⟨b1, b2, b3⟩ := last_lt calls c.first c.width c.xf hc m3
    simp only [Function.comp_apply, Ev.bytes]
    rw [payloadOf_enc _ _ (by simp [colinfoPayload])]
    rw [Option.bind_some, readColInfo_payload, m1, Nat.mod_eq_of_lt b1, Nat.mod_eq_of_lt b2, Nat.mod_eq_of_lt b3]
  · rw [List.pairwise_map]
    refine c1.imp fun {a b} hab => ?_
    rw [klt_iff] at hab
    simp only [ColInfo.key] at hab
    omega
  · intro f la w x
    rw [List.mem_map]
    constructor
    · rintro ⟨c, hc', e⟩
      obtain ⟨m1, m2, m3⟩ := (c2 c).mp hc'
      simp only [Prod.mk.injEq] at e
      obtain ⟨rfl, rfl, rfl, rfl⟩ := e
      exact ⟨m1, c.xf, m3, rfl⟩
    · rintro ⟨rfl, y, hy, rfl⟩
      exact ⟨⟨la, la, w, y, 0⟩, (c2 _).mpr ⟨rfl, rfl, hy⟩, rfl⟩

/-- C35, rows: after any calls on a new sheet the row heights are in increasing order of rows, one for each row that
    was given a height, the one given last; and every ROW record of the saved sheet carries exactly the height given
    last for its row.  Missing for the full
    claim: the condition `NoLone` of C18. -/
theorem c35_rows_partial (env : Env α ν) (ht : env.Typed) (D0 : Data α ν) (calls : List Call) (R : List Nat) (off fuel : Nat)
    (s : St α) (us : List Book.U) (x : Data α ν × St α) (hs : Ready (D0.fresh.calls calls) s) (ho : Ordered Cell.key (D0.fresh.calls calls).cells)
    (hcol : ∀ c ∈ (D0.fresh.calls calls).cells, c.col < 2 ^ 32)
    (hR : RowList (D0.fresh.calls calls).cells (D0.fresh.calls calls).heights R)
    (hln : NoLone (D0.fresh.calls calls).cells R)
    (hlen : (D0.fresh.calls calls).cells.length < 2 ^ 32) (h16 : (D0.fresh.calls calls).notes.length ≤ 65535)
    (hd : drain (next env) fuel off 0 (D0.fresh.calls calls, s) = .done us x) :
    ∃ rb, inSection 6 us = rb.map (Rows.Ev.bytes env.cellData) ∧
      (D0.fresh.calls calls).heights.Pairwise (fun a b => a.row < b.row) ∧
      (∀ h, h ∈ (D0.fresh.calls calls).heights ↔ lastHeight h.row calls = some (h.height, h.xf)) ∧
      ∀ r ∈ rowsIn rb, (r.2.2.2.map fun h => (h.height, h.xf)) = lastHeight r.1 calls := by
  obtain ⟨c1, c2⟩ := heights_calls D0 calls
  have hh : HtSorted (D0.fresh.calls calls).heights := by
    refine c1.imp fun {a b} hab => ?_
    rw [klt_iff] at hab
    simp only [heightKey] at hab
    omega
  obtain ⟨_, _, rb, h3, _, h4, h5⟩ := c21_sections env ht _ off fuel s us x hs hlen h16 hd
  have hst : NoStall (D0.fresh.calls calls).cells R := by
    refine Classical.byContradiction fun hst => ?_
    obtain ⟨n, hn⟩ := c21_stalled_runs_past_end env _ R off s hs ho hh hlen hR hst
    have := drain_more fuel n (by rw [hd]; simp)
    rw [hn fuel, hd] at this
    simp at this
  obtain ⟨m, evs, t, bl, k1, k2, k3, k4, k5, k6⟩ := c18_rows_announced_partial (fun c => (env.cellData c).length) _ _ R
    ⟨.init, [], [], [], 0, 0, 0, 0, []⟩ 0 ho hh hlen hcol hR hst hln
  have hev : evs = rb := by
    obtain ⟨m', t', h5'⟩ := h5 0 ⟨.init, [], [], [], 0, 0, 0, 0, []⟩
    have := (k1 m').symm.trans ((congrArg (fun f => Rows.run (fun c => (env.cellData c).length)
      (D0.fresh.calls calls).heights f 0 (enter (D0.fresh.calls calls).cells ⟨.init, [], [], [], 0, 0, 0, 0, []⟩)) (Nat.add_comm m' m)).trans (h5' m))
    simp only [Rows.Outcome.done.injEq] at this
    exact this.1
  subst hev
  refine ⟨evs, h4, hh, c2, ?_⟩
  intro r hr
  have := k6 r hr
  cases hx : r.2.2.2 with
  | some g =>
    obtain ⟨g1, g2⟩ := (this g).mp hx
    rw [← g2]
    exact ((c2 g).mp g1).symm
  | none =>
    cases hl : lastHeight r.1 calls with
    | none => rfl
    | some p =>
      have hm := (c2 ⟨r.1, p.1, p.2⟩).mpr hl
      have := (this ⟨r.1, p.1, p.2⟩).mpr ⟨hm, rfl⟩
      rw [hx] at this
      simp at this

/-! ### C19 in the stream -/

theorem positionOf_units (env : Env α ν) (D : Data α ν) (off : Nat) (pre post : List (Ev α ν)) :
    positionOf off ((pre ++ post).map (Ev.unit env D)) pre.length = off + (pre.map fun e => (e.bytes env D).length).sum := by
  unfold positionOf
  rw [List.map_append, List.take_left' (by simp), List.map_map]
  rfl

/-- C19 for a sheet whose cells lie in at most 16 rows, in terms of the bytes written: the INDEX record of the
    saved sheet, read as the file format says, holds exactly the position of the sheet's DEFCOLWIDTH record and the
    position of its DBCELL record, counted in bytes from the beginning of the substream at `off`.  The sizes announced by
    the cells must be right (C25), no cell record may need a CONTINUE record, and no height may be set on a row
    without cells above the last cell.  Missing for the full claim: sheets with more rows, for which it is false
    (`c19_later_offsets_wrong`). -/
theorem c19_in_stream_partial (env : Env α ν) (ht : env.Typed) (D : Data α ν) (R : List Nat) (off fuel : Nat) (s : St α)
    (us : List Book.U) (x : Data α ν × St α) (hs : Ready D s) (ho : Ordered Cell.key D.cells) (hh : HtSorted D.heights)
    (hlen : D.cells.length < 2 ^ 32) (h16 : D.notes.length ≤ 65535) (hR : RowList D.cells D.heights R)
    (hon : HeightsOnCells D.cells D.heights) (hg : ∀ c ∈ D.cells, env.cellSize c = (env.cellData c).length)
    (hbig : ∀ c ∈ D.cells, (env.cellData c).length ≤ 8228) (hne : D.cells ≠ []) (hR16 : R.length ≤ 16)
    (hdim : D.dimension.length = 14) (hd : drain (next env) fuel off 0 (D, s) = .done us x) :
    ∃ i j r, inSection 1 us = [r] ∧
      (payloadOf r).bind readIndex = some [positionOf off us i % 2 ^ 32, positionOf off us j % 2 ^ 32] ∧
      (us[i]?).bind (fun u => typeOf u.data) = some 0x55 ∧
      (us[j]?).bind (fun u => typeOf u.data) = some 0xD7 ∧
      ∀ k u, k < j → us[k]? = some u → Book.pieces u = [u] := by
  have hsort := rowSorted_of_ordered ho
  have hR' := rowList_unique hR hsort hh
  subst hR'
  obtain ⟨b, hb, e, hcells⟩ := single_block env.cellSize D.cells D.heights hsort hh hon hne hR16
  obtain ⟨bs, hb', rfl, -, -⟩ := drain_done hs hlen h16 hd
  rw [hb] at hb'
  cases hb'
  have hoff : indexOffsets env.cellSize (off + 20) D.cols.length D.cells =
      [defColWidthAt (off + 20) 1 D.cols.length,
       defColWidthAt (off + 20) 1 D.cols.length + 6 + 18 + b.before fun c => (env.cellData c).length] := by
    have hsum : (b.cells.map env.cellSize).sum = (b.cells.map fun c => (env.cellData c).length).sum := by
      rw [hcells]
      congr 1
      exact List.map_congr_left hg
    unfold indexOffsets
    simp only [e, List.length_cons, List.length_nil, indexLoop, block_size_before, Nat.zero_add, Block.before, hsum]
  let A : List (Ev α ν) := [.bof, .index (indexRows D.cells).1 (indexRows D.cells).2
    (indexOffsets env.cellSize (off + 20) D.cols.length D.cells), .defRowHeight] ++ D.cols.map .colinfo
  let B : List (Ev α ν) := A ++ [.defColWidth, .dimension] ++ (b.rows.map Item.ev ++ b.cells.map Rows.Ev.cell).map .rb
  have hA : ∃ rest, layout env D s.spid off [b] = A ++ (.defColWidth :: rest) :=
    ⟨_, by simp only [layout, A, List.append_assoc, List.cons_append, List.nil_append]; rfl⟩
  have hB : ∃ o p rest, layout env D s.spid off [b] = B ++ (.rb (.dbcell o p) :: rest) :=
    ⟨_, _, _, by
      simp only [layout, A, B, Block.evs, List.append_assoc, List.cons_append, List.nil_append, List.flatMap_cons,
        List.flatMap_nil, List.append_nil, List.map_append, List.map_cons, List.map_nil]
      rfl⟩
  have sumA : (A.map fun e => (e.bytes env D).length).sum = 20 + 24 + 8 + 16 * D.cols.length := by
    have hcols : ((D.cols.map (Ev.colinfo : ColInfo → Ev α ν)).map fun e => (e.bytes env D).length).sum = 16 * D.cols.length := by
      rw [List.map_map]
      induction D.cols with
      | nil => rfl
      | cons c r ih =>
        rw [List.map_cons, List.sum_cons, ih]
        simp [Ev.bytes, enc, colinfoPayload]; omega
    simp only [A]
    rw [List.map_append, List.sum_append, hcols]
    simp only [List.map_cons, List.map_nil, List.sum_cons, List.sum_nil, Ev.bytes, hoff, enc, indexPayload, bofPayload, defRowHeightPayload, List.length_append, leN_length, flatMap_leN_length,
      List.length_cons, List.length_nil]
    omega
  have sumB : (B.map fun e => (e.bytes env D).length).sum =
      20 + 24 + 8 + 16 * D.cols.length + 6 + 18 + b.before fun c => (env.cellData c).length := by
    have h1 : (((b.rows.map Item.ev).map (Ev.rb : Rows.Ev α → Ev α ν)).map fun e => (e.bytes env D).length).sum = 20 * b.rows.length := by
      induction b.rows with
      | nil => rfl
      | cons i r ih =>
        simp only [List.map_cons, List.sum_cons, ih, List.length_cons]
        simp only [Ev.bytes, Item.ev, Rows.Ev.bytes, enc, rowPayload, List.length_append, leN_length]
        omega
    have h2 : (((b.cells.map Rows.Ev.cell).map (Ev.rb : Rows.Ev α → Ev α ν)).map fun e => (e.bytes env D).length).sum =
        (b.cells.map fun c => (env.cellData c).length).sum := by
      simp only [List.map_map]; rfl
    simp only [B]
    rw [List.map_append, List.sum_append, List.map_append, List.sum_append, sumA, List.map_append, List.map_append,
      List.sum_append, h1, h2]
    simp only [List.map_cons, List.map_nil, List.sum_cons, List.sum_nil, Ev.bytes, enc, List.length_append, leN_length, hdim, Block.before]
    omega
  obtain ⟨rA, hA⟩ := hA
  obtain ⟨o, p, rB, hB⟩ := hB
  have pA : positionOf off ((layout env D s.spid off [b]).map (Ev.unit env D)) A.length = defColWidthAt (off + 20) 1 D.cols.length := by
    rw [hA, positionOf_units, sumA]; unfold defColWidthAt; omega
  have pB : positionOf off ((layout env D s.spid off [b]).map (Ev.unit env D)) B.length =
      defColWidthAt (off + 20) 1 D.cols.length + 6 + 18 + b.before fun c => (env.cellData c).length := by
    rw [hB, positionOf_units, sumB]; unfold defColWidthAt; omega
  refine ⟨A.length, B.length, (Ev.index (indexRows D.cells).1 (indexRows D.cells).2
    (indexOffsets env.cellSize (off + 20) D.cols.length D.cells) : Ev α ν).bytes env D, ?_, ?_, ?_, ?_, ?_⟩
  · rw [inSection_units ht]
    simp only [layout, List.filter_append, filter_pane (j := 1) (by omega), filter_dv (j := 1) (by omega) (by omega),
      filter_draw (j := 1) (by omega), filter_note (j := 1) (by omega)]
    rw [filter_sec_none Ev.colinfo 3 1 (by omega) _ (fun _ => rfl), filter_sec_none Ev.rb 6 1 (by omega) _ (fun _ => rfl),
      filter_sec_none Ev.merged 9 1 (by omega) _ (fun _ => rfl), filter_sec_none Ev.link 12 1 (by omega) _ (fun _ => rfl)]
    simp [Ev.sec]
  · rw [pA, pB]
    simp only [Ev.bytes]
    rw [payloadOf_enc _ _ (by rw [hoff]; simp [indexPayload]), Option.bind_some, readIndex_payload, hoff]
    rfl
  · rw [hA, List.map_append, List.getElem?_append_right (by simp)]
    simp only [List.length_map, Nat.sub_self, List.map_cons, List.getElem?_cons_zero, Option.bind_some, Ev.unit, Ev.bytes]
    exact typeOf_enc _ _ (by omega)
  · rw [hB, List.map_append, List.getElem?_append_right (by simp)]
    simp only [List.length_map, Nat.sub_self, List.map_cons, List.getElem?_cons_zero, Option.bind_some, Ev.unit, Ev.bytes,
      Rows.Ev.bytes]
    exact typeOf_enc _ _ (by omega)
  · intro k u hk hu
    rw [hB, List.map_append, List.getElem?_append_left (by simpa using hk)] at hu
    have hm := List.mem_of_getElem? hu
    obtain ⟨ev, hev, rfl⟩ := List.mem_map.mp hm
    refine Book.pieces_small (Or.inr ?_)
    have hle : (ev.bytes env D).length ≤ 8228 := by
      have small : ∀ t (q : Bytes), q.length ≤ 8224 → (enc (t, q)).length ≤ 8228 := by
        intro t q hq; simp [enc]; omega
      simp only [B, A, List.mem_append, List.mem_cons, List.mem_map, List.not_mem_nil, or_false] at hev
      rcases hev with (((rfl | rfl | rfl) | ⟨c, _, rfl⟩) | rfl | rfl) | ⟨e', ⟨it, _, rfl⟩ | ⟨c, hc, rfl⟩, rfl⟩
      · exact small _ _ (by simp [bofPayload])
      · exact small _ _ (by rw [hoff]; simp [indexPayload])
      · exact small _ _ (by simp [defRowHeightPayload])
      · exact small _ _ (by simp [colinfoPayload])
      · exact small _ _ (by simp)
      · exact small _ _ (by omega)
      · exact small _ _ (by simp [rowPayload])
      · exact hbig c (by rw [← hcells]; exact hc)
    simp only [Ev.unit, Book.U.paySize, Book.maxRec]
    omega

end Xls.Sheet
