import Verif.Page.Rows
/-
C60: the rows of the sheets in the saved file.
-/
namespace Xls.Page
open Xls.Biff Xls.Sheet Xls.Cells Xls.Book Xls.Save Xls.Whole

/-- Row heights come with formats that a ROW record can hold. -/
def RowFit : Act → Prop
  | .call (.rowheight _ _ x) => x.getD 15 < 4096
  | _ => True

/-- One sheet. -/
theorem sheet_rows {ar : Nat → Option Nat} (hA : Formula.KnowsArity ar) {h : List (Nat × Cell Val)} {b : Whole.Book} (r : Reach h b)
    (hf : All Sound h) (hn : b.labels.length ≤ 2 ^ 32) {table : List (List UInt16)} (ht : b.labels.mapM Cell.val = some table)
    {xf : WCell → Nat} (hx : ∀ c, xf c < 65536) {cs : WCell → Nat} {i : Nat} {D : Data (Nat × Val) Note.Note} {st : Sheet.St (Nat × Val)}
    (hc : D.cells = (b.sheets i).cells) (hs : Ready D st) (hlen : D.cells.length < 2 ^ 32) (h16 : D.notes.length ≤ 65535)
    (hno : ∀ n ∈ D.notes, n.full.length ≤ 3900) {fuel off : Nat} {us : List U} {x : Data (Nat × Val) Note.Note × Sheet.St (Nat × Val)}
    (hd : drain (next (Note.env (fun c => cellBytes b.labels (xf c) c) cs)) fuel off 0 (D, st) = .done us x)
    {R : List Rec} (hR : ShowsL (fun _ => none) us R) {acts : List Act} (ha : ∃ D0, D = applyAll (new D0) acts) (hfit : ∀ a ∈ acts, RowFit a) :
    ∃ rows, readRows R = some rows ∧ (RowsAsked (Written h i) acts rows ↔ RowsKept (Written h i) acts) ∧ RowsAnyway (Written h i) acts rows := by
  rw [← hasCell_iff r hc]
  refine rows_read (recs := fun c => (cellRecords b.labels (xf c) c).getD []) ?_ hs hlen h16 hno hd hR ?_
  · intro c hcm
    rw [hc] at hcm
    exact ⟨(cell_is hA r hf hn ht hx hcm).1, cellRecords_types _ _ _⟩
  · intro bs hb
    obtain ⟨D0, rfl⟩ := ha
    obtain ⟨o1, o2⟩ := heights_after D0 acts
    refine ⟨by rw [hc]; exact (reach_sheets r i).ordered, ?_, sorted_of_ordered o1, o2, ?_, hb⟩
    · intro c hcm
      rw [hc] at hcm
      have := survivor r hf hcm
      exact ⟨this.2.1, this.2.2.1⟩
    · intro row w x hl
      obtain ⟨a, ham, he⟩ := latest_mem hl
      have := hfit a ham
      cases a with
      | call k =>
        cases k with
        | rowheight k w' x' =>
          simp only [Act.height] at he
          by_cases hk : k.toNat = row
          · rw [if_pos hk] at he
            simp only [Option.some.injEq, Prod.mk.injEq] at he
            rw [← he.1, ← he.2]
            exact ⟨w'.toNat_lt, this⟩
          · rw [if_neg hk] at he; cases he
        | _ => cases he
      | _ => cases he

/-- C60: whatever cells a program writes and whatever calls it makes on the sheets of a workbook, if it is saved, then a reader that splits the
    stream into records and substreams finds on each sheet the rows that were asked for - exactly if no row was last given the height
    264, no height was given to a row below the last cell, and no cell is alone after 16 rows; and what it finds in any case.
    Missing for the full claim: those cases, in which it is false, as the equivalence says; formats from number 4096 up. -/
theorem c60_rows_partial {ar : Nat → Option Nat} (hA : Formula.KnowsArity ar) (h : List (Nat × Cell Val)) (b : Whole.Book) (r : Reach h b)
    (hf : All Sound h) (xf : WCell → Nat) (hx : ∀ c, xf c < 65536) (cs : WCell → Nat) (D : Globals.Data) (gs : Globals.St)
    (sheets : List (Data (Nat × Val) Note.Note × Sheet.St (Nat × Val)))
    (s s' : Book.St (Globals.Data × Globals.St) (Data (Nat × Val) Note.Note × Sheet.St (Nat × Val)))
    (us : List U) (fuel : Nat) (hp : Pours b D sheets) (hok : Saveable (fun c => cellBytes b.labels (xf c) c) D gs sheets) (hs : start (D, gs) sheets s)
    (hrun : Book.run Globals.next (Sheet.next (Note.env (fun c => cellBytes b.labels (xf c) c) cs)) fuel s = .done us s')
    (acts : Nat → List Act) (ha : Set acts sheets) (hfit : ∀ i, ∀ a ∈ acts i, RowFit a) :
    ∃ bs rs G Rs, stream us s'.bpos = some bs ∧ records bs = some rs ∧ substreams rs = some (G :: Rs) ∧ Rs.length = sheets.length ∧
      ∀ (i : Nat) R, Rs[i]? = some R → ∃ rows, readRows R = some rows ∧
        (RowsAsked (Written h i) (acts i) rows ↔ RowsKept (Written h i) (acts i)) ∧ RowsAnyway (Written h i) (acts i) rows := by
  obtain ⟨bs, G, Rs, gus, uss, offs, A, B, P, -⟩ := saved_parts hok hs hrun
  obtain ⟨hu, hv, ho, hst, hoff⟩ := sheetsTrace_parts P.sheetsTrace
  refine ⟨bs, _, G, Rs, P.strm, P.recs, P.subs, P.len.1, ?_⟩
  intro i R hR
  have hlt : i < sheets.length := by rw [← P.len.1]; exact (List.getElem?_eq_some_iff.mp hR).1
  have hiu : i < uss.length := by rw [hu]; exact hlt
  obtain ⟨sh, sh', o, wl, a, b', c, d⟩ := hst i uss[i] (by simp [hiu])
  obtain ⟨f, hd⟩ := d.drain
  obtain ⟨r1, r2, r3⟩ := hok.ready sh (List.mem_of_getElem? a)
  obtain ⟨R', hR', hsh⟩ := P.showsR i uss[i] (by simp [hiu])
  rw [hR] at hR'
  obtain rfl := Option.some.inj hR'
  have hun : ShowsL (fun _ => none) uss[i] R := hsh.untag (by
    obtain ⟨bs, _, e, _⟩ := Sheet.drain_done r1 r2 r3 hd
    rw [e]
    intro u hu
    obtain ⟨e, _, rfl⟩ := List.mem_map.mp hu
    rfl)
  exact sheet_rows hA r hf (by rw [← mapM_length hp.labels]; exact hp.few) hp.labels hx (hp.cells i sh a) r1 r2 r3
    (hok.notes sh (List.mem_of_getElem? a)) hd hun (ha i sh a) (hfit i)

/-- The names of the sheets and their rows, by a reader that follows the sheet table. -/
def openRows (w : Bytes) : Option (List (List UInt16 × List RowRead)) :=
  (openBook w).bind fun l => l.mapM fun p => (readRows p.2).map (p.1, ·)

/-- C60 for a reader that follows the sheet table.  Missing for the full claim: as in `c60_rows_partial`, and workbooks with a record above
    8224 bytes, where the sheet table is wrong (C22). -/
theorem c60_open_partial {ar : Nat → Option Nat} (hA : Formula.KnowsArity ar) (h : List (Nat × Cell Val)) (b : Whole.Book) (r : Reach h b)
    (hf : All Sound h) (xf : WCell → Nat) (hx : ∀ c, xf c < 65536) (cs : WCell → Nat) (D : Globals.Data) (gs : Globals.St)
    (sheets : List (Data (Nat × Val) Note.Note × Sheet.St (Nat × Val)))
    (s s' : Book.St (Globals.Data × Globals.St) (Data (Nat × Val) Note.Note × Sheet.St (Nat × Val)))
    (us : List U) (fuel : Nat) (hp : Pours b D sheets) (hok : Saveable (fun c => cellBytes b.labels (xf c) c) D gs sheets) (hs : start (D, gs) sheets s)
    (hrun : Book.run Globals.next (Sheet.next (Note.env (fun c => cellBytes b.labels (xf c) c) cs)) fuel s = .done us s')
    (hsm : SmallGlobals D) (hsh : ∀ sh ∈ sheets, SmallSheet (fun c => cellBytes b.labels (xf c) c) sh.1)
    (acts : Nat → List Act) (ha : Set acts sheets) (hfit : ∀ i, ∀ a ∈ acts i, RowFit a) :
    ∃ bs, stream us s'.bpos = some bs ∧ (bs.length < 2 ^ 32 → ∀ pad, ∃ L, openRows (bs ++ pad) = some ((D.bounds.map (·.name)).zip L) ∧
      L.length = sheets.length ∧ ∀ (i : Nat) rows, L[i]? = some rows →
        (RowsAsked (Written h i) (acts i) rows ↔ RowsKept (Written h i) (acts i)) ∧ RowsAnyway (Written h i) (acts i) rows) := by
  obtain ⟨bs, Rs, e1, e2, e3, e4⟩ := c43_open_partial _ cs D gs sheets s s' us fuel hok hs hsm hrun hsh
  refine ⟨bs, e1, fun h32 pad => ?_⟩
  have hread : ∀ (i : Nat) R, Rs[i]? = some R → ∃ rows, readRows R = some rows ∧
      ((RowsAsked (Written h (0 + i)) (acts (0 + i)) rows ↔ RowsKept (Written h (0 + i)) (acts (0 + i))) ∧ RowsAnyway (Written h (0 + i)) (acts (0 + i)) rows) := by
    intro i R hR
    rw [Nat.zero_add]
    have hlt : i < sheets.length := by rw [← e2]; exact (List.getElem?_eq_some_iff.mp hR).1
    have hg : sheets[i]? = some sheets[i] := by simp [hlt]
    obtain ⟨R', vs, f, off, x, h1, h2, h3⟩ := e4 i sheets[i] hg
    rw [hR] at h1
    obtain rfl := Option.some.inj h1
    have hm : sheets[i] ∈ sheets := List.getElem_mem hlt
    obtain ⟨r1, r2, r3⟩ := hok.ready _ hm
    exact sheet_rows hA r hf (by rw [← mapM_length hp.labels]; exact hp.few) hp.labels hx (hp.cells i _ hg) r1 r2 r3
      (hok.notes _ hm) h2 h3 (ha i _ hg) (hfit i)
  obtain ⟨L, l1, l2, l3⟩ := mapM_zip (f := readRows) (Q := fun i rows =>
    (RowsAsked (Written h i) (acts i) rows ↔ RowsKept (Written h i) (acts i)) ∧ RowsAnyway (Written h i) (acts i) rows) (D.bounds.map (·.name)) Rs 0
    (by rw [List.length_map, hok.count, e2]) hread
  refine ⟨L, ?_, by rw [l2, e2], fun i P hi => by have := l3 i P hi; rwa [Nat.zero_add] at this⟩
  unfold openRows
  rw [e3 h32, Option.bind_some, l1]

/-- C60, nothing assumed but the program. -/
theorem c60_plain {ar : Nat → Option Nat} (hA : Formula.KnowsArity ar) (h : List (Nat × Cell Val)) (hd : (h.map (·.2.id)).Nodup)
    (hf : All Sound h) (hlen : h.length < 2 ^ 32) (hrow : FewRows h) (xf : WCell → Nat) (hx : ∀ c, xf c < 65536) (cs : WCell → Nat)
    (names : List (List UInt16)) (hn0 : names ≠ []) (hn1 : names.length ≤ 1000) (hn2 : ∀ n ∈ names, n.length < 256)
    (acts : Nat → List Act) (hfit : ∀ i, ∀ a ∈ acts i, InLimits a ∧ Short a ∧ RowFit a)
    (hh : ∀ i, Steady (Written h i) (acts i)) (hc : ∀ i, (acts i).countP Act.isComment ≤ 65535) :
    ∃ b D fuel us s' bs, Reach h b ∧
      Book.run Globals.next (Sheet.next (Note.env (fun c => cellBytes b.labels (xf c) c) cs)) fuel
        (plainStart D ((List.range names.length).map (settled b acts))) = .done us s' ∧
      stream us s'.bpos = some bs ∧ (bs.length < 2 ^ 32 → ∃ L, openRows bs = some (names.zip L) ∧ L.length = names.length ∧
        ∀ (i : Nat) rows, L[i]? = some rows → (RowsAsked (Written h i) (acts i) rows ↔ RowsKept (Written h i) (acts i)) ∧
          RowsAnyway (Written h i) (acts i) rows) := by
  obtain ⟨b, D, n, us, s', hN, r, hp, hok, hs, hrun, hsm, hsh, hset⟩ := settled_saves hA h hd hf hlen hrow xf hx cs names hn0 hn1 hn2 acts
    (fun i a ha => ⟨(hfit i a ha).1, (hfit i a ha).2.1⟩) hh hc
  obtain ⟨bs, e1, e2⟩ := c60_open_partial hA h b r hf xf hx cs _ demoGs _ _ s' us n hp hok hs hrun hsm hsh acts hset (fun i a ha => (hfit i a ha).2.2)
  refine ⟨b, _, n, us, s', bs, r, hrun, e1, fun h32 => ?_⟩
  obtain ⟨L, l1, l2, l3⟩ := e2 h32 []
  rw [List.append_nil, hN] at l1
  exact ⟨L, l1, by simpa using l2, l3⟩

/-- The default height of rows is never the height of a row that has cells and no height of its own: the file says the one in DEFAULTROWHEIGHT
    and 264 in every such row. -/
theorem c60_default_ignored {ar : Nat → Option Nat} (hA : Formula.KnowsArity ar) (h : List (Nat × Cell Val)) (b : Whole.Book) (r : Reach h b)
    (hf : All Sound h) (xf : WCell → Nat) (hx : ∀ c, xf c < 65536) (cs : WCell → Nat) (D : Globals.Data) (gs : Globals.St)
    (sheets : List (Data (Nat × Val) Note.Note × Sheet.St (Nat × Val)))
    (s s' : Book.St (Globals.Data × Globals.St) (Data (Nat × Val) Note.Note × Sheet.St (Nat × Val)))
    (us : List U) (fuel : Nat) (hp : Pours b D sheets) (hok : Saveable (fun c => cellBytes b.labels (xf c) c) D gs sheets) (hs : start (D, gs) sheets s)
    (hrun : Book.run Globals.next (Sheet.next (Note.env (fun c => cellBytes b.labels (xf c) c) cs)) fuel s = .done us s')
    (acts : Nat → List Act) (ha : Set acts sheets) (hfit : ∀ i, ∀ a ∈ acts i, Fit a ∧ RowFit a) (hl : ∀ i, (acts i).length < 2 ^ 32) :
    ∃ bs rs G Rs, stream us s'.bpos = some bs ∧ records bs = some rs ∧ substreams rs = some (G :: Rs) ∧ Rs.length = sheets.length ∧
      ∀ (i : Nat) R, Rs[i]? = some R → ∃ P rows, readPage R = some P ∧ readRows R = some rows ∧
        ∀ rd ∈ rows, latest (Act.height rd.row) (acts i) = none → rd.height ≠ P.rowHeight := by
  obtain ⟨bs, rs, G, Rs, h1, h2, h3, h4, h5⟩ := c60_rows_partial hA h b r hf xf hx cs D gs sheets s s' us fuel hp hok hs hrun acts ha
    fun i a m => (hfit i a m).2
  obtain ⟨bs', rs', G', Rs', k1, k2, k3, -, k5⟩ := c59_page_partial hA h b r hf xf hx cs D gs sheets s s' us fuel hp hok hs hrun acts ha
    (fun i a m => (hfit i a m).1) hl
  rw [h1] at k1
  obtain rfl := Option.some.inj k1
  rw [h2] at k2
  obtain rfl := Option.some.inj k2
  rw [h3] at k3
  obtain ⟨rfl, rfl⟩ := List.cons.inj (Option.some.inj k3)
  refine ⟨bs, rs, G, Rs, h1, h2, h3, h4, fun i R hR => ?_⟩
  obtain ⟨rows, m1, -, m2⟩ := h5 i R hR
  obtain ⟨P, p1, p2⟩ := k5 i R hR
  refine ⟨P, rows, p1, m1, fun rd hrd hn => ?_⟩
  rw [(m2.unset rd hrd hn).1, p2.rowHeight]
  omega

/-! ### Concrete cases -/

/-- Cells in rows 2 and 5, a height for row 3 given twice, one for row 5. -/
def rowHist : List (Nat × Cell Val) := [(0, ⟨0, 2, 1, .bool true⟩), (0, ⟨1, 2, 4, .blank⟩), (0, ⟨2, 5, 0, .signed (-3)⟩)]
def rowActs : Nat → List Act
  | 0 => [.call (.rowheight 3 600 none), .call (.rowheight 5 264 (some 22)), .call (.rowheight 3 500 (some 21)), .call (.rowheight 5 700 none)]
  | _ => []

theorem rowHist_written (row col : Nat) : Written rowHist 0 row col ↔ (row, col) ∈ [(2, 1), (2, 4), (5, 0)] := by
  have e : lastWrite rowHist 0 row col = if row = 5 ∧ col = 0 then some ⟨2, 5, 0, .signed (-3)⟩ else if row = 2 ∧ col = 4 then some ⟨1, 2, 4, .blank⟩ else
      if row = 2 ∧ col = 1 then some ⟨0, 2, 1, .bool true⟩ else none := by
    have := lastWrite_append
    rw [show rowHist = [(0, ⟨0, 2, 1, .bool true⟩), (0, ⟨1, 2, 4, .blank⟩)] ++ [(0, ⟨2, 5, 0, .signed (-3)⟩)] from rfl, lastWrite_append,
      show ([(0, ⟨0, 2, 1, .bool true⟩), (0, ⟨1, 2, 4, .blank⟩)] : List (Nat × Cell Val)) = [(0, ⟨0, 2, 1, .bool true⟩)] ++ [(0, ⟨1, 2, 4, .blank⟩)] from rfl,
      lastWrite_append, show ([(0, ⟨0, 2, 1, .bool true⟩)] : List (Nat × Cell Val)) = [] ++ [(0, ⟨0, 2, 1, .bool true⟩)] from rfl, lastWrite_append]
    simp only [true_and, eq_comm (b := row), eq_comm (b := col)]
    rfl
  unfold Written
  rw [e]
  by_cases h1 : row = 5 ∧ col = 0
  · rw [if_pos h1]; simp [h1]
  · rw [if_neg h1]
    by_cases h2 : row = 2 ∧ col = 4
    · rw [if_pos h2]; simp [h2]
    · rw [if_neg h2]
      by_cases h3 : row = 2 ∧ col = 1
      · rw [if_pos h3]; simp [h3]
      · rw [if_neg h3]
        simp only [Option.isSome_none, List.mem_cons, Prod.mk.injEq, List.not_mem_nil, or_false]
        simp [h1, h2, h3]

/-- Its rows are kept. -/
theorem rowActs_kept : RowsKept (Written rowHist 0) (rowActs 0) := by
  have hh : ∀ row, latest (Act.height row) (rowActs 0) = if row = 5 then some (700, none) else if row = 3 then some (500, some 21) else none := by
    intro row
    simp only [rowActs, latest, Act.height, Option.none_or]
    by_cases h5 : row = 5
    · subst h5; rfl
    · by_cases h3 : row = 3
      · subst h3; rfl
      · simp [h5, h3, eq_comm (b := row)]
  refine ⟨?_, ?_, ?_⟩
  · intro row x
    rw [hh]
    split
    · simp
    · split <;> simp
  · intro row hl
    refine ⟨5, 0, ?_, (rowHist_written 5 0).mpr (by simp)⟩
    rw [hh] at hl
    by_cases h5 : row = 5
    · omega
    · rw [if_neg h5] at hl
      by_cases h3 : row = 3
      · omega
      · rw [if_neg h3] at hl; exact absurd rfl hl
  · rintro ⟨R, r1, r2, k, n, hk, -⟩
    have hlen : R.length ≤ 6 := by
      have hb : ∀ n ∈ R, n < 6 := by
        intro n hn
        rcases (r2 n).mp hn with ⟨col, h⟩ | ⟨-, row, col, hlt, h⟩
        · rw [rowHist_written] at h; simp at h; omega
        · rw [rowHist_written] at h; simp at h; omega
      have hnd : R.Nodup := r1.imp fun h => Nat.ne_of_lt h
      have := hnd.length_le_of_subset (l₂ := List.range 6) fun n hn => List.mem_range.mpr (hb n hn)
      simpa using this
    have := (List.getElem?_eq_some_iff.mp hk).1
    omega

example : ∃ b D fuel us s' bs, Reach rowHist b ∧
    Book.run Globals.next (Sheet.next (Note.env (fun c => cellBytes b.labels 15 c) fun _ => 0)) fuel
      (plainStart D ((List.range 1).map (settled b rowActs))) = .done us s' ∧
    stream us s'.bpos = some bs ∧ (bs.length < 2 ^ 32 → ∃ rows, openRows bs = some [([65], rows)] ∧ RowsAsked (Written rowHist 0) (rowActs 0) rows) := by
  have hf : All Sound rowHist := by
    intro i row col c hw
    have hm : (i, c) ∈ rowHist := by
      unfold lastWrite at hw
      obtain ⟨p, hp, rfl⟩ := Option.map_eq_some_iff.mp hw
      have := List.mem_of_getLast? hp
      simp only [List.mem_filter, Bool.and_eq_true, beq_iff_eq] at this
      rw [← this.2.1]
      exact this.1
    simp only [rowHist, List.mem_cons, List.not_mem_nil, or_false, Prod.mk.injEq] at hm
    rcases hm with ⟨rfl, rfl⟩ | ⟨rfl, rfl⟩ | ⟨rfl, rfl⟩ <;> simp [Sound, Fine]
  have hfit : ∀ i, ∀ a ∈ rowActs i, InLimits a ∧ Short a ∧ RowFit a := by
    intro i a ha
    unfold rowActs at ha
    split at ha
    · simp only [List.mem_cons, List.not_mem_nil, or_false] at ha
      rcases ha with rfl | rfl | rfl | rfl <;> simp [InLimits, Short, RowFit]
    · cases ha
  have hc : ∀ i, (rowActs i).countP Act.isHeight < 16 ∧ (rowActs i).countP Act.isComment ≤ 65535 := by
    intro i
    unfold rowActs
    split <;> decide
  obtain ⟨b, D, n, us, s', bs, h1, h2, h3, h4⟩ := c60_plain Formula.tableArity_knows rowHist (by decide) hf (by decide) (fewRows_of (by decide))
    (fun _ => 15) (fun _ => by decide) (fun _ => 0) [[65]] (by decide) (by decide) (by decide) rowActs hfit (fun i => few_steady _ _ (hc i).1) (fun i => (hc i).2)
  refine ⟨b, D, n, us, s', bs, h1, h2, h3, fun h32 => ?_⟩
  obtain ⟨L, l1, l2, l3⟩ := h4 h32
  match L, l1, l2, l3 with
  | [rows], l1, _, l3 => exact ⟨rows, l1, (l3 0 rows rfl).1.mpr rowActs_kept⟩

/-- The rows are not kept if a height is 264, or below the last cell. -/
example : ¬ RowsKept (Written rowHist 0) [.call (.rowheight 2 264 none)] := fun h => h.other 2 none rfl
example : ¬ RowsKept (Written rowHist 0) [.call (.rowheight 9 400 none)] := fun h => by
  obtain ⟨row, col, h1, h2⟩ := h.above 9 (by simp [latest, Act.height])
  rw [rowHist_written] at h2
  simp at h2
  omega

end Xls.Page
