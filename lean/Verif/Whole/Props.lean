import Verif.Whole.CellRead
/-
C55: every cell written is read back from the saved workbook, with its contents and its format, and nothing else is there.
-/
namespace Xls.Whole
open Xls.Biff Xls.Cells Xls.Book Xls.Save

/-- The cells `cs` read from sheet `i` are what the history `h` left there: in row-major order, one for each place that was written, in
    relation `H` to what was written there last, with the format number that the cell has. -/
def ReadsBack (H : Nat → Val → Content → Prop) (h : List (Nat × Cell Val)) (xf : WCell → Nat) (i : Nat) (cs : List ReadCell) : Prop :=
  cs.Pairwise (fun a b => a.row < b.row ∨ a.row = b.row ∧ a.col < b.col) ∧
  ∀ row col, match lastWrite h i row col with
    | none => ∀ x ∈ cs, ¬ (x.row = row ∧ x.col = col)
    | some c => ∃ x ∈ cs, x.row = row ∧ x.col = col ∧ x.xf = xf (stamp i c) ∧ H i c.val x.content

/-- What is assumed of the cells that survive: within the format's 65536 rows and 256 columns, and with a property. -/
def All (Q : Nat → Val → Prop) (h : List (Nat × Cell Val)) : Prop :=
  ∀ i row col c, lastWrite h i row col = some c → c.row < 65536 ∧ c.col < 256 ∧ Q i c.val

/-- The data that a save starts from holds the cells and labels of the workbook `b`. -/
structure Pours (b : Book) (D : Globals.Data) (sheets : List (Sheet.Data (Nat × Val) Note.Note × Sheet.St (Nat × Val))) : Prop where
  labels : b.labels.mapM Cell.val = some D.labels
  few : D.labels.length ≤ 2 ^ 32
  cells : ∀ (i : Nat) sh, sheets[i]? = some sh → sh.1.cells = (b.sheets i).cells

theorem mapM_length {β γ : Type} {f : β → Option γ} {l : List β} {m : List γ} (h : l.mapM f = some m) : m.length = l.length := by
  induction l generalizing m with
  | nil => simp only [List.mapM_nil, pure, Option.some.injEq] at h; subst h; rfl
  | cons a r ih =>
    simp only [List.mapM_cons, bind, Option.bind_eq_some_iff, pure, Option.some.injEq] at h
    obtain ⟨x, _, y, hy, rfl⟩ := h
    simp [ih hy]

theorem survivor {h : List (Nat × Cell Val)} {b : Book} (r : Reach h b) (hf : All Sound h) {i : Nat} {c : WCell} (hc : c ∈ (b.sheets i).cells) :
    c.val.1 = i ∧ c.row < 65536 ∧ c.col < 256 ∧ Sound i c.val.2 := by
  obtain ⟨d, h1, h2⟩ := ((reach_sheets r i).cells c).mp hc
  have := hf i _ _ d h1
  rw [h2]
  exact ⟨rfl, this⟩

/-- The cells of such a workbook are made of proper records that fit one unit. -/
theorem cell_is {ar : Nat → Option Nat} (hA : Formula.KnowsArity ar) {h : List (Nat × Cell Val)} {b : Book} (r : Reach h b) (hf : All Sound h)
    (hn : b.labels.length ≤ 2 ^ 32) {table : List (List UInt16)} (ht : b.labels.mapM Cell.val = some table) {xf : WCell → Nat} (hx : ∀ c, xf c < 65536)
    {i : Nat} {c : WCell} (hc : c ∈ (b.sheets i).cells) :
    CellIs (fun c => cellBytes b.labels (xf c) c) c ((cellRecords b.labels (xf c) c).getD []) ∧
      ∃ x, Reads (table.map Sst.stored) ((cellRecords b.labels (xf c) c).getD []) x ∧ x.row = c.row ∧ x.col = c.col ∧ x.xf = xf c ∧ Found ar i c.val.2 x.content := by
  obtain ⟨hi, h1, h2, h3⟩ := survivor r hf hc
  obtain ⟨rs, e, s1, s2, hx⟩ := cell_reads hA r hn ht hc hi h1 h2 h3 (hx c)
  rw [e]
  refine ⟨⟨?_, s1, ?_⟩, hx⟩
  · simp [cellBytes, e]
  · simpa [cellBytes, e] using s2

theorem readCells_list {table : List (List UInt16)} {recs : WCell → List Rec} {P : WCell → ReadCell → Prop} (l : List WCell)
    (h : ∀ c ∈ l, ∃ x, Reads table (recs c) x ∧ x.row = c.row ∧ x.col = c.col ∧ P c x) :
    ∃ xs, readCells table (l.flatMap fun c => (recs c).filter isCell) = some xs ∧ xs.map (fun x => (x.row, x.col)) = l.map Cell.key ∧
      (∀ r ∈ (l.flatMap fun c => (recs c).filter isCell).head?, r.1 ≠ 0x221) ∧ ∀ c ∈ l, ∃ x ∈ xs, x.row = c.row ∧ x.col = c.col ∧ P c x := by
  induction l with
  | nil => exact ⟨[], rfl, rfl, by simp, by simp⟩
  | cons c r ih =>
    obtain ⟨xs, e1, e2, e3, e4⟩ := ih (fun x hx => h x (by simp [hx]))
    obtain ⟨x, hx, h1, h2, h3⟩ := h c (by simp)
    refine ⟨x :: xs, ?_, ?_, ?_, ?_⟩
    · rw [List.flatMap_cons, hx.read _ e3, e1]; rfl
    · rw [List.map_cons, List.map_cons, e2, h1, h2]; rfl
    · rw [List.flatMap_cons]
      cases hl : (recs c).filter isCell with
      | nil => exact absurd hl hx.ne
      | cons a m =>
        have := hx.head
        rw [hl] at this
        simpa using this
    · intro d hd
      rcases List.mem_cons.mp hd with rfl | hd
      · exact ⟨x, by simp, h1, h2, h3⟩
      · obtain ⟨y, hy, h⟩ := e4 d hd
        exact ⟨y, by simp [hy], h⟩

/-- One sheet: the records that show what the sheet handed out read back. -/
theorem sheet_reads {ar : Nat → Option Nat} (hA : Formula.KnowsArity ar) {h : List (Nat × Cell Val)} {b : Book} (r : Reach h b) (hf : All Sound h)
    (hn : b.labels.length ≤ 2 ^ 32) {table : List (List UInt16)} (ht : b.labels.mapM Cell.val = some table) {xf : WCell → Nat} (hx : ∀ c, xf c < 65536)
    {i : Nat} {cs : WCell → Nat} {D : Sheet.Data (Nat × Val) Note.Note} (hD : D.cells = (b.sheets i).cells)
    {s : Sheet.St (Nat × Val)} {off fuel : Nat} {us : List U} {x : Sheet.Data (Nat × Val) Note.Note × Sheet.St (Nat × Val)}
    (hs : Sheet.Ready D s) (hlen : D.cells.length < 2 ^ 32) (h16 : D.notes.length ≤ 65535) (hnn : ∀ n ∈ D.notes, n.full.length ≤ 3900)
    (hd : Sheet.drain (Sheet.next (Note.env (fun c => cellBytes b.labels (xf c) c) cs)) fuel off 0 (D, s) = .done us x)
    {R : List Rec} (hR : ShowsL (fun _ => none) us R) :
    ∃ xs, sheetCells (table.map Sst.stored) R = some xs ∧ ReadsBack (Found ar) h xf i xs := by
  have hfil := sheet_filter (recs := fun c => (cellRecords b.labels (xf c) c).getD []) (fun c hc => by
    rw [hD] at hc
    exact (cell_is hA r hf hn ht hx hc).1) hs hlen h16 hnn hd hR
  obtain ⟨xs, e1, e2, -, e4⟩ := readCells_list (table := table.map Sst.stored) (recs := fun c => (cellRecords b.labels (xf c) c).getD [])
    (P := fun c x => x.xf = xf c ∧ Found ar i c.val.2 x.content) D.cells (fun c hc => by
      rw [hD] at hc
      obtain ⟨x, h1, h2, h3, h4, h5⟩ := (cell_is hA r hf hn ht hx hc).2
      exact ⟨x, h1, h2, h3, h4, h5⟩)
  refine ⟨xs, by unfold sheetCells; rw [hfil, e1], ?_, ?_⟩
  · have ho : Ordered Cell.key D.cells := by rw [hD]; exact (reach_sheets r i).ordered
    have h1 : (D.cells.map Cell.key).Pairwise (fun a b => klt a b = true) := List.pairwise_map.mpr ho
    rw [← e2] at h1
    exact (List.pairwise_map.mp h1).imp (fun hk => (klt_iff _ _).mp hk)
  · intro row col
    cases hw : lastWrite h i row col with
    | none =>
      simp only
      rintro x hx ⟨rfl, rfl⟩
      have hm : (x.row, x.col) ∈ xs.map (fun x => (x.row, x.col)) := List.mem_map.mpr ⟨x, hx, rfl⟩
      rw [e2] at hm
      obtain ⟨c, hc, hk⟩ := List.mem_map.mp hm
      rw [hD, (reach_sheets r i).cells] at hc
      obtain ⟨d, hd, -⟩ := hc
      simp only [Cell.key, Prod.mk.injEq] at hk
      rw [hk.1, hk.2, hw] at hd
      cases hd
    | some c =>
      simp only
      have hpos : c.row = row ∧ c.col = col := by
        unfold lastWrite at hw
        obtain ⟨p, hp, rfl⟩ := Option.map_eq_some_iff.mp hw
        have := List.mem_of_getLast? hp
        simp only [List.mem_filter, Bool.and_eq_true, beq_iff_eq] at this
        exact this.2.2
      have hc : stamp i c ∈ D.cells := by
        rw [hD, (reach_sheets r i).cells]
        exact ⟨c, by show lastWrite h i c.row c.col = _; rw [hpos.1, hpos.2, hw], rfl⟩
      obtain ⟨x, hx, h1, h2, h3, h4⟩ := e4 _ hc
      exact ⟨x, hx, h1.trans hpos.1, h2.trans hpos.2, h3, h4⟩

/-- The same as `c55_cells_partial` for all values that can be passed, with the two faults as they are. -/
theorem c55_found_partial {ar : Nat → Option Nat} (hA : Formula.KnowsArity ar) (h : List (Nat × Cell Val)) (b : Book) (r : Reach h b)
    (hf : All Sound h) (xf : WCell → Nat) (hx : ∀ c, xf c < 65536) (cs : WCell → Nat) (D : Globals.Data) (gs : Globals.St)
    (sheets : List (Sheet.Data (Nat × Val) Note.Note × Sheet.St (Nat × Val)))
    (s s' : Book.St (Globals.Data × Globals.St) (Sheet.Data (Nat × Val) Note.Note × Sheet.St (Nat × Val)))
    (us : List U) (fuel : Nat) (hp : Pours b D sheets) (hok : Saveable (fun c => cellBytes b.labels (xf c) c) D gs sheets) (hs : start (D, gs) sheets s)
    (hrun : Book.run Globals.next (Sheet.next (Note.env (fun c => cellBytes b.labels (xf c) c) cs)) fuel s = .done us s') :
    ∃ bs rs G Rs table, stream us s'.bpos = some bs ∧ records bs = some rs ∧ substreams rs = some (G :: Rs) ∧ sstOf G = some table ∧
      Rs.length = sheets.length ∧ ∀ (i : Nat) R, Rs[i]? = some R → ∃ xs, sheetCells table R = some xs ∧ ReadsBack (Found ar) h xf i xs := by
  obtain ⟨bs, G, Rs, gus, uss, offs, A, B, P, -⟩ := saved_parts hok hs hrun
  obtain ⟨hu, hv, ho, hst, hoff⟩ := sheetsTrace_parts P.sheetsTrace
  obtain ⟨g, t, hg, ht, rfl⟩ := P.units
  refine ⟨bs, _, G, Rs, _, P.strm, P.recs, P.subs, sst_of_globals hg ht P.showsG, P.len.1, ?_⟩
  intro i R hR
  have hlt : i < sheets.length := by rw [← P.len.1]; exact (List.getElem?_eq_some_iff.mp hR).1
  have hiu : i < uss.length := by rw [hu]; exact hlt
  obtain ⟨sh, sh', o, wl, a, b', c, d⟩ := hst i uss[i] (by simp [hiu])
  obtain ⟨f, hd⟩ := d.drain
  obtain ⟨r1, r2, r3⟩ := hok.ready sh (List.mem_of_getElem? a)
  obtain ⟨R', hR', hsh⟩ := P.showsR i uss[i] (by simp [hiu])
  rw [hR] at hR'
  obtain rfl := Option.some.inj hR'
  have hun : ShowsL (fun _ => none) uss[i] R := hsh.untag (by
    obtain ⟨bs, _, e, _⟩ := Sheet.drain_done r1 r2 r3 hd
    rw [e]
    intro u hu
    obtain ⟨e, _, rfl⟩ := List.mem_map.mp hu
    rfl)
  exact sheet_reads hA r hf (by rw [← mapM_length hp.labels]; exact hp.few) hp.labels hx (hp.cells i sh a) r1 r2 r3 (hok.notes sh (List.mem_of_getElem? a)) hd hun

theorem ReadsBack.mono {H K : Nat → Val → Content → Prop} {h : List (Nat × Cell Val)} {xf : WCell → Nat} {i : Nat} {xs : List ReadCell}
    (hr : ReadsBack H h xf i xs) (hk : ∀ row col c, lastWrite h i row col = some c → ∀ x, H i c.val x → K i c.val x) : ReadsBack K h xf i xs := by
  refine ⟨hr.1, fun row col => ?_⟩
  have := hr.2 row col
  cases hw : lastWrite h i row col with
  | none => rw [hw] at this; exact this
  | some c =>
    rw [hw] at this
    simp only at this ⊢
    obtain ⟨x, h1, h2, h3, h4, h5⟩ := this
    exact ⟨x, h1, h2, h3, h4, hk row col c hw _ h5⟩

theorem All.sound {h : List (Nat × Cell Val)} (hf : All Fine h) : All Sound h :=
  fun i row col c hw => ⟨(hf i row col c hw).1, (hf i row col c hw).2.1, (hf i row col c hw).2.2.sound⟩

/-- C55: whatever cells a program writes on the sheets of a workbook, in any order and over one another, a reader that splits the saved
    stream into records and substreams and looks long texts up in the shared string table finds on sheet number `i`, in row-major
    order, exactly the places that were written there, each with what was written there last and the cell's format number.
    Missing for the full claim: values outside `Fine`. -/
theorem c55_cells_partial {ar : Nat → Option Nat} (hA : Formula.KnowsArity ar) (h : List (Nat × Cell Val)) (b : Book) (r : Reach h b)
    (hf : All Fine h) (xf : WCell → Nat) (hx : ∀ c, xf c < 65536) (cs : WCell → Nat) (D : Globals.Data) (gs : Globals.St)
    (sheets : List (Sheet.Data (Nat × Val) Note.Note × Sheet.St (Nat × Val)))
    (s s' : Book.St (Globals.Data × Globals.St) (Sheet.Data (Nat × Val) Note.Note × Sheet.St (Nat × Val)))
    (us : List U) (fuel : Nat) (hp : Pours b D sheets) (hok : Saveable (fun c => cellBytes b.labels (xf c) c) D gs sheets) (hs : start (D, gs) sheets s)
    (hrun : Book.run Globals.next (Sheet.next (Note.env (fun c => cellBytes b.labels (xf c) c) cs)) fuel s = .done us s') :
    ∃ bs rs G Rs table, stream us s'.bpos = some bs ∧ records bs = some rs ∧ substreams rs = some (G :: Rs) ∧ sstOf G = some table ∧
      Rs.length = sheets.length ∧ ∀ (i : Nat) R, Rs[i]? = some R → ∃ xs, sheetCells table R = some xs ∧ ReadsBack (Holds ar) h xf i xs := by
  obtain ⟨bs, rs, G, Rs, table, h1, h2, h3, h4, h5, h6⟩ := c55_found_partial hA h b r hf.sound xf hx cs D gs sheets s s' us fuel hp hok hs hrun
  refine ⟨bs, rs, G, Rs, table, h1, h2, h3, h4, h5, fun i R hR => ?_⟩
  obtain ⟨xs, e, hb⟩ := h6 i R hR
  exact ⟨xs, e, hb.mono fun row col c hw x hx => hx.holds (hf i row col c hw).2.2⟩

/-- What is read at a place is determined. -/
theorem ReadsBack.at {H K : Nat → Val → Content → Prop} {h : List (Nat × Cell Val)} {xf : WCell → Nat} {i : Nat} {xs : List ReadCell}
    (hr : ReadsBack H h xf i xs) (hk : ReadsBack K h xf i xs) {row col : Nat} {c : Cell Val} (hw : lastWrite h i row col = some c) :
    ∃ x, H i c.val x ∧ K i c.val x := by
  have h1 := hr.2 row col
  have h2 := hk.2 row col
  rw [hw] at h1 h2
  simp only at h1 h2
  obtain ⟨x, m1, a1, b1, _, c1⟩ := h1
  obtain ⟨y, m2, a2, b2, _, c2⟩ := h2
  have hxy : x = y := by
    obtain ⟨k, hk, rfl⟩ := List.getElem_of_mem m1
    obtain ⟨l, hl, rfl⟩ := List.getElem_of_mem m2
    have hp := List.pairwise_iff_getElem.mp hr.1
    rcases Nat.lt_trichotomy k l with hlt | heq | hgt
    · have := hp k l hk hl hlt; omega
    · subst heq; rfl
    · have := hp l k hl hk hgt; omega
  subst hxy
  exact ⟨x.content, c1, c2⟩

/-- The full claim fails: if a text whose encoding does not fit one record survives, or an unsigned integer from 0xE0000000 up, what is
    read is not what was written. -/
theorem c55_lost {ar : Nat → Option Nat} (hA : Formula.KnowsArity ar) (h : List (Nat × Cell Val)) (b : Book) (r : Reach h b)
    (hf : All Sound h) (xf : WCell → Nat) (hx : ∀ c, xf c < 65536) (cs : WCell → Nat) (D : Globals.Data) (gs : Globals.St)
    (sheets : List (Sheet.Data (Nat × Val) Note.Note × Sheet.St (Nat × Val)))
    (s s' : Book.St (Globals.Data × Globals.St) (Sheet.Data (Nat × Val) Note.Note × Sheet.St (Nat × Val)))
    (us : List U) (fuel : Nat) (hp : Pours b D sheets) (hok : Saveable (fun c => cellBytes b.labels (xf c) c) D gs sheets) (hs : start (D, gs) sheets s)
    (hrun : Book.run Globals.next (Sheet.next (Note.env (fun c => cellBytes b.labels (xf c) c) cs)) fuel s = .done us s')
    {i row col : Nat} {c : Cell Val} (hi : i < sheets.length) (hw : lastWrite h i row col = some c)
    (hbad : (∃ t, c.val = .text t ∧ 8224 < t.length + 3 + (if ∀ c ∈ t, c ≤ 0x7F then 0 else t.length)) ∨ ∃ n, c.val = .unsigned n ∧ 0xE0000000 ≤ n) :
    ∃ bs rs G Rs table R xs, stream us s'.bpos = some bs ∧ records bs = some rs ∧ substreams rs = some (G :: Rs) ∧ sstOf G = some table ∧
      Rs[i]? = some R ∧ sheetCells table R = some xs ∧ ¬ ReadsBack (Holds ar) h xf i xs := by
  obtain ⟨bs, rs, G, Rs, table, h1, h2, h3, h4, h5, h6⟩ := c55_found_partial hA h b r hf xf hx cs D gs sheets s s' us fuel hp hok hs hrun
  have hiR : i < Rs.length := by omega
  obtain ⟨xs, e, hb⟩ := h6 i Rs[i] (by simp [hiR])
  refine ⟨bs, rs, G, Rs, table, Rs[i], xs, h1, h2, h3, h4, by simp [hiR], e, fun hH => ?_⟩
  obtain ⟨x, f1, f2⟩ := hb.at hH hw
  rcases hbad with ⟨t, ht, hl⟩ | ⟨n, hn, hl⟩
  · rw [ht] at f1 f2
    simp only [Found, Holds] at f1 f2
    rw [f2] at f1
    have hst : Sst.stored t = t := (Content.text.inj f1).symm
    unfold Sst.stored at hst
    rw [if_neg (by omega)] at hst
    rw [← hst] at hl
    revert hl
    decide
  · rw [hn] at f1 f2
    simp only [Found, Holds] at f1 f2
    obtain ⟨v, rfl, hv⟩ := f1
    obtain ⟨v', e', hv'⟩ := f2
    simp only [Content.simple.injEq, Num.Content.number.injEq] at e'
    subst e'
    rw [if_neg (by omega)] at hv
    have := Num.c23_value_unique hv hv'
    omega

end Xls.Whole
