import Verif.Page.Calls
import Verif.Whole.File
/-
C59: what belongs to a sheet besides its cells is read from the saved file as it was asked for.
-/
namespace Xls.Page
open Xls.Biff Xls.Sheet Xls.Cells Xls.Book Xls.Save Xls.Whole

/-- Calls within the limits of the file format and of the library, but for the default height of rows. -/
def InLimits : Act → Prop
  | .call (.colwidth c _ x) => c.toNat < 65536 ∧ x.getD 15 < 65536
  | .call (.rowheight ..) => True
  | .call (.merge r1 c1 r2 c2) => r1.toNat < 65536 ∧ c1.toNat < 65536 ∧ r2.toNat < 65536 ∧ c2.toNat < 65536
  | .call (.hyperLink r c u m) => r.toNat < 65536 ∧ c.toNat < 65536 ∧ u.length < 2 ^ 30 ∧ m.length < 2 ^ 30
  | .call (.validate v) => v.options < 2 ^ 32 ∧ v.promptTitle.length < 65536 ∧ v.errorTitle.length < 65536 ∧ v.promptText.length < 65536 ∧
    v.errorText.length < 65536 ∧
    (∀ n bs, v.cond1 = some (n, bs) → n = bs.length ∧ n < 65536) ∧ (∀ n bs, v.cond2 = some (n, bs) → n = bs.length ∧ n < 65536) ∧
    v.rect.firstRow < 65536 ∧ v.rect.lastRow < 65536 ∧ v.rect.firstCol < 65536 ∧ v.rect.lastCol < 65536
  | .call (.defRowHeight _) => True
  | .call (.defColWidth _) => True
  | .defRow _ _ => True
  | .split _ _ => True
  | .comment r c _ _ => r.toNat < 65536 ∧ c.toNat < 65536
  | .box .. => True

/-- And a default height that the file can hold, of rows that are not hidden. -/
def Fit (a : Act) : Prop := InLimits a ∧ ∀ h hidden, a.rowHeight = some (h, hidden) → h < 3277 ∧ hidden = false

variable {α : Type}

/-- After calls that fit, the data of the sheet are within the limits. -/
theorem After.inRange {acts : List Act} {D : Data α Note.Note} (h : After acts D) (hf : ∀ a ∈ acts, InLimits a) (hl : acts.length < 2 ^ 32) : InRange D where
  cols := by
    intro c hc
    obtain ⟨h1, -, h3⟩ := (h.cols c).mp hc
    obtain ⟨a, ha, he⟩ := latest_mem h3
    have := hf a ha
    cases a with
    | call k =>
      cases k with
      | colwidth k w x =>
        simp only [Act.column] at he
        by_cases hk : k.toNat = c.first
        · rw [if_pos hk] at he
          simp only [Option.some.injEq, Prod.mk.injEq] at he
          obtain ⟨t1, t2⟩ := this
          rw [h1, ← hk, ← he.1, ← he.2]
          exact ⟨t1, t1, w.toNat_lt, t2⟩
        · rw [if_neg hk] at he; cases he
      | _ => cases he
    | _ => cases he
  merged := by
    intro r hr
    rw [h.merged] at hr
    obtain ⟨a, ha, he⟩ := List.mem_filterMap.mp hr
    have := hf a ha
    cases a with
    | call k =>
      cases k with
      | merge r1 c1 r2 c2 =>
        simp only [Act.merge, Option.some.injEq] at he
        subst he
        obtain ⟨t1, t2, t3, t4⟩ := this
        exact ⟨t1, t3, t2, t4⟩
      | _ => cases he
    | _ => cases he
  links := by
    intro l hl
    rw [h.links] at hl
    obtain ⟨a, ha, he⟩ := List.mem_filterMap.mp hl
    have := hf a ha
    cases a with
    | call k =>
      cases k with
      | hyperLink r c u m =>
        simp only [Act.link, Option.map_some, Option.some.injEq] at he
        subst he
        exact ⟨Nat.mod_lt _ (by omega), Nat.mod_lt _ (by omega), this.2.2⟩
      | _ => cases he
    | _ => cases he
  dvals := by
    intro v hv
    exact hf _ (h.dvalsMem v hv)
  few := by
    have := congrArg List.length h.dvals
    rw [List.length_map] at this
    rw [this]
    exact Nat.lt_of_le_of_lt (List.length_filterMap_le _ _) hl
  notes := by
    intro n hn
    obtain ⟨a, ha, he⟩ := latest_mem (h.notes n hn)
    have := hf a ha
    cases a with
    | comment r c a t =>
      simp only [Act.remark] at he
      by_cases hk : r.toNat = n.row.toNat ∧ c.toNat = n.col.toNat
      · rw [if_pos hk] at he
        simp only [Option.some.injEq, Prod.mk.injEq] at he
        obtain ⟨t1, t2⟩ := this
        have := signed_length a
        rw [← hk.1, ← hk.2, ← he.1]
        exact ⟨t1, t2, by omega⟩
      · rw [if_neg hk] at he; cases he
    | _ => cases he
  split := by
    have e1 := congrArg Prod.fst h.split
    have e2 := congrArg Prod.snd h.split
    simp only at e1 e2
    rw [e1, e2]
    cases hx : latest Act.freeze acts with
    | none => simp
    | some p =>
      obtain ⟨a, ha, he⟩ := latest_mem hx
      cases a with
      | split r c =>
        simp only [Act.freeze, Option.some.injEq] at he
        subst he
        exact ⟨r.toNat_lt, c.toNat_lt⟩
      | _ => cases he

theorem filterMap_same {β γ : Type} {f g : β → Option γ} {l : List β} (h : ∀ a ∈ l, f a = g a) : l.filterMap f = l.filterMap g := by
  induction l with
  | nil => rfl
  | cons a r ih => rw [List.filterMap_cons, List.filterMap_cons, h a (by simp), ih fun b hb => h b (by simp [hb])]

/-- The page of a sheet after calls that fit is what they asked for. -/
theorem After.asked {acts : List Act} {D : Data α Note.Note} (h : After acts D) (hb : AfterBoxes acts D) (hf : ∀ a ∈ acts, Fit a) : Asked acts (pageOf D) where
  rowHeight := by
    show D.defRowHeight * 20 % 65536 = _
    rw [h.rowHeight]
    cases hx : latest Act.rowHeight acts with
    | none => rfl
    | some p =>
      obtain ⟨a, ha, he⟩ := latest_mem hx
      have := ((hf a ha).2 p.1 p.2 he).1
      simp only [Option.getD_some]
      omega
  rowsHidden := by
    show false = _
    cases hx : latest Act.rowHeight acts with
    | none => rfl
    | some p =>
      obtain ⟨a, ha, he⟩ := latest_mem hx
      exact ((hf a ha).2 p.1 p.2 he).2.symm
  colWidth := by
    show D.defColWidth % 65536 = _
    rw [h.colWidth]
    cases hx : latest Act.colWidth acts with
    | none => rfl
    | some p =>
      obtain ⟨a, ha, he⟩ := latest_mem hx
      cases a with
      | call k =>
        cases k with
        | defColWidth w =>
          simp only [Act.colWidth, Option.some.injEq] at he
          subst he
          have := w.toNat_lt
          simp only [Option.getD_some]
          omega
        | _ => cases he
      | _ => cases he
  colOrder := by
    show (D.cols.map _).Pairwise _
    rw [List.pairwise_map]
    refine h.colOrder.imp fun {a b} hab => ?_
    rw [klt_iff] at hab
    simp only [ColInfo.key] at hab
    omega
  columns := by
    intro f l w x
    show (f, l, w, x) ∈ D.cols.map _ ↔ _
    rw [List.mem_map]
    constructor
    · rintro ⟨c, hc, e⟩
      simp only [Prod.mk.injEq] at e
      obtain ⟨rfl, rfl, rfl, rfl⟩ := e
      obtain ⟨m1, -, m3⟩ := (h.cols c).mp hc
      exact ⟨m1, c.xf, m3, rfl⟩
    · rintro ⟨rfl, y, hy, rfl⟩
      exact ⟨⟨l, l, w, y, 0⟩, (h.cols _).mpr ⟨rfl, rfl, hy⟩, rfl⟩
  merged := h.merged
  pane := by
    show (if D.rowSplit ≠ 0 ∨ D.colSplit ≠ 0 then _ else _) = _
    have e1 := congrArg Prod.fst h.split
    have e2 := congrArg Prod.snd h.split
    simp only at e1 e2
    rw [e1, e2]
    cases latest Act.freeze acts with
    | none => rfl
    | some p =>
      obtain ⟨r, c⟩ := p
      simp only [Option.getD_some]
      cases r with
      | zero =>
        cases c with
        | zero => rfl
        | succ c => simp [panes]
      | succ r =>
        cases c with
        | zero => simp [panes]
        | succ c => simp [panes]
  links := by
    show D.links = _
    rw [h.links]
    refine filterMap_same fun a ha => ?_
    have := (hf a ha).1
    cases a with
    | call k =>
      cases k with
      | hyperLink r c u m =>
        simp only [Act.link, Option.map_some]
        rw [Nat.mod_eq_of_lt this.1, Nat.mod_eq_of_lt this.2.1]
      | _ => rfl
    | _ => rfl
  validations := h.dvals
  commentOrder := by
    show (D.notes.map _).Pairwise _
    rw [List.pairwise_map]
    refine h.noteOrder.imp fun {a b} hab => ?_
    rw [klt_iff] at hab
    exact hab
  comments := by
    intro r c a s
    show _ ∈ D.notes.map _ ↔ _
    rw [List.mem_map]
    constructor
    · rintro ⟨n, hn, e⟩
      simp only [Comment.mk.injEq] at e
      obtain ⟨rfl, rfl, rfl, rfl⟩ := e
      exact ⟨n.text, h.notes n hn, rfl⟩
    · rintro ⟨t, ht, rfl⟩
      obtain ⟨n, hn, rfl, rfl, rfl, rfl⟩ := h.noteAll r c a t ht
      exact ⟨n, hn, rfl⟩
  boxOrder := by
    show (D.notes.map _).map _ = (D.notes.map _).map _
    rw [List.map_map, List.map_map]
    rfl
  boxes := by
    intro b hm
    obtain ⟨n, hn, rfl⟩ := List.mem_map.mp hm
    exact hb n hn
  view := rfl
  letters := by
    show D.notes.map _ = (D.notes.map _).map _
    rw [List.map_map]
    rfl

/-- The records of a cell have the types of cell records. -/
theorem cellRecords_types (labels : List Sst.LCell) (xf : Nat) (c : WCell) : ∀ r ∈ (cellRecords labels xf c).getD [], r.1 ∈ cellTypes := by
  have hfr : ∀ row col xf array e tok, ∀ r ∈ Formula.formulaRecords row col xf array e tok, r.1 ∈ cellTypes := by
    intro row col xf array e tok r hr
    unfold Formula.formulaRecords at hr
    have hs : ∀ r ∈ Formula.strRecords e.val, r.1 ∈ cellTypes := by
      intro r hr
      unfold Formula.strRecords at hr
      split at hr
      · simp only [List.mem_singleton] at hr; subst hr; simp [cellTypes]
      · cases hr
    rcases List.mem_append.mp hr with hr | hr
    · cases array
      · simp at hr; subst hr; simp [cellTypes]
      · simp at hr; rcases hr with rfl | rfl <;> simp [cellTypes]
    · exact hs r hr
  intro r hr
  unfold cellRecords at hr
  split at hr
  · simp [Num.blankRecord] at hr; subst hr; simp [cellTypes]
  · simp only [Option.getD_some, List.mem_singleton] at hr; subst hr; unfold Sst.labelRec; simp only; split <;> simp [cellTypes]
  · simp only [Option.getD_some, List.mem_singleton] at hr; subst hr; unfold Num.numberRecord; split <;> simp [cellTypes]
  · simp only [Option.getD_some, List.mem_singleton] at hr; subst hr; unfold Num.numberRecord; split <;> simp [cellTypes]
  · simp only [Option.getD_some, List.mem_singleton] at hr; subst hr; unfold Num.numberRecord; split <;> simp [cellTypes]
  · simp [Num.boolRecord] at hr; subst hr; simp [cellTypes]
  · simp [Num.errRecord] at hr; subst hr; simp [cellTypes]
  · rename_i array e heq
    cases hd : Formula.dump (some c.val.1) e with
    | none => rw [hd] at hr; cases hr
    | some p => rw [hd] at hr; exact hfr _ _ _ _ _ _ r hr
  · exact hfr _ _ _ _ _ _ r hr

/-- The sheets of a save got their settings by these calls, made on new sheets (cells come from elsewhere). -/
def Set (acts : Nat → List Act) (sheets : List (Data (Nat × Val) Note.Note × Sheet.St (Nat × Val))) : Prop :=
  ∀ (i : Nat) sh, sheets[i]? = some sh → ∃ D0, sh.1 = applyAll (new D0) (acts i)

/-- One sheet. -/
theorem sheet_page {ar : Nat → Option Nat} (hA : Formula.KnowsArity ar) {h : List (Nat × Cell Val)} {b : Whole.Book} (r : Reach h b)
    (hf : All Sound h) (hn : b.labels.length ≤ 2 ^ 32) {table : List (List UInt16)} (ht : b.labels.mapM Cell.val = some table)
    {xf : WCell → Nat} (hx : ∀ c, xf c < 65536) {cs : WCell → Nat} {i : Nat} {D : Data (Nat × Val) Note.Note} {st : Sheet.St (Nat × Val)}
    (hc : D.cells = (b.sheets i).cells) (hs : Ready D st) (hlen : D.cells.length < 2 ^ 32) (h16 : D.notes.length ≤ 65535)
    (hno : ∀ n ∈ D.notes, n.full.length ≤ 3900) {fuel off : Nat} {us : List U} {x : Data (Nat × Val) Note.Note × Sheet.St (Nat × Val)}
    (hd : drain (next (Note.env (fun c => cellBytes b.labels (xf c) c) cs)) fuel off 0 (D, st) = .done us x)
    {R : List Rec} (hR : ShowsL (fun _ => none) us R) {acts : List Act} (ha : ∃ D0, D = applyAll (new D0) acts) (hfit : ∀ a ∈ acts, InLimits a)
    (hl : acts.length < 2 ^ 32) : readPage R = some (pageOf D) ∧ After acts D ∧ AfterBoxes acts D := by
  obtain ⟨D0, rfl⟩ := ha
  have hA' := after_all D0 acts
  refine ⟨page_reads (recs := fun c => (cellRecords b.labels (xf c) c).getD []) ?_ hs hlen h16 hno hd hR (hA'.inRange hfit hl), hA',
    boxes_all D0 acts⟩
  intro c hcm
  rw [hc] at hcm
  exact ⟨(cell_is hA r hf hn ht hx hcm).1, cellRecords_types _ _ _⟩

/-- All sheets. -/
theorem pages {ar : Nat → Option Nat} (hA : Formula.KnowsArity ar) (h : List (Nat × Cell Val)) (b : Whole.Book) (r : Reach h b)
    (hf : All Sound h) (xf : WCell → Nat) (hx : ∀ c, xf c < 65536) (cs : WCell → Nat) (D : Globals.Data) (gs : Globals.St)
    (sheets : List (Data (Nat × Val) Note.Note × Sheet.St (Nat × Val)))
    (s s' : Book.St (Globals.Data × Globals.St) (Data (Nat × Val) Note.Note × Sheet.St (Nat × Val)))
    (us : List U) (fuel : Nat) (hp : Pours b D sheets) (hok : Saveable (fun c => cellBytes b.labels (xf c) c) D gs sheets) (hs : start (D, gs) sheets s)
    (hrun : Book.run Globals.next (Sheet.next (Note.env (fun c => cellBytes b.labels (xf c) c) cs)) fuel s = .done us s')
    (acts : Nat → List Act) (ha : Set acts sheets) (hfit : ∀ i, ∀ a ∈ acts i, InLimits a) (hl : ∀ i, (acts i).length < 2 ^ 32) :
    ∃ bs rs G Rs, stream us s'.bpos = some bs ∧ records bs = some rs ∧ substreams rs = some (G :: Rs) ∧ Rs.length = sheets.length ∧
      ∀ (i : Nat) R, Rs[i]? = some R → ∃ sh, sheets[i]? = some sh ∧ readPage R = some (pageOf sh.1) ∧ After (acts i) sh.1 ∧ AfterBoxes (acts i) sh.1 := by
  obtain ⟨bs, G, Rs, gus, uss, offs, A, B, P, -⟩ := saved_parts hok hs hrun
  obtain ⟨hu, hv, ho, hst, hoff⟩ := sheetsTrace_parts P.sheetsTrace
  refine ⟨bs, _, G, Rs, P.strm, P.recs, P.subs, P.len.1, ?_⟩
  intro i R hR
  have hlt : i < sheets.length := by rw [← P.len.1]; exact (List.getElem?_eq_some_iff.mp hR).1
  have hiu : i < uss.length := by rw [hu]; exact hlt
  obtain ⟨sh, sh', o, wl, a, b', c, d⟩ := hst i uss[i] (by simp [hiu])
  obtain ⟨f, hd⟩ := d.drain
  obtain ⟨r1, r2, r3⟩ := hok.ready sh (List.mem_of_getElem? a)
  obtain ⟨R', hR', hsh⟩ := P.showsR i uss[i] (by simp [hiu])
  rw [hR] at hR'
  obtain rfl := Option.some.inj hR'
  have hun : ShowsL (fun _ => none) uss[i] R := hsh.untag (by
    obtain ⟨bs, _, e, _⟩ := Sheet.drain_done r1 r2 r3 hd
    rw [e]
    intro u hu
    obtain ⟨e, _, rfl⟩ := List.mem_map.mp hu
    rfl)
  exact ⟨sh, a, sheet_page hA r hf (by rw [← mapM_length hp.labels]; exact hp.few) hp.labels hx (hp.cells i sh a) r1 r2 r3
    (hok.notes sh (List.mem_of_getElem? a)) hd hun (ha i sh a) (hfit i) (hl i)⟩

/-- C59: whatever calls a program makes on the sheets of a workbook, and whatever cells it writes, a reader that splits the saved stream
    into records and substreams finds on each sheet the default row height and column width, the columns' widths and formats, the merged
    rectangles, the frozen panes, the hyperlinks, the data validations and the comments that the calls asked for.  Missing for the full
    claim: calls outside `Fit`; there it is false for hidden default rows and default heights from 3277 points up
    (`c59_default_rows_lost`). -/
theorem c59_page_partial {ar : Nat → Option Nat} (hA : Formula.KnowsArity ar) (h : List (Nat × Cell Val)) (b : Whole.Book) (r : Reach h b)
    (hf : All Sound h) (xf : WCell → Nat) (hx : ∀ c, xf c < 65536) (cs : WCell → Nat) (D : Globals.Data) (gs : Globals.St)
    (sheets : List (Data (Nat × Val) Note.Note × Sheet.St (Nat × Val)))
    (s s' : Book.St (Globals.Data × Globals.St) (Data (Nat × Val) Note.Note × Sheet.St (Nat × Val)))
    (us : List U) (fuel : Nat) (hp : Pours b D sheets) (hok : Saveable (fun c => cellBytes b.labels (xf c) c) D gs sheets) (hs : start (D, gs) sheets s)
    (hrun : Book.run Globals.next (Sheet.next (Note.env (fun c => cellBytes b.labels (xf c) c) cs)) fuel s = .done us s')
    (acts : Nat → List Act) (ha : Set acts sheets) (hfit : ∀ i, ∀ a ∈ acts i, Fit a) (hl : ∀ i, (acts i).length < 2 ^ 32) :
    ∃ bs rs G Rs, stream us s'.bpos = some bs ∧ records bs = some rs ∧ substreams rs = some (G :: Rs) ∧
      Rs.length = sheets.length ∧ ∀ (i : Nat) R, Rs[i]? = some R → ∃ P, readPage R = some P ∧ Asked (acts i) P := by
  obtain ⟨bs, rs, G, Rs, h1, h2, h3, h4, h5⟩ := pages hA h b r hf xf hx cs D gs sheets s s' us fuel hp hok hs hrun acts ha (fun i a m => (hfit i a m).1) hl
  refine ⟨bs, rs, G, Rs, h1, h2, h3, h4, fun i R hR => ?_⟩
  obtain ⟨sh, -, e, ht⟩ := h5 i R hR
  exact ⟨_, e, ht.1.asked ht.2 (hfit i)⟩

/-- The full claim fails: if rows without a height of their own were last asked to be hidden, or to be at least 3277 points high, a reader
    finds something else. -/
theorem c59_default_rows_lost {ar : Nat → Option Nat} (hA : Formula.KnowsArity ar) (h : List (Nat × Cell Val)) (b : Whole.Book) (r : Reach h b)
    (hf : All Sound h) (xf : WCell → Nat) (hx : ∀ c, xf c < 65536) (cs : WCell → Nat) (D : Globals.Data) (gs : Globals.St)
    (sheets : List (Data (Nat × Val) Note.Note × Sheet.St (Nat × Val)))
    (s s' : Book.St (Globals.Data × Globals.St) (Data (Nat × Val) Note.Note × Sheet.St (Nat × Val)))
    (us : List U) (fuel : Nat) (hp : Pours b D sheets) (hok : Saveable (fun c => cellBytes b.labels (xf c) c) D gs sheets) (hs : start (D, gs) sheets s)
    (hrun : Book.run Globals.next (Sheet.next (Note.env (fun c => cellBytes b.labels (xf c) c) cs)) fuel s = .done us s')
    (acts : Nat → List Act) (ha : Set acts sheets) (hfit : ∀ i, ∀ a ∈ acts i, InLimits a) (hl : ∀ i, (acts i).length < 2 ^ 32)
    {i height : Nat} {hidden : Bool} (hi : i < sheets.length) (hlast : latest Act.rowHeight (acts i) = some (height, hidden))
    (hbad : hidden = true ∨ 3277 ≤ height) :
    ∃ bs rs G Rs R P, stream us s'.bpos = some bs ∧ records bs = some rs ∧ substreams rs = some (G :: Rs) ∧ Rs[i]? = some R ∧
      readPage R = some P ∧ P.rowsHidden = false ∧ P.rowHeight = 20 * height % 65536 ∧ ¬ Asked (acts i) P := by
  obtain ⟨bs, rs, G, Rs, h1, h2, h3, h4, h5⟩ := pages hA h b r hf xf hx cs D gs sheets s s' us fuel hp hok hs hrun acts ha hfit hl
  have hiR : i < Rs.length := by omega
  obtain ⟨sh, -, e, ht⟩ := h5 i Rs[i] (by simp [hiR])
  have hh : (pageOf sh.1).rowHeight = 20 * height % 65536 := by
    show sh.1.defRowHeight * 20 % 65536 = _
    rw [ht.1.rowHeight, hlast, Option.getD_some, Nat.mul_comm]
  refine ⟨bs, rs, G, Rs, Rs[i], _, h1, h2, h3, by simp [hiR], e, rfl, hh, fun hA => ?_⟩
  rcases hbad with rfl | hb
  · have := hA.rowsHidden
    rw [hlast] at this
    cases this
  · have := hA.rowHeight
    rw [hlast, hh, Option.getD_some] at this
    simp only at this
    omega

/-- The names of the sheets and what belongs to them besides the cells, by a reader that follows the sheet table. -/
def openPages (w : Bytes) : Option (List (List UInt16 × Page)) :=
  (openBook w).bind fun l => l.mapM fun p => (readPage p.2).map (p.1, ·)

/-- C59 for a reader that follows the sheet table.  Missing for the full claim: as in `c59_page_partial`, and workbooks with a record above
    8224 bytes, where the sheet table is wrong (C22). -/
theorem c59_open_partial {ar : Nat → Option Nat} (hA : Formula.KnowsArity ar) (h : List (Nat × Cell Val)) (b : Whole.Book) (r : Reach h b)
    (hf : All Sound h) (xf : WCell → Nat) (hx : ∀ c, xf c < 65536) (cs : WCell → Nat) (D : Globals.Data) (gs : Globals.St)
    (sheets : List (Data (Nat × Val) Note.Note × Sheet.St (Nat × Val)))
    (s s' : Book.St (Globals.Data × Globals.St) (Data (Nat × Val) Note.Note × Sheet.St (Nat × Val)))
    (us : List U) (fuel : Nat) (hp : Pours b D sheets) (hok : Saveable (fun c => cellBytes b.labels (xf c) c) D gs sheets) (hs : start (D, gs) sheets s)
    (hrun : Book.run Globals.next (Sheet.next (Note.env (fun c => cellBytes b.labels (xf c) c) cs)) fuel s = .done us s')
    (hsm : SmallGlobals D) (hsh : ∀ sh ∈ sheets, SmallSheet (fun c => cellBytes b.labels (xf c) c) sh.1)
    (acts : Nat → List Act) (ha : Set acts sheets) (hfit : ∀ i, ∀ a ∈ acts i, Fit a) (hl : ∀ i, (acts i).length < 2 ^ 32) :
    ∃ bs, stream us s'.bpos = some bs ∧ (bs.length < 2 ^ 32 → ∀ pad, ∃ L, openPages (bs ++ pad) = some ((D.bounds.map (·.name)).zip L) ∧
      L.length = sheets.length ∧ ∀ (i : Nat) P, L[i]? = some P → Asked (acts i) P ∧
        ∀ sh, sheets[i]? = some sh → P.selected = sh.1.active ∧ P.displayed = sh.1.active) := by
  obtain ⟨bs, Rs, e1, e2, e3, e4⟩ := c43_open_partial _ cs D gs sheets s s' us fuel hok hs hsm hrun hsh
  refine ⟨bs, e1, fun h32 pad => ?_⟩
  have hread : ∀ (i : Nat) R, Rs[i]? = some R → ∃ P, readPage R = some P ∧ (Asked (acts (0 + i)) P ∧
      ∀ sh, sheets[0 + i]? = some sh → P.selected = sh.1.active ∧ P.displayed = sh.1.active) := by
    intro i R hR
    rw [Nat.zero_add]
    have hlt : i < sheets.length := by rw [← e2]; exact (List.getElem?_eq_some_iff.mp hR).1
    have hg : sheets[i]? = some sheets[i] := by simp [hlt]
    obtain ⟨R', vs, f, off, x, h1, h2, h3⟩ := e4 i sheets[i] hg
    rw [hR] at h1
    obtain rfl := Option.some.inj h1
    have hm : sheets[i] ∈ sheets := List.getElem_mem hlt
    obtain ⟨r1, r2, r3⟩ := hok.ready _ hm
    obtain ⟨q1, q2⟩ := sheet_page hA r hf (by rw [← mapM_length hp.labels]; exact hp.few) hp.labels hx (hp.cells i _ hg) r1 r2 r3
      (hok.notes _ hm) h2 h3 (ha i _ hg) (fun a m => (hfit i a m).1) (hl i)
    refine ⟨_, q1, q2.1.asked q2.2 (hfit i), fun sh hsh => ?_⟩
    rw [hg] at hsh
    obtain rfl := Option.some.inj hsh
    exact ⟨rfl, rfl⟩
  obtain ⟨L, l1, l2, l3⟩ := mapM_zip (f := readPage) (Q := fun i P => Asked (acts i) P ∧
    ∀ sh, sheets[i]? = some sh → P.selected = sh.1.active ∧ P.displayed = sh.1.active) (D.bounds.map (·.name)) Rs 0
    (by rw [List.length_map, hok.count, e2]) hread
  refine ⟨L, ?_, by rw [l2, e2], fun i P hi => by have := l3 i P hi; rwa [Nat.zero_add] at this⟩
  unfold openPages
  rw [e3 h32, Option.bind_some, l1]

end Xls.Page
