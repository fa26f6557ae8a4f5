import Verif.Store.Estimate
import Verif.Store.Saved
import Verif.Save.File
/-
When the estimate is large enough.
-/
namespace Xls.Store
open Xls.Biff Xls.Book Xls.Cells Xls.Rows

variable {α : Type} {grow : Nat → Nat}

/-- The number of runs of equal rows; the row before the first cell is given. -/
def runsFrom (n : Nat) : List (Cell α) → Nat
  | [] => 0
  | c :: r => (if c.row = n then 0 else 1) + runsFrom c.row r

def runs : List (Cell α) → Nat
  | [] => 0
  | c :: r => 1 + runsFrom c.row r

theorem runs_cons (c : Cell α) (r : List (Cell α)) : runs (c :: r) = 1 + runsFrom c.row r := rfl

theorem runsFrom_same {n : Nat} {c : Cell α} (h : c.row = n) (r : List (Cell α)) : runsFrom n (c :: r) = runsFrom n r := by
  rw [runsFrom, if_pos h, h]; omega

theorem runsFrom_other {n : Nat} {c : Cell α} (h : c.row ≠ n) (r : List (Cell α)) : runsFrom n (c :: r) = 1 + runsFrom c.row r := by
  rw [runsFrom, if_neg h]

theorem sizeLoop_runs (gsize : Cell α → Nat) (l : List (Cell α)) : ∀ num rows n bytes,
    (sizeLoop gsize num rows n bytes l).rows + runs (sizeLoop gsize num rows n bytes l).rest = rows + runsFrom num l ∧
    (sizeLoop gsize num rows n bytes l).cells + (sizeLoop gsize num rows n bytes l).rest.length = n + l.length := by
  induction l with
  | nil => intro num rows n bytes; simp [sizeLoop, runs, runsFrom]
  | cons c r ih =>
    intro num rows n bytes
    simp only [sizeLoop]
    by_cases hc : c.row = num
    · rw [if_neg (by simpa using hc)]
      obtain ⟨a, b⟩ := ih num rows (n + 1) (bytes + gsize c)
      rw [a, b, runsFrom_same hc, List.length_cons]
      omega
    · rw [if_pos hc]
      by_cases hm : rows ≥ maxRows
      · rw [if_pos hm, runsFrom_other hc]
        exact ⟨rfl, rfl⟩
      · rw [if_neg hm]
        obtain ⟨a, b⟩ := ih c.row (rows + 1) (n + 1) (bytes + gsize c)
        rw [a, b, runsFrom_other hc, List.length_cons]
        omega

theorem rowCounts_sums (gsize : Cell α → Nat) (cells : List (Cell α)) : ((rowCounts gsize cells).map (·.1)).sum = runs cells ∧
    ((rowCounts gsize cells).map (·.2)).sum = cells.length := by
  match cells with
  | [] => rw [rowCounts]; simp [runs]
  | c :: r =>
    have hr := sizeLoop_rest gsize r c.row 1 1 (gsize c)
    obtain ⟨a, b⟩ := sizeLoop_runs gsize r c.row 1 1 (gsize c)
    obtain ⟨d, e⟩ := rowCounts_sums gsize (sizeLoop gsize c.row 1 1 (gsize c) r).rest
    rw [rowCounts]
    simp only [List.map_cons, List.sum_cons, d, e, runs_cons, List.length_cons]
    omega
termination_by cells.length
decreasing_by simp only [List.length_cons]; omega

theorem runs_drop (n : Nat) (l : List (Cell α)) : runs (l.dropWhile fun x => x.row == n) ≤ runsFrom n l := by
  induction l with
  | nil => simp [runs, runsFrom]
  | cons c r ih =>
    by_cases hc : c.row = n
    · rw [List.dropWhile_cons_of_pos (by simpa using hc)]
      rw [runsFrom_same hc]
      exact ih
    · rw [List.dropWhile_cons_of_neg (by simpa using hc), runsFrom_other hc, runs_cons]
      omega

theorem takeRows_count : ∀ (k : Nat) (cur : List (Cell α)) (hts : List RowHeight),
    (takeRows k cur hts).1.length + runs (takeRows k cur hts).2.1 + (takeRows k cur hts).2.2.length ≤ runs cur + hts.length := by
  intro k
  induction k with
  | zero => intro cur hts; simp [takeRows]
  | succ k ih =>
    intro cur hts
    cases cur with
    | nil => simp [takeRows]
    | cons c r =>
      simp only [takeRows, List.length_cons]
      have h := ih (nextRow c r hts).2.1 (nextRow c r hts).2.2
      have hn : runs (nextRow c r hts).2.1 + (nextRow c r hts).2.2.length + 1 ≤ runs (c :: r) + hts.length := by
        have hd := runs_drop c.row r
        cases hts with
        | nil =>
          have e : nextRow c r [] = (⟨c.row, none, (c :: r).takeWhile (fun x => x.row == c.row)⟩, (c :: r).dropWhile (fun x => x.row == c.row), []) := rfl
          rw [e, runs_cons, List.dropWhile_cons_of_pos (by simp)]
          simp only [List.length_nil]
          omega
        | cons g t =>
          have e : nextRow c r (g :: t) = (⟨rowNum c (g :: t), (takeHeight (rowNum c (g :: t)) (g :: t)).1, (c :: r).takeWhile (fun x => x.row == rowNum c (g :: t))⟩,
            (c :: r).dropWhile (fun x => x.row == rowNum c (g :: t)), (takeHeight (rowNum c (g :: t)) (g :: t)).2) := rfl
          rw [e]
          simp only
          by_cases hg : c.row > g.row
          · have en : rowNum c (g :: t) = g.row := by rw [rowNum, if_pos hg]
            have et : takeHeight g.row (g :: t) = (some g, t) := by simp [takeHeight]
            rw [en, et, List.dropWhile_cons_of_neg (by simp; omega)]
            exact Nat.le_refl _
          · have en : rowNum c (g :: t) = c.row := by rw [rowNum, if_neg hg]
            have et : (takeHeight c.row (g :: t)).2.length ≤ t.length + 1 := by
              simp only [takeHeight]
              split <;> simp
            rw [en, List.dropWhile_cons_of_pos (by simp), runs_cons, List.length_cons]
            omega
      omega

theorem blocks_count (cur : List (Cell α)) (hts : List RowHeight) (bs : List (Block α)) (h : blocks cur hts = some bs) :
    (bs.map fun b => b.rows.length).sum ≤ runs cur + hts.length ∧ ∀ b ∈ bs, b.cells ≠ [] := by
  match hcur : cur with
  | [] => rw [blocks] at h; cases h; simp
  | c :: r =>
    rw [blocks] at h
    have hc := takeRows_count 16 (c :: r) hts
    have hterm := takeRows_shrinks 15 c r hts
    by_cases h1 : cellsOf (takeRows 16 (c :: r) hts).1 = [] ∧ (takeRows 16 (c :: r) hts).2.1.length ≠ 1
    · rw [if_pos h1] at h; simp at h
    · rw [if_neg h1] at h
      by_cases h2 : (takeRows 16 (c :: r) hts).2.1.length = 1
      · rw [if_pos h2] at h
        cases h
        simp only [List.map_cons, List.map_nil, List.sum_cons, List.sum_nil, List.mem_singleton]
        exact ⟨by omega, fun b hb => by subst hb; simp⟩
      · rw [if_neg h2] at h
        obtain ⟨rest, hrest, rfl⟩ := Option.map_eq_some_iff.mp h
        obtain ⟨a, b⟩ := blocks_count _ _ rest hrest
        refine ⟨?_, ?_⟩
        · simp only [List.map_cons, List.sum_cons]; omega
        · intro x hx
          rcases List.mem_cons.mp hx with rfl | hx
          · intro h'; exact h1 ⟨h', h2⟩
          · exact b x hx
termination_by cur.length + hts.length
decreasing_by rw [hcur] at *; exact takeRows_shrinks 15 c r hts

theorem evs_count (size : Cell α → Nat) (bs : List (Block α)) : (bs.flatMap (Block.evs size)).length =
    (bs.map fun b => b.rows.length).sum + (bs.flatMap Block.cells).length + bs.length := by
  induction bs with
  | nil => rfl
  | cons b r ih =>
    simp only [List.flatMap_cons, List.length_append, ih, Block.evs, List.length_map, List.map_cons, List.sum_cons, List.length_cons, List.length_nil]
    omega

theorem blocks_few (bs : List (Block α)) (h : ∀ b ∈ bs, b.cells ≠ []) : bs.length ≤ (bs.flatMap Block.cells).length := by
  induction bs with
  | nil => simp
  | cons b r ih =>
    have := ih fun x hx => h x (by simp [hx])
    have hb := List.length_pos_iff.mpr (h b (by simp))
    simp only [List.flatMap_cons, List.length_append, List.length_cons]
    omega

theorem drawEvs_length {ν : Type} (l : List ν) : ∀ sp k, (Sheet.drawEvs (α := α) sp k l).length = l.length := by
  induction l with
  | nil => intro sp k; rfl
  | cons a r ih => intro sp k; simp [Sheet.drawEvs, ih]

theorem noteEvs_length {ν : Type} (l : List ν) : ∀ k, (Sheet.noteEvs (α := α) k l).length = l.length := by
  induction l with
  | nil => intro k; rfl
  | cons a r ih => intro k; simp [Sheet.noteEvs, ih]

/-- The records of a sheet that nobody estimates: its hyperlinks, its data validations with their header, and its pane. -/
def uncounted (D : Sheet.Data α Note.Note) : Nat := D.links.length + D.dvals.length + 2

theorem layout_count (env : Sheet.Env α Note.Note) (gsize : Cell α → Nat) (D : Sheet.Data α Note.Note) (sp pos : Nat) (bs : List (Block α))
    (hb : blocks D.cells D.heights = some bs) : (Sheet.layout env D sp pos bs).length ≤ sheetEstimate gsize D + uncounted D := by
  obtain ⟨h1, h2⟩ := blocks_count _ _ bs hb
  have h3 := blocks_few bs h2
  obtain ⟨h4, h5⟩ := rowCounts_sums gsize D.cells
  have h6 := blocks_cells _ _ bs hb
  have h7 : (Book.chunks 1027 D.merged).length ≤ D.merged.length := by
    rw [Book.chunks_length (by omega)]
    omega
  have h8 : (Sheet.dvEvs D).length ≤ D.dvals.length + 1 := by
    unfold Sheet.dvEvs
    split <;> simp
  have h9 : (if D.rowSplit ≠ 0 ∨ D.colSplit ≠ 0 then [.pane] else [] : List (Sheet.Ev α Note.Note)).length ≤ 1 := by
    split <;> simp
  rw [h6] at h3
  simp only [Sheet.layout, List.length_append, List.length_map, List.length_cons, List.length_nil, evs_count, h6, drawEvs_length, noteEvs_length,
    sheetEstimate, uncounted, h4, h5]
  omega

theorem pieces_count (us : List U) : (us.flatMap pieces).length ≤ us.length + (us.flatMap pieces).countP fun v => decide (IsContinue v) := by
  induction us with
  | nil => simp
  | cons u r ih =>
    have h : (pieces u).length ≤ 1 + (pieces u).countP fun v => decide (IsContinue v) := by
      unfold pieces
      split
      · have hc : ∀ l : List Bytes, (l.map (contUnit u)).countP (fun v => decide (IsContinue v)) = l.length := by
          intro l
          rw [List.countP_eq_length.mpr, List.length_map]
          intro v hv
          obtain ⟨b, _, rfl⟩ := List.mem_map.mp hv
          simp only [decide_eq_true_eq, IsContinue, contUnit, enc, List.append_assoc]
          rw [List.take_append_of_le_length (by simp [leN_length]), List.take_of_length_le (by simp [leN_length])]
        rw [List.countP_cons, hc, List.length_cons, List.length_map]
        omega
      · simp
    rw [List.flatMap_cons, List.length_append, List.countP_append, List.length_cons]
    omega

theorem globals_count {D : Globals.Data} {g t : List U} (hg : Globals.groupUnits D = some g) (ht : Globals.sstUnits D = some t) :
    (Globals.units D g t).length ≤ headerEstimate D + 5 := by
  have h1 : g.length ≤ 1 := by
    unfold Globals.groupUnits at hg
    obtain ⟨o, _, rfl⟩ := Option.map_eq_some_iff.mp hg
    cases o <;> simp
  have h2 : t.length ≤ D.labels.length := by
    unfold Globals.sstUnits at ht
    split at ht
    · cases ht; simp
    · rename_i he
      obtain ⟨b, _, rfl⟩ := Option.map_eq_some_iff.mp ht
      have : D.labels ≠ [] := by simpa using he
      have := List.length_pos_iff.mpr this
      simp only [List.length_singleton]; omega
  simp only [Globals.units, Globals.headUnits, List.length_append, List.length_map, List.length_cons, List.length_nil, List.length_zipIdx, headerEstimate]
  omega

theorem sheets_count {cd : Cell α → Bytes} {cs : Cell α → Nat} {off : Nat} {sheets sheets' : List (Sheet.Data α Note.Note × Sheet.St α)} {uss : List (List U)}
    {offs : List Nat} (h : SheetsTrace (Sheet.next (Note.env cd cs)) off sheets uss sheets' offs)
    (hr : ∀ x ∈ sheets, Sheet.Ready x.1 x.2 ∧ x.1.cells.length < 2 ^ 32 ∧ x.1.notes.length ≤ 65535) :
    uss.flatten.length ≤ ((sheets.map (·.1)).map (sheetEstimate cs)).sum + (sheets.map fun x => uncounted x.1).sum := by
  induction h with
  | nil => simp
  | @cons off sh us wl sh' rest uss rest' offs ht _ ih =>
    have h1 := ih fun x hx => hr x (by simp [hx])
    obtain ⟨f, hd⟩ := ht.drain
    obtain ⟨r1, r2, r3⟩ := hr sh (by simp)
    obtain ⟨bs, hb, rfl, _⟩ := Sheet.drain_done r1 r2 r3 hd
    have h2 := layout_count (Note.env cd cs) cs sh.1 sh.2.spid off bs hb
    simp only [List.flatten_cons, List.length_append, List.length_map, List.map_cons, List.sum_cons] at h1 ⊢
    omega

/-- C54 where it holds: if the records that nobody estimates, together with the CONTINUE records, are few (hyperlinks, data validations and two
    for each sheet; at most 995 in all), then saving the workbook never uses a record object after it is deleted nor a buffer after it is freed, and
    everything C34 says holds.  (Missing: workbooks with more of them; for these it is false, `c54_hyperlinks`.) -/
theorem c54_few_partial (cd : Cell α → Bytes) (cs : Cell α → Nat) (D : Globals.Data) (gs : Globals.St)
    (sheets : List (Sheet.Data α Note.Note × Sheet.St α)) (s s' : Book.St (Globals.Data × Globals.St) (Sheet.Data α Note.Note × Sheet.St α))
    (us : List U) (fuel : Nat) (hok : Save.Saveable cd D gs sheets) (hs : Book.start (D, gs) sheets s)
    (h : Book.run Globals.next (Sheet.next (Note.env cd cs)) fuel s = .done us s')
    (hfew : (sheets.map fun x => uncounted x.1).sum + us.countP (fun v => decide (IsContinue v)) ≤ 995) :
    ∃ m bs, run grow Globals.next (Sheet.next (Note.env cd cs)) fuel (St.start (D, gs) sheets (estimate cs D (sheets.map (·.1)))) = .done m ∧
      stream us s'.bpos = some bs ∧ m.mem.contents = bs.map some ∧ m.mem.total = bs.length ∧
      (∀ (i : Nat) (u : U), us[i]? = some u → u.tag ≠ none → ∃ e, m.mem.get i = some e) ∧
      ∃ m1, m.mem.close = some m1 ∧ (∀ i, m1.get i = none) ∧ m1.contents = bs.map some := by
  obtain ⟨hl, hp, hlv⟩ := saved_conditions hok hs h
  refine c34_kept_partial (D, gs) sheets s s' us fuel hs h hl hp ?_ hlv
  obtain ⟨gus, g', uss, sheets', offs, h1, h2, h3, h4, h5⟩ := dump_inv hs h hok.some hok.few
  obtain ⟨g, hg, _⟩ := Save.group_some D
  obtain ⟨t, ht⟩ := Globals.sst_some D
  obtain ⟨gs', htr, _⟩ := Globals.trace_units hg ht hok.fonts hok.xfs hok.phase
  obtain ⟨e1, _⟩ := h1.det htr
  have c1 := globals_count hg ht
  have c2 := sheets_count h2 hok.ready
  have c3 := pieces_count (gus ++ uss.flatten)
  rw [← h3, List.length_append, e1] at c3
  refine calm_room ?_
  simp only [estimate]
  omega

/-! ### Where the estimate is too small -/

/-- A sheet with further hyperlinks. -/
def addLinks (L : List Sheet.Link) (x : Sheet.Data α Note.Note × Sheet.St α) : Sheet.Data α Note.Note × Sheet.St α :=
  ({ x.1 with links := x.1.links ++ L }, x.2)

/-- The records of a sheet before its hyperlinks, and after. -/
def beforeLinks (env : Sheet.Env α Note.Note) (D : Sheet.Data α Note.Note) (sp pos : Nat) (bs : List (Block α)) : List (Sheet.Ev α Note.Note) :=
  [.bof, .index (Sheet.indexRows D.cells).1 (Sheet.indexRows D.cells).2 (indexOffsets env.cellSize (pos + 20) D.cols.length D.cells),
    .defRowHeight] ++ D.cols.map .colinfo ++ [.defColWidth, .dimension] ++
  (bs.flatMap (Block.evs fun c => (env.cellData c).length)).map .rb ++
  (Sheet.drawEvs sp 0 D.notes ++ Sheet.noteEvs 0 D.notes) ++ (Book.chunks 1027 D.merged).map .merged ++ [.window2] ++
  (if D.rowSplit ≠ 0 ∨ D.colSplit ≠ 0 then [.pane] else [])

theorem layout_links (env : Sheet.Env α Note.Note) (D : Sheet.Data α Note.Note) (sp pos : Nat) (bs : List (Block α)) :
    Sheet.layout env D sp pos bs = beforeLinks env D sp pos bs ++ (D.links.map .link ++ (Sheet.dvEvs D ++ [.eof])) := by
  simp only [Sheet.layout, beforeLinks, List.append_assoc]

def shortLink : Sheet.Link := ⟨0, 0, [0x61], []⟩

def longLink : Sheet.Link := ⟨0, 0, List.replicate 4200 0x61, []⟩

theorem short_pieces (env : Sheet.Env α Note.Note) (D : Sheet.Data α Note.Note) :
    pieces (Sheet.Ev.unit env D (.link shortLink)) = [Sheet.Ev.unit env D (.link shortLink)] := by
  refine pieces_small (.inr ?_)
  simp only [U.paySize, Sheet.Ev.unit, Sheet.Ev.bytes]
  decide

theorem short_run (env : Sheet.Env α Note.Note) (D : Sheet.Data α Note.Note) (m : Nat) :
    (List.replicate m (Sheet.Ev.unit env D (.link shortLink))).flatMap pieces = List.replicate m (Sheet.Ev.unit env D (.link shortLink)) := by
  induction m with
  | zero => rfl
  | succ m ih => rw [List.replicate_succ, List.flatMap_cons, short_pieces, ih]; rfl

theorem long_pieces (env : Sheet.Env α Note.Note) (D : Sheet.Data α Note.Note) :
    ∃ v w r, pieces (Sheet.Ev.unit env D (.link longLink)) = v :: w :: r ∧ IsContinue w := by
  have hs : (Sheet.hlinkPayload longLink).length = 8454 := by
    simp only [Sheet.hlinkPayload, longLink, List.length_append, leN_length, Save.flatMap_leN_length, List.length_replicate, Sheet.stdLinkGUID, Sheet.urlMonikerGUID,
      List.length_cons, List.length_nil, ne_eq, not_true_eq_false, if_false]
  generalize hu : Sheet.Ev.unit env D (.link longLink) = u
  have hd : u.data = enc (0x1B8, Sheet.hlinkPayload longLink) := by rw [← hu]; rfl
  have hp : u.paySize = 8454 := by
    rw [U.paySize, hd, Save.enc_length, hs]
  have ho : u.oversize = true := by
    rw [U.oversize, hp, show u.cont = false by rw [← hu]; rfl]
    exact decide_eq_true (show 8454 > 8224 by omega)
  unfold pieces
  rw [if_pos ho]
  have hne : (u.data.drop 4).drop maxRec ≠ [] := by
    intro h0
    have := congrArg List.length h0
    simp only [List.length_drop, hd, Save.enc_length, hs, maxRec, List.length_nil] at this
    omega
  rw [chunks, dif_neg (by simp [maxRec, hd, Save.enc_length, hs])]
  refine ⟨_, _, _, rfl, ?_⟩
  simp only [IsContinue, contUnit, enc, List.append_assoc]
  rw [List.take_append_of_le_length (by simp [leN_length]), List.take_of_length_le (by simp [leN_length])]

/-- C54 is false: every workbook whose records fit the estimate can be given hyperlinks (on its first sheet) such that saving it, although it
    ends on the level of records, reads freed memory. -/
theorem c54_hyperlinks (cd : Cell α → Bytes) (cs : Cell α → Nat) (D : Globals.Data) (gs : Globals.St)
    (x : Sheet.Data α Note.Note × Sheet.St α) (rest : List (Sheet.Data α Note.Note × Sheet.St α))
    (s s' : Book.St (Globals.Data × Globals.St) (Sheet.Data α Note.Note × Sheet.St α)) (us : List U) (fuel : Nat)
    (hok : Save.Saveable cd D gs (x :: rest)) (hc : ∀ y ∈ x :: rest, Save.Completes y.1) (hcd : ∀ c, ¬IsContinue { data := cd c })
    (hs : Book.start (D, gs) (x :: rest) s) (h : Book.run Globals.next (Sheet.next (Note.env cd cs)) fuel s = .done us s')
    (hfit : us.length ≤ estimate cs D ((x :: rest).map (·.1))) :
    ∃ L n, ∀ fuel ≥ n,
      (∃ us1 s1, Book.run Globals.next (Sheet.next (Note.env cd cs)) fuel { s with sheets := addLinks L x :: rest } = .done us1 s1) ∧
      run grow Globals.next (Sheet.next (Note.env cd cs)) fuel
        (St.start (D, gs) (addLinks L x :: rest) (estimate cs D ((addLinks L x :: rest).map (·.1)))) = .ub := by
  -- the workbook as it is
  obtain ⟨gus, g', uss, sheets', offs, h1, h2, h3, _, _⟩ := dump_inv hs h hok.some hok.few
  obtain ⟨r1, r2, r3⟩ := hok.ready x (by simp)
  cases h2 with
  | @cons _ _ ux wl x' _ uss _ offs ht hrest =>
  obtain ⟨f, hd⟩ := ht.drain
  obtain ⟨bs, hb, hux, _⟩ := Sheet.drain_done r1 r2 r3 hd
  generalize hoff : (gus.map (·.data.length)).sum = off at *
  generalize hA : (gus ++ ((beforeLinks (Note.env cd cs) x.1 x.2.spid off bs).map (Sheet.Ev.unit (Note.env cd cs) x.1) ++
    (x.1.links.map Sheet.Ev.link).map (Sheet.Ev.unit (Note.env cd cs) x.1))).flatMap pieces = A
  have hAlt : A.length < us.length := by
    rw [h3, hux, layout_links, ← hA]
    have hp : 0 < (pieces (Sheet.Ev.unit (Note.env cd cs) x.1 .eof)).length := by
      unfold pieces; split <;> simp
    simp only [List.flatten_cons, List.map_append, List.flatMap_append, List.length_append, List.map_cons, List.map_nil, List.flatMap_cons, List.flatMap_nil]
    omega
  -- the same with more hyperlinks
  generalize hm : estimate cs D ((x :: rest).map (·.1)) - 1 - A.length = m
  let L := List.replicate m shortLink ++ [longLink]
  have hest : estimate cs D ((addLinks L x :: rest).map (·.1)) = estimate cs D ((x :: rest).map (·.1)) := rfl
  have hok1 : Save.Saveable cd D gs (addLinks L x :: rest) := by
    refine ⟨hok.phase, hok.fonts, hok.xfs, hok.count, by simp, hok.few, ?_, ?_, ?_⟩
    · intro y hy
      rcases List.mem_cons.mp hy with rfl | hy
      · exact ⟨r1, r2, r3⟩
      · exact hok.ready y (by simp [hy])
    · intro y hy c hc
      rcases List.mem_cons.mp hy with rfl | hy
      · exact hok.cells x (by simp) c hc
      · exact hok.cells y (by simp [hy]) c hc
    · intro y hy n hn
      rcases List.mem_cons.mp hy with rfl | hy
      · exact hok.notes x (by simp) n hn
      · exact hok.notes y (by simp [hy]) n hn
  have hc1 : ∀ y ∈ addLinks L x :: rest, Save.Completes y.1 := by
    intro y hy
    rcases List.mem_cons.mp hy with rfl | hy
    · obtain ⟨a, b, d⟩ := hc x (by simp)
      exact ⟨a, b, d⟩
    · exact hc y (by simp [hy])
  have hs1 : Book.start (D, gs) (addLinks L x :: rest) { s with sheets := addLinks L x :: rest } := ⟨hs.1, hs.2.1, rfl, hs.2.2.2⟩
  obtain ⟨n, us1, s1, hrun⟩ := Save.c43_ends_partial cd cs D gs _ _ hok1 hs1 hc1
  refine ⟨L, n, fun fuel hfuel => ⟨⟨us1, s1, hrun fuel hfuel⟩, ?_⟩⟩
  obtain ⟨hl, hp, hlv⟩ := saved_conditions hok1 hs1 (hrun fuel hfuel)
  rw [c54_dangling (D, gs) _ _ s1 us1 fuel hs1 (hrun fuel hfuel) hl hp (no_continue hcd) hlv, hest]
  -- which record is where
  obtain ⟨gus1, g1', uss1, sheets1', offs1, k1, k2, k3, _, _⟩ := dump_inv hs1 (hrun fuel hfuel) hok1.some hok1.few
  obtain ⟨e1, _⟩ := k1.det h1
  subst e1
  cases k2 with
  | @cons _ _ ux1 wl1 x1' _ uss1 _ offs1 ht1 hrest1 =>
  obtain ⟨f1, hd1⟩ := ht1.drain
  rw [hoff] at hd1
  obtain ⟨bs1, hb1, hux1, _⟩ := Sheet.drain_done (D := (addLinks L x).1) r1 r2 r3 hd1
  have hbs : bs1 = bs := by
    have : blocks x.1.cells x.1.heights = some bs1 := hb1
    rw [hb] at this
    exact (Option.some.inj this).symm
  subst hbs
  obtain ⟨v, w, r, hlong, hw⟩ := long_pieces (Note.env cd cs) x.1
  have heq : us1 = A ++ (List.replicate m (Sheet.Ev.unit (Note.env cd cs) x.1 (.link shortLink)) ++ (v :: w :: (r ++
      ((Sheet.dvEvs x.1 ++ [Sheet.Ev.eof]).map (Sheet.Ev.unit (Note.env cd cs) x.1) ++ uss1.flatten).flatMap pieces))) := by
    have hunit : ∀ e : Sheet.Ev α Note.Note, Sheet.Ev.unit (Note.env cd cs) (addLinks L x).1 e = Sheet.Ev.unit (Note.env cd cs) x.1 e := by
      intro e; cases e <;> rfl
    have hfun : Sheet.Ev.unit (Note.env cd cs) (addLinks L x).1 = Sheet.Ev.unit (Note.env cd cs) x.1 := funext hunit
    have hrep : (List.replicate m (Sheet.Ev.unit (Note.env cd cs) x.1 (.link shortLink))).flatMap pieces =
        List.replicate m (Sheet.Ev.unit (Note.env cd cs) x.1 (.link shortLink)) := short_run _ _ m
    have hlay : Sheet.layout (Note.env cd cs) (addLinks L x).1 x.2.spid off bs1 =
        beforeLinks (Note.env cd cs) x.1 x.2.spid off bs1 ++ ((x.1.links ++ L).map .link ++ (Sheet.dvEvs x.1 ++ [.eof])) := layout_links _ _ _ _ _
    rw [k3, hux1, hfun, hlay, ← hA]
    simp only [List.flatten_cons, L, List.map_append, List.flatMap_append, List.map_replicate, hrep, List.map_cons, List.map_nil, List.flatMap_cons,
      List.flatMap_nil, hlong, List.append_assoc, List.cons_append, List.nil_append]
  refine not_calm (v := w) ?_ hw
  have hidx : estimate cs D ((x :: rest).map (·.1)) = A.length + (m + 1) := by omega
  rw [hidx, heq, List.getElem?_append_right (by omega), List.getElem?_append_right (by simp)]
  simp only [List.length_replicate]
  rw [show A.length + (m + 1) - A.length - m = 1 by omega]
  rfl

/-! ### The sample workbook -/

theorem demo_run : ∃ us s', Book.run Globals.next (Sheet.next (Note.env Note.demoCell fun _ => 10)) 300 (Save.demoBookSt Save.demoBook Save.demoSheets) = .done us s' ∧
    us.length < 900 ∧ us.countP (fun u => decide (IsContinue u)) = 0 := by
  have h : (match Book.run Globals.next (Sheet.next (Note.env Note.demoCell fun _ => 10)) 300 (Save.demoBookSt Save.demoBook Save.demoSheets) with
    | .done us _ => decide (us.length < 900) && us.countP (fun u => decide (IsContinue u)) == 0
    | _ => false) = true := by decide +kernel
  generalize Book.run Globals.next (Sheet.next (Note.env Note.demoCell fun _ => 10)) 300 (Save.demoBookSt Save.demoBook Save.demoSheets) = r at h
  cases r with
  | done us s' =>
    simp only [Bool.and_eq_true, decide_eq_true_eq, beq_iff_eq] at h
    exact ⟨us, s', rfl, h⟩
  | _ => cases h

theorem demo_cells (c : Cell Unit) : ¬IsContinue { data := Note.demoCell c } := by
  simp only [IsContinue, Note.demoCell, enc]
  simp [leN]

/-- The sample workbook meets the conditions of `c54_few_partial`; C34 holds for it. -/
example : ∃ us s' m bs, Book.run Globals.next (Sheet.next (Note.env Note.demoCell fun _ => 10)) 300 (Save.demoBookSt Save.demoBook Save.demoSheets) = .done us s' ∧
    run (fun c => 2 * c) Globals.next (Sheet.next (Note.env Note.demoCell fun _ => 10)) 300
      (St.start (Save.demoBook, Save.demoGs) Save.demoSheets (estimate (fun _ => 10) Save.demoBook (Save.demoSheets.map (·.1)))) = .done m ∧
    stream us s'.bpos = some bs ∧ m.mem.contents = bs.map some := by
  obtain ⟨us, s', h, _, h0⟩ := demo_run
  obtain ⟨m, bs, h1, h2, h3, _⟩ := c54_few_partial (grow := fun c => 2 * c) Note.demoCell (fun _ => 10) Save.demoBook Save.demoGs Save.demoSheets _ s' us 300
    Save.demo_saveable Save.demo_start h (by rw [h0]; decide)
  exact ⟨us, s', m, bs, h, h1, h2, h3⟩

/-- The sample workbook can be given hyperlinks such that saving it reads freed memory. -/
example : ∃ x rest, Save.demoSheets = x :: rest ∧ ∃ L n, ∀ fuel ≥ n, run (fun c => 2 * c) Globals.next (Sheet.next (Note.env Note.demoCell fun _ => 10)) fuel
    (St.start (Save.demoBook, Save.demoGs) (addLinks L x :: rest)
      (estimate (fun _ => 10) Save.demoBook ((addLinks L x :: rest).map (·.1)))) = .ub := by
  obtain ⟨us, s', h, hl, _⟩ := demo_run
  obtain ⟨L, n, hn⟩ := c54_hyperlinks (grow := fun c => 2 * c) Note.demoCell (fun _ => 10) Save.demoBook Save.demoGs _ _ _ s' us 300
    Save.demo_saveable Save.demo_completes demo_cells Save.demo_start h (by
      have : 900 ≤ estimate (fun _ => 10) Save.demoBook (Save.demoSheets.map (·.1)) := by simp [estimate]
      exact Nat.le_trans (Nat.le_of_lt hl) this)
  exact ⟨_, _, rfl, L, n, fun fuel hf => (hn fuel hf).2⟩

end Xls.Store
