import Verif.Page.Model
import Verif.Whole.Read
import Verif.Note.Props
/-
Helper lemmas: the records of a saved sheet, put together with their continuations, record by record.
-/
namespace Xls.Page
open Xls.Biff Xls.Sheet Xls.Cells Xls.Book Xls.Save

variable {α : Type}

theorem pieces_append (a b : List Rec) (h : (pieces b).1 = []) : pieces (a ++ b) = ((pieces a).1, (pieces a).2 ++ (pieces b).2) := by
  induction a with
  | nil => rw [List.nil_append, pieces, List.nil_append, ← h]
  | cons x r ih =>
    obtain ⟨t, p⟩ := x
    rw [List.cons_append, pieces, pieces, ih]
    split <;> rfl

theorem pieces_conts (l : List Bytes) : pieces (l.map fun c => (0x3C, c)) = (l, []) := by
  induction l with
  | nil => rfl
  | cons a r ih => rw [List.map_cons, pieces, if_pos rfl, ih]

theorem pieces_plain (l : List Rec) (h : ∀ r ∈ l, r.1 ≠ 0x3C) : pieces l = ([], l.map fun r => (r.1, [r.2])) := by
  induction l with
  | nil => rfl
  | cons a r ih =>
    obtain ⟨t, p⟩ := a
    rw [pieces, if_neg (h (t, p) (by simp)), ih (fun x hx => h x (by simp [hx]))]
    rfl

/-- A record with its continuations. -/
def whole (t : Nat) (p : Bytes) : Nat × List Bytes := (t, (splitRec t p).map (·.2))

theorem whole_flatten (t : Nat) (p : Bytes) : (whole t p).2.flatten = p := by
  unfold whole splitRec
  split
  · simp
  · rw [List.map_cons, List.map_map, List.flatten_cons]
    have : (chunks maxRec (p.drop maxRec)).map (Prod.snd ∘ fun c : Bytes => ((0x3C : Nat), c)) = chunks maxRec (p.drop maxRec) := List.map_id' _
    simp only [this]
    rw [chunks_flatten (by decide), List.take_append_drop]

theorem pieces_split (t : Nat) (p : Bytes) (h : t ≠ 0x3C) : pieces (splitRec t p) = ([], [whole t p]) := by
  unfold whole splitRec
  split
  · rw [pieces, if_neg h]; rfl
  · rw [pieces, if_neg h, pieces_conts]
    simp only [List.map_cons, List.map_map, Prod.mk.injEq, List.cons.injEq, true_and, and_true]
    exact (List.map_id' _).symm

/-- The records of each part of a sheet, with their continuations. -/
def evLog (recs : Cell α → List Rec) (D : Data α Note.Note) : Ev α Note.Note → List (Nat × List Bytes)
  | .bof => [whole 0x809 (bofPayload 0x10)]
  | .index f l o => [whole 0x20B (Rows.indexPayload f l o)]
  | .defRowHeight => [whole 0x225 (defRowHeightPayload D.defRowHeight)]
  | .colinfo c => [whole 0x7D (colinfoPayload c)]
  | .defColWidth => [whole 0x55 (leN 2 D.defColWidth)]
  | .dimension => [whole 0x200 D.dimension]
  | .rb (.row n f l h) => [whole 0x208 (Rows.rowPayload n f l h)]
  | .rb (.dbcell s o) => [whole 0xD7 (Rows.dbcellPayload s o)]
  | .rb (.cell c) => (recs c).map fun r => (r.1, [r.2])
  | .drawing sp i n =>
    (pieces (Note.unitRecords D.index D.notes.length sp i n)).2
  | .note i n => [whole 0x1C (Note.notePayload i n)]
  | .merged l => [whole 0xE5 (mergedPayload l)]
  | .window2 => [whole 0x23E (window2Payload D.active)]
  | .pane => [whole 0x41 (panePayload D.rowSplit D.colSplit)]
  | .link l => [whole 0x1B8 (hlinkPayload l)]
  | .dvHeader n => [whole 0x1B2 (dvalPayload n)]
  | .dv v => [whole 0x1BE (dvPayload v)]
  | .eof => [whole 0x0A []]

/-- The types of the records that cells are made of: those of `Whole.isCell` and STRING, the result of a formula. -/
def cellTypes : List Nat := [0x201, 0x203, 0x204, 0x205, 0x06, 0xFD, 0x27E, 0x221, 0x207]

theorem showsL_pieces {β : Type} {pos : Nat → Option Nat} (f : β → U) (g : β → List (Nat × List Bytes)) {l : List β} {rs : List Rec}
    (h : ShowsL pos (l.map f) rs) (hg : ∀ e ∈ l, ∀ ss, Shows pos (f e) ss → pieces ss = ([], g e)) : pieces rs = ([], l.flatMap g) := by
  induction l generalizing rs with
  | nil => rw [List.map_nil] at h; cases h; rfl
  | cons e r ih =>
    rw [List.map_cons] at h
    cases h with
    | cons h1 h2 =>
      have h3 := ih h2 (fun x hx => hg x (by simp [hx]))
      rw [pieces_append _ _ (by rw [h3]), h3, hg e (by simp) _ h1, List.flatMap_cons]

theorem ev_pieces {cd : Cell α → Bytes} {cs : Cell α → Nat} {recs : Cell α → List Rec} (D : Data α Note.Note) (e : Ev α Note.Note)
    (hc : ∀ c, e = .rb (.cell c) → Whole.CellIs cd c (recs c) ∧ ∀ r ∈ recs c, r.1 ∈ cellTypes) (hn : ∀ sp i n, e = .drawing sp i n → n.full.length ≤ 3900)
    (ss : List Rec) (hs : Shows (fun _ => none) (e.unit (Note.env cd cs) D) ss) : pieces ss = ([], evLog recs D e) := by
  have det : ∀ rs, Shows (fun _ => none) (e.unit (Note.env cd cs) D) rs → ss = rs := fun rs h => Whole.shows_det (bpos := []) hs h
  have one : ∀ (t : Nat) (p : Bytes), t < 65536 → t ≠ 0x3C → e.bytes (Note.env cd cs) D = enc (t, p) → evLog recs D e = [whole t p] →
      pieces ss = ([], evLog recs D e) := by
    intro t p ht h1 hb he
    rw [det _ (.one hb ht rfl rfl), pieces_split t p h1, he]
  cases e with
  | bof => exact one 0x809 _ (by decide) (by decide) rfl rfl
  | eof => exact one 0x0A _ (by decide) (by decide) rfl rfl
  | rb e =>
    cases e with
    | row => exact one 0x208 _ (by decide) (by decide) rfl rfl
    | dbcell => exact one 0xD7 _ (by decide) (by decide) rfl rfl
    | cell c =>
      obtain ⟨⟨hb, hr, hl⟩, hty⟩ := hc c rfl
      have hd : (Ev.unit (Note.env cd cs) D (.rb (.cell c))).data = cd c := rfl
      rw [det (recs c) (.many (by rw [hd, hb]) (fun r h => ⟨(hr r h).1, (hr r h).2.1⟩) (.inr (by simp only [U.paySize, hd, maxRec]; omega)) rfl)]
      refine pieces_plain _ fun r hr h => ?_
      have := hty r hr
      rw [h] at this
      revert this
      decide
  | drawing sp i n =>
    rw [det _ (drawing_shows D sp i n (hn sp i n rfl))]
    rfl
  | index => exact one 0x20B _ (by decide) (by decide) rfl rfl
  | defRowHeight => exact one 0x225 _ (by decide) (by decide) rfl rfl
  | colinfo => exact one 0x7D _ (by decide) (by decide) rfl rfl
  | defColWidth => exact one 0x55 _ (by decide) (by decide) rfl rfl
  | dimension => exact one 0x200 _ (by decide) (by decide) rfl rfl
  | note => exact one 0x1C _ (by decide) (by decide) rfl rfl
  | merged => exact one 0xE5 _ (by decide) (by decide) rfl rfl
  | window2 => exact one 0x23E _ (by decide) (by decide) rfl rfl
  | pane => exact one 0x41 _ (by decide) (by decide) rfl rfl
  | link => exact one 0x1B8 _ (by decide) (by decide) rfl rfl
  | dvHeader => exact one 0x1B2 _ (by decide) (by decide) rfl rfl
  | dv => exact one 0x1BE _ (by decide) (by decide) rfl rfl

/-- The section of each record type that is read here. -/
def home : Nat → Option Nat
  | 0x225 => some 2
  | 0x7D => some 3
  | 0x55 => some 4
  | 0x200 => some 5
  | 0x208 => some 6
  | 0x5D => some 7
  | 0xEC => some 7
  | 0x1B6 => some 7
  | 0x1C => some 8
  | 0xE5 => some 9
  | 0x23E => some 10
  | 0x41 => some 11
  | 0x1B8 => some 12
  | 0x1B2 => some 13
  | 0x1BE => some 14
  | _ => none

/-- Records of such a type are in their section only. -/
theorem evLog_home {recs : Cell α → List Rec} {D : Data α Note.Note} {e : Ev α Note.Note} (hc : ∀ c, e = .rb (.cell c) → ∀ r ∈ recs c, r.1 ∈ cellTypes)
    {k : Nat} : ∀ r ∈ evLog recs D e, home r.1 = some k → e.sec = k := by
  have one : ∀ (t : Nat) (p : Bytes), (∀ k, home t = some k → e.sec = k) → evLog recs D e = [whole t p] → ∀ r ∈ evLog recs D e, home r.1 = some k → e.sec = k := by
    intro t p h he r hr hh
    rw [he, List.mem_singleton] at hr
    subst hr
    exact h k hh
  cases e with
  | rb e =>
    cases e with
    | row => exact one 0x208 _ (by simp [home, Ev.sec]) rfl
    | dbcell => exact one 0xD7 _ (by simp [home]) rfl
    | cell c =>
      intro r hr hh
      simp only [evLog, List.mem_map] at hr
      obtain ⟨q, hq, rfl⟩ := hr
      have := hc c rfl q hq
      simp only [cellTypes, List.mem_cons, List.not_mem_nil, or_false] at this
      rcases this with h | h | h | h | h | h | h | h | h <;> simp [h, home] at hh
  | drawing sp i n =>
    intro r hr hh
    simp only [evLog, Note.unitRecords, pieces] at hr
    simp only [Nat.reduceEqDiff, if_false, if_true, List.mem_cons, List.not_mem_nil, or_false] at hr
    rcases hr with rfl | rfl | rfl | rfl <;> simp [home] at hh <;> simp [Ev.sec, hh]
  | bof => exact one 0x809 _ (by simp [home]) rfl
  | eof => exact one 0x0A _ (by simp [home]) rfl
  | index => exact one 0x20B _ (by simp [home]) rfl
  | defRowHeight => exact one 0x225 _ (by simp [home, Ev.sec]) rfl
  | colinfo => exact one 0x7D _ (by simp [home, Ev.sec]) rfl
  | defColWidth => exact one 0x55 _ (by simp [home, Ev.sec]) rfl
  | dimension => exact one 0x200 _ (by simp [home, Ev.sec]) rfl
  | note => exact one 0x1C _ (by simp [home, Ev.sec]) rfl
  | merged => exact one 0xE5 _ (by simp [home, Ev.sec]) rfl
  | window2 => exact one 0x23E _ (by simp [home, Ev.sec]) rfl
  | pane => exact one 0x41 _ (by simp [home, Ev.sec]) rfl
  | link => exact one 0x1B8 _ (by simp [home, Ev.sec]) rfl
  | dvHeader => exact one 0x1B2 _ (by simp [home, Ev.sec]) rfl
  | dv => exact one 0x1BE _ (by simp [home, Ev.sec]) rfl

/-- Picking records of some types of one section: only that section's parts matter. -/
theorem filter_home {recs : Cell α → List Rec} {D : Data α Note.Note} (evs : List (Ev α Note.Note))
    (hc : ∀ c, (.rb (.cell c)) ∈ evs → ∀ r ∈ recs c, r.1 ∈ cellTypes) (k : Nat) (q : Nat × List Bytes → Bool) (hq : ∀ r, q r = true → home r.1 = some k) :
    (evs.flatMap (evLog recs D)).filter q = (evs.filter fun e => e.sec == k).flatMap fun e => (evLog recs D e).filter q := by
  induction evs with
  | nil => rfl
  | cons e r ih =>
    rw [List.flatMap_cons, List.filter_append, ih (fun c h => hc c (by simp [h])), List.filter_cons]
    by_cases h : e.sec = k
    · rw [if_pos (by simp [h]), List.flatMap_cons]
    · rw [if_neg (by simp [h])]
      have : (evLog recs D e).filter q = [] := by
        rw [List.filter_eq_nil_iff]
        intro x hx hh
        exact h (evLog_home (fun c he => hc c (by simp [he])) x hx (hq x hh))
      rw [this, List.nil_append]

theorem ofType_home {recs : Cell α → List Rec} {D : Data α Note.Note} (evs : List (Ev α Note.Note))
    (hc : ∀ c, (.rb (.cell c)) ∈ evs → ∀ r ∈ recs c, r.1 ∈ cellTypes) {k t : Nat} (ht : home t = some k) :
    ofType t (evs.flatMap (evLog recs D)) = (evs.filter fun e => e.sec == k).flatMap fun e => ofType t (evLog recs D e) := by
  unfold ofType
  rw [filter_home evs hc k _ (by intro r hr; simp only [beq_iff_eq] at hr; rw [hr, ht]), List.map_flatMap]

theorem ofType_whole (t : Nat) (p : Bytes) : ofType t [whole t p] = [p] := by
  have := whole_flatten t p
  unfold ofType
  rw [List.filter_cons, if_pos (by simp [whole])]
  simp [this]

section
variable (env : Env α Note.Note) (D : Data α Note.Note) (sp pos : Nat) (bs : List (Rows.Block α))

theorem layout_defRow : ((layout env D sp pos bs).filter fun e => e.sec == 2) = [.defRowHeight] := by
  simp only [layout, List.filter_append, filter_pane (j := 2) (by omega), filter_dv (j := 2) (by omega) (by omega),
    filter_draw (j := 2) (by omega), filter_note (j := 2) (by omega)]
  rw [filter_sec_none Ev.colinfo 3 2 (by omega) _ (fun _ => rfl), filter_sec_none Ev.rb 6 2 (by omega) _ (fun _ => rfl),
    filter_sec_none Ev.merged 9 2 (by omega) _ (fun _ => rfl), filter_sec_none Ev.link 12 2 (by omega) _ (fun _ => rfl)]
  simp [Ev.sec]

theorem layout_defCol : ((layout env D sp pos bs).filter fun e => e.sec == 4) = [.defColWidth] := by
  simp only [layout, List.filter_append, filter_pane (j := 4) (by omega), filter_dv (j := 4) (by omega) (by omega),
    filter_draw (j := 4) (by omega), filter_note (j := 4) (by omega)]
  rw [filter_sec_none Ev.colinfo 3 4 (by omega) _ (fun _ => rfl), filter_sec_none Ev.rb 6 4 (by omega) _ (fun _ => rfl),
    filter_sec_none Ev.merged 9 4 (by omega) _ (fun _ => rfl), filter_sec_none Ev.link 12 4 (by omega) _ (fun _ => rfl)]
  simp [Ev.sec]

theorem layout_dimension : ((layout env D sp pos bs).filter fun e => e.sec == 5) = [.dimension] := by
  simp only [layout, List.filter_append, filter_pane (j := 5) (by omega), filter_dv (j := 5) (by omega) (by omega),
    filter_draw (j := 5) (by omega), filter_note (j := 5) (by omega)]
  rw [filter_sec_none Ev.colinfo 3 5 (by omega) _ (fun _ => rfl), filter_sec_none Ev.rb 6 5 (by omega) _ (fun _ => rfl),
    filter_sec_none Ev.merged 9 5 (by omega) _ (fun _ => rfl), filter_sec_none Ev.link 12 5 (by omega) _ (fun _ => rfl)]
  simp [Ev.sec]

theorem layout_window : ((layout env D sp pos bs).filter fun e => e.sec == 10) = [.window2] := by
  simp only [layout, List.filter_append, filter_pane (j := 10) (by omega), filter_dv (j := 10) (by omega) (by omega),
    filter_draw (j := 10) (by omega), filter_note (j := 10) (by omega)]
  rw [filter_sec_none Ev.colinfo 3 10 (by omega) _ (fun _ => rfl), filter_sec_none Ev.rb 6 10 (by omega) _ (fun _ => rfl),
    filter_sec_none Ev.merged 9 10 (by omega) _ (fun _ => rfl), filter_sec_none Ev.link 12 10 (by omega) _ (fun _ => rfl)]
  simp [Ev.sec]

theorem layout_pane : ((layout env D sp pos bs).filter fun e => e.sec == 11) = if D.rowSplit ≠ 0 ∨ D.colSplit ≠ 0 then [.pane] else [] := by
  have hp : ((if D.rowSplit ≠ 0 ∨ D.colSplit ≠ 0 then [(Ev.pane : Ev α Note.Note)] else []).filter fun e => e.sec == 11) =
      if D.rowSplit ≠ 0 ∨ D.colSplit ≠ 0 then [.pane] else [] := by
    split <;> simp [Ev.sec]
  simp only [layout, List.filter_append, hp, filter_dv (j := 11) (by omega) (by omega),
    filter_draw (j := 11) (by omega), filter_note (j := 11) (by omega)]
  rw [filter_sec_none Ev.colinfo 3 11 (by omega) _ (fun _ => rfl), filter_sec_none Ev.rb 6 11 (by omega) _ (fun _ => rfl),
    filter_sec_none Ev.merged 9 11 (by omega) _ (fun _ => rfl), filter_sec_none Ev.link 12 11 (by omega) _ (fun _ => rfl)]
  simp [Ev.sec]

theorem layout_dvHeader : ((layout env D sp pos bs).filter fun e => e.sec == 13) = if D.dvals = [] then [] else [.dvHeader D.dvals.length] := by
  have hdv : ((dvEvs D : List (Ev α Note.Note)).filter fun e => e.sec == 13) = if D.dvals = [] then [] else [.dvHeader D.dvals.length] := by
    unfold dvEvs
    split
    · rfl
    · rw [List.filter_cons, if_pos (by simp [Ev.sec]), filter_sec_none _ 14 13 (by omega) _ (fun _ => rfl)]
  simp only [layout, List.filter_append, filter_pane (j := 13) (by omega), hdv,
    filter_draw (j := 13) (by omega), filter_note (j := 13) (by omega)]
  rw [filter_sec_none Ev.colinfo 3 13 (by omega) _ (fun _ => rfl), filter_sec_none Ev.rb 6 13 (by omega) _ (fun _ => rfl),
    filter_sec_none Ev.merged 9 13 (by omega) _ (fun _ => rfl), filter_sec_none Ev.link 12 13 (by omega) _ (fun _ => rfl)]
  simp [Ev.sec]

end

/-- The records of a saved sheet, put together. -/
theorem sheet_logical {cd : Cell α → Bytes} {cs : Cell α → Nat} {recs : Cell α → List Rec} {D : Data α Note.Note}
    (hc : ∀ c ∈ D.cells, Whole.CellIs cd c (recs c) ∧ ∀ r ∈ recs c, r.1 ∈ cellTypes) {s : Sheet.St α} {off fuel : Nat} {us : List U}
    {x : Data α Note.Note × Sheet.St α} (hs : Ready D s) (hlen : D.cells.length < 2 ^ 32) (h16 : D.notes.length ≤ 65535)
    (hn : ∀ n ∈ D.notes, n.full.length ≤ 3900) (hd : drain (next (Note.env cd cs)) fuel off 0 (D, s) = .done us x)
    {R : List Rec} (hR : ShowsL (fun _ => none) us R) :
    ∃ bs, logical R = (layout (Note.env cd cs) D s.spid off bs).flatMap (evLog recs D) ∧
      (∀ c, (.rb (.cell c)) ∈ layout (Note.env cd cs) D s.spid off bs → ∀ r ∈ recs c, r.1 ∈ cellTypes) ∧
      Rows.blocks D.cells D.heights = some bs := by
  obtain ⟨bs, hb, rfl, _⟩ := drain_done hs hlen h16 hd
  obtain ⟨mid, hm, hsec, hdr, hcl⟩ := layout_mid (Note.env cd cs) D s.spid off bs
  have hcells := Rows.blocks_cells _ _ _ hb
  have hin : ∀ c, (.rb (.cell c)) ∈ layout (Note.env cd cs) D s.spid off bs → c ∈ D.cells := by
    intro c he
    rw [← hcells, ← Whole.layout_cells (Note.env cd cs) D s.spid off bs, List.mem_flatMap]
    exact ⟨_, he, by simp [Whole.cellOf]⟩
  refine ⟨bs, ?_, fun c he => (hc c (hin c he)).2, hb⟩
  have := showsL_pieces (Ev.unit (Note.env cd cs) D) (evLog recs D) hR (by
    intro e he ss hss
    refine ev_pieces D e ?_ ?_ ss hss
    · intro c h
      rw [h] at he
      exact hc c (hin c he)
    · intro sp i n h
      rw [hm] at he
      simp only [List.cons_append, List.mem_cons, List.mem_append, List.not_mem_nil, or_false] at he
      rcases he with rfl | he | rfl
      · cases h
      · exact hn n (hdr e he sp i n h)
      · cases h)
  unfold logical
  rw [this]

end Xls.Page
