import Verif.Sheet.Model
import Verif.Rows.Shift
import Verif.Book.Pieces
/-
Helper lemmas: the sheet machine phase by phase.
-/
namespace Xls.Sheet
open Xls.Cells Xls.Biff Xls.Rows

variable {α ν : Type}

/-- The machine runs from one state to another, handing out records; the stream position advances by what the
    workbook counts for each record. -/
inductive Exec (env : Env α ν) (D : Data α ν) : Nat → St α → List (Ev α ν) → Nat → St α → Prop
  | refl (pos : Nat) (s : St α) : Exec env D pos s [] pos s
  | again {pos s s1 evs pos' s'} : pass env D pos s = .again s1 → Exec env D pos s1 evs pos' s' →
      Exec env D pos s evs pos' s'
  | ret {pos s e s1 evs pos' s'} : pass env D pos s = .ret (some e) s1 →
      Exec env D (pos + Book.cost (e.unit env D)) s1 evs pos' s' → Exec env D pos s (e :: evs) pos' s'

variable {env : Env α ν} {D : Data α ν}

theorem Exec.trans {p1 p2 p3 : Nat} {s1 s2 s3 : St α} {e1 e2 : List (Ev α ν)} (h1 : Exec env D p1 s1 e1 p2 s2)
    (h2 : Exec env D p2 s2 e2 p3 s3) : Exec env D p1 s1 (e1 ++ e2) p3 s3 := by
  induction h1 with
  | refl => exact h2
  | again hp _ ih => exact .again hp (ih h2)
  | ret hp _ ih => exact .ret hp (ih h2)

theorem Exec.one {p : Nat} {s s' : St α} {e : Ev α ν} (h : pass env D p s = .ret (some e) s') :
    Exec env D p s [e] (p + Book.cost (e.unit env D)) s' := .ret h (.refl _ _)

theorem Exec.skip {p : Nat} {s s' : St α} (h : pass env D p s = .again s') : Exec env D p s [] p s' :=
  .again h (.refl _ _)

/-- Bytes counted for some records. -/
def costs (env : Env α ν) (D : Data α ν) (evs : List (Ev α ν)) : Nat := (evs.map fun e => Book.cost (e.unit env D)).sum

theorem Exec.pos {p p' : Nat} {s s' : St α} {evs : List (Ev α ν)} (h : Exec env D p s evs p' s') :
    p' = p + costs env D evs := by
  induction h with
  | refl => simp [costs]
  | again _ _ ih => exact ih
  | ret _ _ ih => rw [ih]; simp [costs]; omega

/-- A run to the last state is what the workbook sees of the sheet. -/
theorem Exec.strace {p p' : Nat} {s s' : St α} {evs : List (Ev α ν)} (h : Exec env D p s evs p' s') {off : Nat} :
    ∀ {wl : Nat}, p = off + wl → s'.phase = .finish →
    Book.STrace (next env) off (D, s) wl (evs.map (Ev.unit env D)) (p' - off) (D, { s' with phase := .init }) := by
  induction h with
  | refl pos s =>
    intro wl hp hf
    have : pos - off = wl := by omega
    rw [this]
    refine .fin ?_
    simp only [next, pass, hf]
  | @again pos s s1 evs pos' s' hp _ ih =>
    intro wl he hf
    refine .again ?_ (ih he hf)
    simp only [next, ← he, hp]
  | @ret pos s e s1 evs pos' s' hp _ ih =>
    intro wl he hf
    refine .unit ?_ (ih (wl := wl + Book.cost (e.unit env D)) (by omega) hf)
    simp only [next, ← he, hp]

/-! ### Phases -/

section
variable (cols : List ColInfo) (rb : Rows.St α) (note noteIdx : Nat) (idxs : List Nat) (merged : List Rect)
  (links : List Link) (dvals : List DVal) (sp : Nat)

theorem cols_phase (pos : Nat) (hc : cols ≠ []) (hD : D.cols ≠ []) : ∃ pos',
    Exec env D pos ⟨.colinfo, cols, rb, note, noteIdx, idxs, merged, links, dvals, sp⟩ (cols.map .colinfo) pos'
      ⟨.defColWidth, [], rb, note, noteIdx, idxs, merged, links, dvals, sp⟩ := by
  induction cols generalizing pos with
  | nil => exact absurd rfl hc
  | cons c r ih =>
    by_cases hr : r = []
    · subst hr
      exact ⟨_, .one (by simp [pass, hD])⟩
    · obtain ⟨pos', h⟩ := ih (pos + Book.cost ((Ev.colinfo c : Ev α ν).unit env D)) hr
      exact ⟨pos', .ret (by simp [pass, hD, hr]) h⟩

theorem cols_all (pos : Nat) : ∃ pos',
    Exec env D pos ⟨.colinfo, D.cols, rb, note, noteIdx, idxs, merged, links, dvals, sp⟩ (D.cols.map .colinfo) pos'
      ⟨.defColWidth, [], rb, note, noteIdx, idxs, merged, links, dvals, sp⟩ := by
  by_cases hD : D.cols = []
  · rw [hD]; exact ⟨pos, .skip (by simp [pass, hD])⟩
  · exact cols_phase D.cols rb note noteIdx idxs merged links dvals sp pos hD hD

theorem links_phase (pos : Nat) (hc : links ≠ []) (hD : D.links ≠ []) : ∃ pos',
    Exec env D pos ⟨.links, cols, rb, note, noteIdx, idxs, merged, links, dvals, sp⟩ (links.map .link) pos'
      ⟨.dvHeader, cols, rb, note, noteIdx, idxs, merged, [], dvals, sp⟩ := by
  induction links generalizing pos with
  | nil => exact absurd rfl hc
  | cons c r ih =>
    by_cases hr : r = []
    · subst hr
      exact ⟨_, .one (by simp [pass, hD])⟩
    · obtain ⟨pos', h⟩ := ih (pos + Book.cost ((Ev.link c : Ev α ν).unit env D)) hr
      exact ⟨pos', .ret (by simp [pass, hD, hr]) h⟩

theorem links_all (pos : Nat) : ∃ pos',
    Exec env D pos ⟨.links, cols, rb, note, noteIdx, idxs, merged, D.links, dvals, sp⟩ (D.links.map .link) pos'
      ⟨.dvHeader, cols, rb, note, noteIdx, idxs, merged, [], dvals, sp⟩ := by
  by_cases hD : D.links = []
  · rw [hD]; exact ⟨pos, .skip (by simp [pass, hD])⟩
  · exact links_phase cols rb note noteIdx idxs merged D.links dvals sp pos hD hD

theorem dvs_phase (pos : Nat) (hc : dvals ≠ []) (hD : D.dvals ≠ []) : ∃ pos',
    Exec env D pos ⟨.dvBody, cols, rb, note, noteIdx, idxs, merged, links, dvals, sp⟩ (dvals.map .dv) pos'
      ⟨.eof, cols, rb, note, noteIdx, idxs, merged, links, [], sp⟩ := by
  induction dvals generalizing pos with
  | nil => exact absurd rfl hc
  | cons c r ih =>
    by_cases hr : r = []
    · subst hr
      exact ⟨_, .one (by simp [pass, hD])⟩
    · obtain ⟨pos', h⟩ := ih (pos + Book.cost ((Ev.dv c : Ev α ν).unit env D)) hr
      exact ⟨pos', .ret (by simp [pass, hD, hr]) h⟩

/-- The data validations, with their header. -/
def dvEvs (D : Data α ν) : List (Ev α ν) :=
  if D.dvals = [] then [] else .dvHeader D.dvals.length :: D.dvals.map .dv

theorem dvs_all (pos : Nat) : ∃ pos',
    Exec env D pos ⟨.dvHeader, cols, rb, note, noteIdx, idxs, merged, links, D.dvals, sp⟩ (dvEvs D) pos'
      ⟨.eof, cols, rb, note, noteIdx, idxs, merged, links, [], sp⟩ := by
  by_cases hD : D.dvals = []
  · refine ⟨pos, ?_⟩
    rw [dvEvs, if_pos hD]
    refine .again (s1 := ⟨.dvBody, cols, rb, note, noteIdx, idxs, merged, links, D.dvals, sp⟩) (by simp [pass, hD]) (.skip ?_)
    simp [pass, hD]
  · rw [dvEvs, if_neg hD]
    obtain ⟨pos', h⟩ := dvs_phase (env := env) (D := D) cols rb note noteIdx idxs merged links D.dvals sp
      (pos + Book.cost ((Ev.dvHeader D.dvals.length : Ev α ν).unit env D)) hD hD
    exact ⟨pos', .ret (by simp [pass, hD]) h⟩

theorem merged_phase (pos : Nat) (hD : D.merged ≠ []) : ∃ pos',
    Exec env D pos ⟨.merged, cols, rb, note, noteIdx, idxs, merged, links, dvals, sp⟩
      ((Book.chunks 1027 merged).map .merged) pos'
      ⟨.window2, cols, rb, note, noteIdx, idxs, [], links, dvals, sp⟩ := by
  induction h : merged.length using Nat.strongRecOn generalizing merged pos with
  | ind m ih =>
    by_cases hm : merged = []
    · subst hm
      rw [Book.chunks_nil]
      exact ⟨pos, .skip (by simp [pass, hD])⟩
    · have hpos : 0 < merged.length := List.length_pos_iff.mpr hm
      obtain ⟨pos', h'⟩ := ih (merged.drop 1027).length (by simp; omega) (merged.drop 1027)
        (pos + Book.cost ((Ev.merged (merged.take 1027) : Ev α ν).unit env D)) rfl
      refine ⟨pos', ?_⟩
      rw [Book.chunks_cons (by omega) hm, List.map_cons]
      refine .ret ?_ h'
      have e1 : merged.take (if merged.length > 1027 then 1027 else merged.length) = merged.take 1027 := by
        split
        · rfl
        · rw [List.take_of_length_le (Nat.le_refl _), List.take_of_length_le (by omega)]
      have e2 : merged.drop (if merged.length > 1027 then 1027 else merged.length) = merged.drop 1027 := by
        split
        · rfl
        · rw [List.drop_of_length_le (Nat.le_refl _), List.drop_of_length_le (by omega)]
      simp only [pass, if_pos hD, if_pos (show merged.length ≠ 0 by omega), e1, e2]

theorem merged_all (pos : Nat) : ∃ pos',
    Exec env D pos ⟨.merged, cols, rb, note, noteIdx, idxs, D.merged, links, dvals, sp⟩
      ((Book.chunks 1027 D.merged).map .merged) pos'
      ⟨.window2, cols, rb, note, noteIdx, idxs, [], links, dvals, sp⟩ := by
  by_cases hD : D.merged = []
  · rw [hD, Book.chunks_nil]; exact ⟨pos, .skip (by simp [pass, hD])⟩
  · exact merged_phase cols rb note noteIdx idxs D.merged links dvals sp pos hD

/-- The drawings of comments `k`, `k + 1`, … -/
def drawEvs (sp k : Nat) : List ν → List (Ev α ν)
  | [] => []
  | n :: r => .drawing sp k n :: drawEvs ((sp + if k = 0 then 2 else 1) % 2 ^ 32) (k + 1) r

/-- The shape counter after them. -/
def spidEnd (sp k : Nat) : List ν → Nat
  | [] => sp
  | _ :: r => spidEnd ((sp + if k = 0 then 2 else 1) % 2 ^ 32) (k + 1) r

theorem spidEnd_pos (l : List ν) : ∀ (sp k : Nat), k ≠ 0 → sp < 2 ^ 32 → spidEnd sp k l = (sp + l.length) % 2 ^ 32 := by
  induction l with
  | nil => intro sp k _ h; rw [spidEnd, List.length_nil, Nat.add_zero, Nat.mod_eq_of_lt h]
  | cons a r ih =>
    intro sp k hk h
    rw [spidEnd, if_neg hk, ih _ _ (by omega) (Nat.mod_lt _ (by omega)), List.length_cons]
    omega

theorem spidEnd_zero (l : List ν) (sp : Nat) (h : l ≠ []) : spidEnd sp 0 l = (sp + l.length + 1) % 2 ^ 32 := by
  cases l with
  | nil => exact absurd rfl h
  | cons a r =>
    rw [spidEnd, if_pos rfl, spidEnd_pos _ _ _ (by omega) (Nat.mod_lt _ (by omega)), List.length_cons]
    omega

/-- The NOTE records of comments `k`, `k + 1`, … -/
def noteEvs (k : Nat) : List ν → List (Ev α ν)
  | [] => []
  | n :: r => .note k n :: noteEvs (k + 1) r

theorem draw_phase (pos : Nat) (hD : D.notes ≠ []) (r : List ν) : ∀ (pos k sp : Nat) (idxs : List Nat),
    D.notes.drop k = r → k + r.length = D.notes.length → D.notes.length ≤ 65535 → idxs.length = D.notes.length →
    (∀ j < k, idxs[j]? = some j) → ∃ pos' nidx idxs',
    idxs'.length = D.notes.length ∧ (∀ j < D.notes.length, idxs'[j]? = some j) ∧
    Exec env D pos ⟨.drawings, cols, rb, k, k, idxs, merged, links, dvals, sp⟩ (drawEvs sp k r) pos'
      ⟨.notes, cols, rb, 0, nidx, idxs', merged, links, dvals, spidEnd sp k r⟩ := by
  induction r with
  | nil =>
    intro pos k sp idxs hk hlen h16 hi hj
    simp only [List.length_nil, Nat.add_zero] at hlen
    subst hlen
    refine ⟨pos, D.notes.length, idxs, hi, hj, .skip ?_⟩
    simp [pass, hD, spidEnd]
  | cons n r ih =>
    intro pos k sp idxs hk hlen h16 hi hj
    have hget : D.notes[k]? = some n := by
      rw [← List.head?_drop, hk]; rfl
    have hlt : k < D.notes.length := by simp only [List.length_cons] at hlen; omega
    obtain ⟨pos', nidx, idxs', h1, h2, h3⟩ := ih (pos + Book.cost ((Ev.drawing sp k n : Ev α ν).unit env D)) (k + 1)
      ((sp + if k = 0 then 2 else 1) % 2 ^ 32) (idxs.set k k) (by rw [← List.drop_drop, hk]; rfl) (by simp only [List.length_cons] at hlen; omega) h16
      (by simpa using hi) (by
        intro j hjk
        by_cases e : j = k
        · subst e; simp [hi, hlt]
        · rw [List.getElem?_set_ne (by omega)]; exact hj j (by omega))
    refine ⟨pos', nidx, idxs', h1, h2, .ret ?_ h3⟩
    simp only [pass, if_pos hD, if_pos (show k ≠ D.notes.length by omega), hget]
    rw [Nat.mod_eq_of_lt (show k + 1 < 65536 by omega)]

theorem note_phase (hD : D.notes ≠ []) (hi : ∀ j < D.notes.length, idxs[j]? = some j) (r : List ν) : ∀ (pos k : Nat),
    D.notes.drop k = r → k + r.length = D.notes.length → ∃ pos' k',
    Exec env D pos ⟨.notes, cols, rb, k, noteIdx, idxs, merged, links, dvals, sp⟩ (noteEvs k r) pos'
      ⟨.merged, cols, rb, k', noteIdx, idxs, merged, links, dvals, sp⟩ := by
  induction r with
  | nil =>
    intro pos k hk hlen
    simp only [List.length_nil, Nat.add_zero] at hlen
    subst hlen
    exact ⟨pos, D.notes.length, .skip (by simp [pass, hD])⟩
  | cons n r ih =>
    intro pos k hk hlen
    have hget : D.notes[k]? = some n := by
      rw [← List.head?_drop, hk]; rfl
    have hlt : k < D.notes.length := by simp only [List.length_cons] at hlen; omega
    obtain ⟨pos', k', h⟩ := ih (pos + Book.cost ((Ev.note k n : Ev α ν).unit env D)) (k + 1)
      (by rw [← List.drop_drop, hk]; rfl) (by simp only [List.length_cons] at hlen; omega)
    refine ⟨pos', k', .ret ?_ h⟩
    simp only [pass, if_pos hD, if_pos (show k ≠ D.notes.length by omega), hget, hi k hlt]

theorem notes_all (pos : Nat) (h16 : D.notes.length ≤ 65535) (hi : idxs.length = D.notes.length) :
    ∃ pos' k' n' idxs', idxs'.length = D.notes.length ∧
    Exec env D pos ⟨.drawings, cols, rb, 0, 0, idxs, merged, links, dvals, sp⟩ (drawEvs sp 0 D.notes ++ noteEvs 0 D.notes) pos'
      ⟨.merged, cols, rb, k', n', idxs', merged, links, dvals, spidEnd sp 0 D.notes⟩ := by
  by_cases hD : D.notes = []
  · refine ⟨pos, 0, 0, idxs, hi, ?_⟩
    rw [hD]
    refine .again (s1 := ⟨.notes, cols, rb, 0, 0, idxs, merged, links, dvals, sp⟩) (by simp [pass, hD]) (.skip ?_)
    simp [pass, hD, spidEnd]
  · obtain ⟨p1, n1, i1, hl, hj, h1⟩ := draw_phase (env := env) (D := D) cols rb merged links dvals pos hD D.notes pos 0 sp
      idxs rfl (by simp) h16 hi (by intro j h; omega)
    obtain ⟨p2, k2, h2⟩ := note_phase (env := env) (D := D) cols rb n1 i1 merged links dvals (spidEnd sp 0 D.notes) hD hj D.notes p1 0 rfl (by simp)
    exact ⟨p2, k2, n1, i1, hl, h1.trans h2⟩

/-- The row blocks. -/
theorem rows_all (bs : List (Block α)) (hb : D.cells ≠ [] → blocks D.cells D.heights = some bs)
    (he : D.cells = [] → bs = []) (hlt : D.cells.length < 2 ^ 32) (hrb : rb.phase = .init) (hcur : rb.cur = D.cells)
    (pos : Nat) : ∃ pos' rb', rb'.phase = .init ∧
    Exec env D pos ⟨.rowblocks, cols, rb, note, noteIdx, idxs, merged, links, dvals, sp⟩
      ((bs.flatMap (Block.evs fun c => (env.cellData c).length)).map .rb) pos'
      ⟨.drawings, cols, rb', note, noteIdx, idxs, merged, links, dvals, sp⟩ := by
  by_cases hD : D.cells = []
  · rw [he hD]
    exact ⟨pos, rb, hrb, .skip (by simp [pass, hD])⟩
  · obtain ⟨s1, h1, p1⟩ := blocks_execG (fun c => (env.cellData c).length) D.heights
      (fun e => Book.cost ((Ev.rb e : Ev α ν).unit env D)) (by
        intro n a b t
        simp only [Ev.unit, Ev.bytes, Rows.Ev.bytes, Book.cost, Book.U.oversize, Book.U.paySize, enc, rowPayload]
        simp [Book.maxRec]) D.cells rb pos bs hlt (hb hD)
    have hen : enter D.cells rb = rb := by
      obtain ⟨a, b, c, d, e, f, g, h, i⟩ := rb
      simp only at hrb hcur
      subst hrb hcur
      rfl
    rw [hen] at h1
    generalize pos + ((bs.flatMap (Block.evs fun c => (env.cellData c).length)).map
      (fun e => Book.cost ((Ev.rb e : Ev α ν).unit env D))).sum = pos' at h1
    refine ⟨pos', { s1 with phase := .init }, rfl, ?_⟩
    have lift : ∀ {p q : Nat} {s t : Rows.St α} {evs : List (Rows.Ev α)},
        ExecG (fun c => (env.cellData c).length) D.heights (fun e => Book.cost ((Ev.rb e : Ev α ν).unit env D)) p s evs q t →
        Exec env D p ⟨.rowblocks, cols, s, note, noteIdx, idxs, merged, links, dvals, sp⟩ (evs.map .rb) q
          ⟨.rowblocks, cols, t, note, noteIdx, idxs, merged, links, dvals, sp⟩ := by
      intro p q s t evs h
      induction h with
      | refl => exact .refl _ _
      | again hp _ ih => exact .again (by simp only [pass, if_pos hD, hp]) ih
      | ret hp _ ih => exact .ret (by simp only [pass, if_pos hD, hp]) ih
    have h2 := lift h1
    have h3 : Exec env D pos' ⟨.rowblocks, cols, s1, note, noteIdx, idxs, merged, links, dvals, sp⟩ [] pos'
        ⟨.drawings, cols, { s1 with phase := .init }, note, noteIdx, idxs, merged, links, dvals, sp⟩ := by
      refine .skip ?_
      have : Rows.pass (fun c => (env.cellData c).length) D.heights pos' s1 = .ret none { s1 with phase := .init } := by
        unfold Rows.pass; rw [p1]
      simp only [pass, if_pos hD, this]
    simpa using h2.trans h3

/-- Row blocks that stall. -/
theorem rows_stall (hb : blocks D.cells D.heights = none) (hlt : D.cells.length < 2 ^ 32) (hrb : rb.phase = .init)
    (hcur : rb.cur = D.cells) (pos : Nat) : ∃ evs pos' s',
    Exec env D pos ⟨.rowblocks, cols, rb, note, noteIdx, idxs, merged, links, dvals, sp⟩ evs pos' s' ∧
    pass env D pos' s' = .ub := by
  have hD : D.cells ≠ [] := by
    intro h; rw [h, blocks] at hb; simp at hb
  obtain ⟨evs, pos', s1, h1, h2⟩ := stall_execG (fun c => (env.cellData c).length) D.heights
    (fun e => Book.cost ((Ev.rb e : Ev α ν).unit env D)) (by
      intro n a b t
      simp only [Ev.unit, Ev.bytes, Rows.Ev.bytes, Book.cost, Book.U.oversize, Book.U.paySize, enc, rowPayload]
      simp [Book.maxRec]) D.cells rb pos hlt hb
  have hen : enter D.cells rb = rb := by
    obtain ⟨a, b, c, d, e, f, g, h, i⟩ := rb
    simp only at hrb hcur
    subst hrb hcur
    rfl
  rw [hen] at h1
  refine ⟨evs.map .rb, pos', ⟨.rowblocks, cols, s1, note, noteIdx, idxs, merged, links, dvals, sp⟩, ?_, ?_⟩
  · clear hen hrb hcur h2
    induction h1 with
    | refl => exact .refl _ _
    | again hp _ ih => exact .again (by simp only [pass, if_pos hD, hp]) ih
    | ret hp _ ih => exact .ret (by simp only [pass, if_pos hD, hp]) ih
  · simp only [pass, if_pos hD, h2]

end

/-! ### The whole sheet -/

/-- The records of a sheet whose BOF record is at stream position `pos`, whose shape counter is `sp` and whose row
    blocks are `bs`. -/
def layout (env : Env α ν) (D : Data α ν) (sp pos : Nat) (bs : List (Block α)) : List (Ev α ν) :=
  [.bof, .index (indexRows D.cells).1 (indexRows D.cells).2 (indexOffsets env.cellSize (pos + 20) D.cols.length D.cells),
    .defRowHeight] ++ D.cols.map .colinfo ++ [.defColWidth, .dimension] ++
  (bs.flatMap (Block.evs fun c => (env.cellData c).length)).map .rb ++
  (drawEvs sp 0 D.notes ++ noteEvs 0 D.notes) ++ (Book.chunks 1027 D.merged).map .merged ++ [.window2] ++
  (if D.rowSplit ≠ 0 ∨ D.colSplit ≠ 0 then [.pane] else []) ++ D.links.map .link ++ dvEvs D ++ [.eof]

/-- The state between two saves: ready to begin. -/
def Ready (D : Data α ν) (s : St α) : Prop :=
  s.phase = .init ∧ s.rb.phase = .init ∧ s.idxs.length = D.notes.length

theorem sheet_exec (env : Env α ν) (D : Data α ν) (pos : Nat) (bs : List (Block α)) (s : St α) (hs : Ready D s)
    (hb : D.cells ≠ [] → blocks D.cells D.heights = some bs) (he : D.cells = [] → bs = [])
    (hlt : D.cells.length < 2 ^ 32) (h16 : D.notes.length ≤ 65535) :
    ∃ pos' s', Exec env D pos s (layout env D s.spid pos bs) pos' s' ∧ s'.phase = .finish ∧
      s'.spid = spidEnd s.spid 0 D.notes ∧ Ready D { s' with phase := .init } := by
  obtain ⟨phase, cols, rb, note, noteIdx, idxs, merged, links, dvals, sp⟩ := s
  obtain ⟨hp, hrb, hi⟩ := hs
  simp only at hp hrb hi
  subst hp
  have hbof : Book.cost ((Ev.bof : Ev α ν).unit env D) = 20 := by
    simp [Book.cost, Ev.unit, Ev.bytes, bofPayload, enc, Book.U.oversize, Book.U.paySize, Book.maxRec]
  let rb0 : Rows.St α := { rb with cur := D.cells }
  have e1 : Exec env D pos ⟨.init, cols, rb, note, noteIdx, idxs, merged, links, dvals, sp⟩ [.bof] (pos + 20)
      ⟨.index, D.cols, rb0, 0, 0, idxs, D.merged, D.links, D.dvals, sp⟩ := by
    refine .again (s1 := ⟨.bof, D.cols, rb0, 0, 0, idxs, D.merged, D.links, D.dvals, sp⟩) (by simp [pass, rb0]) ?_
    rw [← hbof]
    exact .one (by simp [pass])
  have e2 : ∀ p, ∃ p', Exec env D p ⟨.index, D.cols, rb0, 0, 0, idxs, D.merged, D.links, D.dvals, sp⟩
      [.index (indexRows D.cells).1 (indexRows D.cells).2 (indexOffsets env.cellSize p D.cols.length D.cells),
        .defRowHeight] p' ⟨.colinfo, D.cols, rb0, 0, 0, idxs, D.merged, D.links, D.dvals, sp⟩ := by
    intro p
    exact ⟨_, .ret (by simp [pass]; rfl) (.one (by simp [pass]))⟩
  obtain ⟨p2, e2⟩ := e2 (pos + 20)
  obtain ⟨p3, e3⟩ := cols_all (env := env) (D := D) rb0 0 0 idxs D.merged D.links D.dvals sp p2
  have e4 : ∀ p, ∃ p', Exec env D p ⟨.defColWidth, [], rb0, 0, 0, idxs, D.merged, D.links, D.dvals, sp⟩
      [.defColWidth, .dimension] p' ⟨.rowblocks, [], rb0, 0, 0, idxs, D.merged, D.links, D.dvals, sp⟩ := by
    intro p
    exact ⟨_, .ret (by simp [pass]; rfl) (.one (by simp [pass]))⟩
  obtain ⟨p4, e4⟩ := e4 p3
  obtain ⟨p5, rb1, r1, e5⟩ := rows_all (env := env) (D := D) [] rb0 0 0 idxs D.merged D.links D.dvals sp bs hb he hlt hrb rfl p4
  obtain ⟨p6, k', n', idxs', hi', e6⟩ := notes_all (env := env) (D := D) [] rb1 idxs D.merged D.links D.dvals sp p5 h16 hi
  let sp' := spidEnd sp 0 D.notes
  obtain ⟨p7, e7⟩ := merged_all (env := env) (D := D) [] rb1 k' n' idxs' D.links D.dvals sp' p6
  have e8 : ∀ p, ∃ p', Exec env D p ⟨.window2, [], rb1, k', n', idxs', [], D.links, D.dvals, sp'⟩
      ([.window2] ++ (if D.rowSplit ≠ 0 ∨ D.colSplit ≠ 0 then [.pane] else [])) p'
      ⟨.links, [], rb1, k', n', idxs', [], D.links, D.dvals, sp'⟩ := by
    intro p
    by_cases hsp : D.rowSplit ≠ 0 ∨ D.colSplit ≠ 0
    · rw [if_pos hsp]
      exact ⟨_, .ret (by simp [pass]; rfl) (.one (by simp only [pass, if_pos hsp]))⟩
    · rw [if_neg hsp]
      exact ⟨_, .ret (by simp [pass]; rfl) (.skip (by simp only [pass, if_neg hsp]))⟩
  obtain ⟨p8, e8⟩ := e8 p7
  obtain ⟨p9, e9⟩ := links_all (env := env) (D := D) [] rb1 k' n' idxs' [] D.dvals sp' p8
  obtain ⟨p10, e10⟩ := dvs_all (env := env) (D := D) [] rb1 k' n' idxs' [] [] sp' p9
  have e11 : ∀ p, Exec env D p ⟨.eof, [], rb1, k', n', idxs', [], [], [], sp'⟩ [.eof]
      (p + Book.cost ((Ev.eof : Ev α ν).unit env D)) ⟨.finish, [], rb1, k', n', idxs', [], [], [], sp'⟩ := by
    intro p
    exact .one (by simp [pass])
  refine ⟨p10 + Book.cost ((Ev.eof : Ev α ν).unit env D), ⟨.finish, [], rb1, k', n', idxs', [], [], [], sp'⟩, ?_, rfl, rfl, ⟨rfl, r1, hi'⟩⟩
  have := e1.trans (e2.trans (e3.trans (e4.trans (e5.trans (e6.trans (e7.trans (e8.trans (e9.trans (e10.trans (e11 p10))))))))))
  simpa [layout] using this

/-- A sheet whose row blocks stall runs into undefined behaviour. -/
theorem sheet_stall (env : Env α ν) (D : Data α ν) (pos : Nat) (s : St α) (hs : Ready D s)
    (hb : blocks D.cells D.heights = none) (hlt : D.cells.length < 2 ^ 32) :
    ∃ evs pos' s', Exec env D pos s evs pos' s' ∧ pass env D pos' s' = .ub := by
  obtain ⟨phase, cols, rb, note, noteIdx, idxs, merged, links, dvals, sp⟩ := s
  obtain ⟨hp, hrb, hi⟩ := hs
  simp only at hp hrb hi
  subst hp
  let rb0 : Rows.St α := { rb with cur := D.cells }
  have e1 : Exec env D pos ⟨.init, cols, rb, note, noteIdx, idxs, merged, links, dvals, sp⟩ [.bof] (pos + Book.cost ((Ev.bof : Ev α ν).unit env D))
      ⟨.index, D.cols, rb0, 0, 0, idxs, D.merged, D.links, D.dvals, sp⟩ := by
    refine .again (s1 := ⟨.bof, D.cols, rb0, 0, 0, idxs, D.merged, D.links, D.dvals, sp⟩) (by simp [pass, rb0]) ?_
    exact .one (by simp [pass])
  have e2 : ∀ p, ∃ p', Exec env D p ⟨.index, D.cols, rb0, 0, 0, idxs, D.merged, D.links, D.dvals, sp⟩
      [.index (indexRows D.cells).1 (indexRows D.cells).2 (indexOffsets env.cellSize p D.cols.length D.cells),
        .defRowHeight] p' ⟨.colinfo, D.cols, rb0, 0, 0, idxs, D.merged, D.links, D.dvals, sp⟩ := by
    intro p
    exact ⟨_, .ret (by simp [pass]; rfl) (.one (by simp [pass]))⟩
  obtain ⟨p2, e2⟩ := e2 (pos + Book.cost ((Ev.bof : Ev α ν).unit env D))
  obtain ⟨p3, e3⟩ := cols_all (env := env) (D := D) rb0 0 0 idxs D.merged D.links D.dvals sp p2
  have e4 : ∀ p, ∃ p', Exec env D p ⟨.defColWidth, [], rb0, 0, 0, idxs, D.merged, D.links, D.dvals, sp⟩
      [.defColWidth, .dimension] p' ⟨.rowblocks, [], rb0, 0, 0, idxs, D.merged, D.links, D.dvals, sp⟩ := by
    intro p
    exact ⟨_, .ret (by simp [pass]; rfl) (.one (by simp [pass]))⟩
  obtain ⟨p4, e4⟩ := e4 p3
  obtain ⟨evs, p5, s5, e5, u5⟩ := rows_stall (env := env) (D := D) [] rb0 0 0 idxs D.merged D.links D.dvals sp hb hlt hrb rfl p4
  exact ⟨_, p5, s5, e1.trans (e2.trans (e3.trans (e4.trans e5))), u5⟩

end Xls.Sheet
