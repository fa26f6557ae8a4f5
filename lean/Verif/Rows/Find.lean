import Verif.Rows.Props
/-
C67: the way from the DBCELL record of a row block to the first cell of each row.
-/
namespace Xls.Rows
open Xls.Cells

variable {α : Type}

/-! ### Specification -/

/-- A DBCELL record in the stream, with what lies before it in its block. -/
structure Trailer (α : Type) where
  /-- the position of the DBCELL record -/
  at_ : Nat
  /-- the distance it gives back to the first ROW record -/
  back : Nat
  /-- the offsets it lists -/
  offs : List Nat
  /-- the position where the block begins -/
  start : Nat
  /-- the cells of the block and their positions -/
  cells : List (Nat × Cell α)

/-- The DBCELL records of a stream of records that begins at `pos`; `start` is where the block at hand began, `acc` are the
    cells in it so far.  An offset is a 16-bit number in the file. -/
def trailers (size : Cell α → Nat) (start pos : Nat) (acc : List (Nat × Cell α)) : List (Ev α) → List (Trailer α)
  | [] => []
  | .cell c :: r => trailers size start (pos + size c) (acc ++ [(pos, c)]) r
  | .row n f l h :: r => trailers size start (pos + (Ev.row n f l h : Ev α).size size) acc r
  | .dbcell b o :: r =>
    let next := pos + (Ev.dbcell b o : Ev α).size size
    ⟨pos, b, o.map (· % 2 ^ 16), start, acc⟩ :: trailers size next next [] r

/-- Where the cells lie that begin a row. -/
def rowStarts : List (Nat × Cell α) → List Nat
  | [] => []
  | (p, c) :: r => p :: rowStarts (r.dropWhile (fun x => x.2.row == c.row))
termination_by l => l.length
decreasing_by
  have := (List.dropWhile_sublist (fun x : Nat × Cell α => x.2.row == c.row) (l := r)).length_le
  simp only [List.length_cons]; omega

/-- The positions a reader gets to: the first offset counts from `base`, each other one from the position before. -/
def follow (base : Nat) : List Nat → List Nat
  | [] => []
  | o :: r => (base + o) :: follow (base + o) r

/-- A trailer that leads to the first cell of every row of its block, counting from `base` bytes after the beginning of the
    block. -/
def Trailer.leads (base : Nat) (t : Trailer α) : Prop := follow (t.start + base) t.offs = rowStarts t.cells

/-! ### Helper lemmas -/

/-- The cells with their positions. -/
def placed (size : Cell α → Nat) (pos : Nat) : List (Cell α) → List (Nat × Cell α)
  | [] => []
  | c :: r => (pos, c) :: placed size (pos + size c) r

theorem trailers_rows (size : Cell α → Nat) (its : List (Item α)) (start pos : Nat) (acc : List (Nat × Cell α)) (rest : List (Ev α)) :
    trailers size start pos acc (its.map Item.ev ++ rest) = trailers size start (pos + 20 * its.length) acc rest := by
  induction its generalizing pos with
  | nil => rfl
  | cons i r ih =>
    simp only [List.map_cons, List.cons_append, Item.ev, trailers, Ev.size, List.length_cons]
    rw [show pos + 20 * (r.length + 1) = pos + 20 + 20 * r.length by omega, ← ih (pos + 20)]

theorem trailers_cells (size : Cell α → Nat) (cs : List (Cell α)) (start pos : Nat) (acc : List (Nat × Cell α)) (rest : List (Ev α)) :
    trailers size start pos acc (cs.map Ev.cell ++ rest) =
      trailers size start (pos + (cs.map size).sum) (acc ++ placed size pos cs) rest := by
  induction cs generalizing pos acc with
  | nil => simp [placed]
  | cons c r ih =>
    simp only [List.map_cons, List.cons_append, trailers, List.sum_cons, placed]
    rw [ih, List.append_assoc, ← Nat.add_assoc]
    rfl

/-- The trailer of a block that begins at `off`. -/
def Block.trailer (size : Cell α → Nat) (off : Nat) (b : Block α) : Trailer α :=
  ⟨off + 20 * b.rows.length + (b.cells.map size).sum, 20 * b.rows.length + (b.cells.map size).sum,
    (offsOf size b.rows.length b.cells).map (· % 2 ^ 16), off, placed size (off + 20 * b.rows.length) b.cells⟩

theorem trailers_blocks (size : Cell α → Nat) (bs : List (Block α)) (off : Nat) :
    ∀ t ∈ trailers size off off [] (bs.flatMap (Block.evs size)), ∃ b ∈ bs, t = b.trailer size t.start := by
  induction bs generalizing off with
  | nil => intro t ht; simp [trailers] at ht
  | cons b r ih =>
    intro t ht
    rw [List.flatMap_cons, Block.evs, List.append_assoc, List.append_assoc, trailers_rows, trailers_cells] at ht
    simp only [List.cons_append, List.nil_append, trailers, List.mem_cons] at ht
    rcases ht with rfl | ht
    · exact ⟨b, by simp, rfl⟩
    · obtain ⟨b', hb', e⟩ := ih _ t ht
      exact ⟨b', by simp [hb'], e⟩

theorem trailers_length (size : Cell α → Nat) (bs : List (Block α)) (off : Nat) :
    (trailers size off off [] (bs.flatMap (Block.evs size))).length = bs.length := by
  induction bs generalizing off with
  | nil => rfl
  | cons b r ih =>
    rw [List.flatMap_cons, Block.evs, List.append_assoc, List.append_assoc, trailers_rows, trailers_cells]
    simp only [List.cons_append, List.nil_append, trailers, List.length_cons, ih]

theorem trailers_cellsIn (size : Cell α → Nat) (bs : List (Block α)) (off : Nat) :
    (trailers size off off [] (bs.flatMap (Block.evs size))).flatMap (fun t => t.cells.map (·.2)) = bs.flatMap Block.cells := by
  have hp : ∀ pos (cs : List (Cell α)), (placed size pos cs).map (·.2) = cs := by
    intro pos cs
    induction cs generalizing pos with
    | nil => rfl
    | cons c r ih => simp only [placed, List.map_cons, ih]
  induction bs generalizing off with
  | nil => rfl
  | cons b r ih =>
    rw [List.flatMap_cons, Block.evs, List.append_assoc, List.append_assoc, trailers_rows, trailers_cells]
    simp only [List.cons_append, List.nil_append, trailers, List.flatMap_cons, ih, hp]

theorem blocks_full (cur : List (Cell α)) (hts : List RowHeight) (bs : List (Block α)) (h : blocks cur hts = some bs) :
    ∀ b ∈ bs, b.cells ≠ [] := by
  match hcur : cur with
  | [] => rw [blocks] at h; cases h; simp
  | c :: r =>
    rw [blocks] at h
    have hterm := takeRows_shrinks 15 c r hts
    by_cases h1 : cellsOf (takeRows 16 (c :: r) hts).1 = [] ∧ (takeRows 16 (c :: r) hts).2.1.length ≠ 1
    · rw [if_pos h1] at h; simp at h
    · rw [if_neg h1] at h
      by_cases h2 : (takeRows 16 (c :: r) hts).2.1.length = 1
      · rw [if_pos h2] at h
        cases h
        intro b hb
        rw [List.mem_singleton.mp hb]
        simp
      · rw [if_neg h2] at h
        obtain ⟨bs', h', rfl⟩ := Option.map_eq_some_iff.mp h
        have := blocks_full _ _ bs' h'
        intro b hb
        rcases List.mem_cons.mp hb with rfl | hb
        · exact fun e => h1 ⟨e, h2⟩
        · exact this b hb
termination_by cur.length + hts.length
decreasing_by subst hcur; exact hterm

theorem follow_length (base : Nat) (os : List Nat) : (follow base os).length = os.length := by
  induction os generalizing base with
  | nil => rfl
  | cons o r ih => simp only [follow, List.length_cons, ih]

theorem placed_length (size : Cell α → Nat) (pos : Nat) (cs : List (Cell α)) : (placed size pos cs).length = cs.length := by
  induction cs generalizing pos with
  | nil => rfl
  | cons c r ih => simp only [placed, List.length_cons, ih]

theorem rowStarts_length (l : List (Nat × Cell α)) : (rowStarts l).length ≤ l.length := by
  match l with
  | [] => simp [rowStarts]
  | (p, c) :: r =>
    have hs := (List.dropWhile_sublist (fun x : Nat × Cell α => x.2.row == c.row) (l := r)).length_le
    have := rowStarts_length (r.dropWhile (fun x => x.2.row == c.row))
    rw [rowStarts, List.length_cons, List.length_cons]
    omega
termination_by l.length
decreasing_by simp only [List.length_cons]; omega

/-- Neighbours in different rows. -/
def Alone : List (Cell α) → Prop
  | [] => True
  | [_] => True
  | c :: d :: r => c.row ≠ d.row ∧ Alone (d :: r)

/-- As many beginnings of rows as cells: every row has one cell. -/
theorem rowStarts_all (size : Cell α → Nat) (pos : Nat) (cs : List (Cell α)) :
    (rowStarts (placed size pos cs)).length = cs.length ↔ Alone cs := by
  induction cs generalizing pos with
  | nil => simp [placed, rowStarts, Alone]
  | cons c r ih =>
    cases r with
    | nil => simp [placed, rowStarts, Alone]
    | cons d r =>
      simp only [placed, Alone]
      rw [rowStarts, List.length_cons, List.length_cons]
      simp only [List.dropWhile]
      by_cases h : d.row = c.row
      · rw [show (d.row == c.row) = true by simpa using h]
        simp only
        have h1 := rowStarts_length ((placed size (pos + size c + size d) r).dropWhile (fun x => x.2.row == c.row))
        have h2 := (List.dropWhile_sublist (fun x : Nat × Cell α => x.2.row == c.row) (l := placed size (pos + size c + size d) r)).length_le
        rw [placed_length] at h2
        constructor
        · intro e
          simp only [List.length_cons] at e
          omega
        · rintro ⟨e, _⟩; exact absurd h.symm e
      · rw [show (d.row == c.row) = false by simpa using h]
        simp only
        have := ih (pos + size c)
        simp only [placed] at this
        constructor
        · intro e
          exact ⟨fun e' => h e'.symm, this.mp (by simpa using e)⟩
        · rintro ⟨_, e⟩
          have := this.mpr e
          simp only [List.length_cons] at this ⊢
          omega

/-- If every row has one cell, all cells begin a row. -/
theorem rowStarts_alone (size : Cell α → Nat) (pos : Nat) (cs : List (Cell α)) (h : Alone cs) :
    rowStarts (placed size pos cs) = (placed size pos cs).map (·.1) := by
  induction cs generalizing pos with
  | nil => simp [placed, rowStarts]
  | cons c r ih =>
    cases r with
    | nil => simp [placed, rowStarts]
    | cons d r =>
      obtain ⟨h1, h2⟩ := h
      have := ih (pos + size c) h2
      simp only [placed, List.map_cons] at this ⊢
      rw [rowStarts]
      simp only [List.dropWhile, show (d.row == c.row) = false by simpa using fun e => h1 e.symm]
      rw [this]

theorem follow_sizes (size : Cell α → Nat) (c : Cell α) (r : List (Cell α)) (pos : Nat) :
    follow pos (r.map size) = (placed size (pos + size c) r).map (·.1) ↔ ∀ d ∈ r, size d = size c := by
  induction r generalizing pos c with
  | nil => simp [follow, placed]
  | cons d r ih =>
    simp only [List.map_cons, follow, placed, List.cons.injEq, List.mem_cons, forall_eq_or_imp]
    constructor
    · rintro ⟨h1, h2⟩
      have hd : size d = size c := by omega
      rw [hd] at h2
      have := (ih c (pos + size c)).mp h2
      exact ⟨hd, this⟩
    · rintro ⟨hd, h2⟩
      refine ⟨by omega, ?_⟩
      rw [hd]
      exact (ih c (pos + size c)).mpr h2

theorem alone_of_pairwise {cs : List (Cell α)} (hs : RowSorted cs) : Alone cs ↔ cs.Pairwise (fun a b => a.row ≠ b.row) := by
  induction cs with
  | nil => simp [Alone]
  | cons c r ih =>
    cases r with
    | nil => simp [Alone]
    | cons d r =>
      have h1 := List.pairwise_cons.mp hs
      rw [Alone, ih h1.2, List.pairwise_cons (a := c)]
      constructor
      · rintro ⟨hne, hp⟩
        refine ⟨fun x hx => ?_, hp⟩
        rcases List.mem_cons.mp hx with rfl | hx'
        · exact hne
        · have := h1.1 d (by simp)
          have := (List.pairwise_cons.mp h1.2).1 x hx'
          omega
      · rintro ⟨ha, hp⟩
        exact ⟨ha d (by simp), hp⟩

theorem mod_sizes {size : Cell α → Nat} {r : List (Cell α)} (hs : ∀ c ∈ r, size c < 2 ^ 16) : (r.map size).map (· % 2 ^ 16) = r.map size := by
  rw [List.map_map]
  exact List.map_congr_left fun c hc => Nat.mod_eq_of_lt (hs c hc)

theorem blocks_sub (cur : List (Cell α)) (hts : List RowHeight) (bs : List (Block α)) (h : blocks cur hts = some bs) :
    ∀ b ∈ bs, b.cells.Sublist cur := by
  intro b hb
  rw [← blocks_cells cur hts bs h]
  clear h
  induction bs with
  | nil => simp at hb
  | cons x r ih =>
    rcases List.mem_cons.mp hb with rfl | hb
    · rw [List.flatMap_cons]; exact List.sublist_append_left _ _
    · rw [List.flatMap_cons]; exact (ih hb).trans (List.sublist_append_right _ _)

/-! ### C67 -/

/-- C67: in every sheet whose row blocks can be written, the DBCELL records account for all cells, each gives the distance
    back to the first ROW record of its block exactly, and lists one offset per cell of its block.  Counting from the first ROW record
    of the block, the offsets lead to the first cell of each row exactly if no row of the block has more than one cell and all
    cells of the block are of one size.  Missing for the full claim: everything else, for which it is false; and
    that the file format counts from the second ROW record (`c67_shifted`). -/
theorem c67_trailers_partial (size : Cell α → Nat) (cells : List (Cell α)) (heights : List RowHeight) (R : List Nat)
    (old : St α) (off : Nat) (ho : Ordered Cell.key cells) (hh : HtSorted heights) (hlen : cells.length < 2 ^ 32)
    (hsz : ∀ c ∈ cells, size c < 2 ^ 16) (hR : RowList cells heights R) (hst : NoStall cells R) :
    ∃ n evs s', (∀ fuel, run size heights (fuel + n) off (enter cells old) = .done evs s') ∧
      (trailers size off off [] evs).flatMap (fun t => t.cells.map (·.2)) = cells ∧
      ∀ t ∈ trailers size off off [] evs, t.start + t.back = t.at_ ∧ t.offs.length = t.cells.length ∧ t.cells ≠ [] ∧
        (t.leads 0 ↔ t.cells.Pairwise (fun a b => a.2.row ≠ b.2.row) ∧ ∀ a ∈ t.cells, ∀ b ∈ t.cells, size a.2 = size b.2) := by
  have hs := rowSorted_of_ordered ho
  rw [rowList_unique hR hs hh] at hst
  obtain ⟨bs, hb⟩ := (blocks_some_iff cells heights hs hh).mpr hst
  obtain ⟨n, s', h⟩ := run_blocks size heights cells old off bs hlen hb
  refine ⟨n, _, s', fun fuel => (h fuel).1, by rw [trailers_cellsIn, blocks_cells cells heights bs hb], ?_⟩
  intro t ht
  obtain ⟨b, hbm, e⟩ := trailers_blocks size bs off t ht
  have hne := blocks_full cells heights bs hb b hbm
  have hsub := blocks_sub cells heights bs hb b hbm
  have hrows := (blocks_length cells heights bs hb b hbm).1
  generalize t.start = p at e
  subst e
  obtain ⟨c, r, hcr⟩ := List.exists_cons_of_ne_nil hne
  have hp2 : ∀ pos (cs : List (Cell α)), (placed size pos cs).map (·.2) = cs := by
    intro pos cs
    induction cs generalizing pos with
    | nil => rfl
    | cons c r ih => simp only [placed, List.map_cons, ih]
  have hoffs : (offsOf size b.rows.length b.cells).map (· % 2 ^ 16) = 20 * b.rows.length :: r.map size := by
    rw [hcr, offsOf, List.map_cons, Nat.mod_eq_of_lt (by omega), mod_sizes fun d hd => hsz d (hsub.subset (by simp [hcr, hd]))]
  have hsortb : RowSorted b.cells := hs.sublist hsub
  refine ⟨?_, ?_, ?_, ?_⟩
  · simp only [Block.trailer]; omega
  · simp only [Block.trailer]
    rw [hoffs, placed_length, hcr]; simp
  · simp only [Block.trailer]
    intro e0
    have := congrArg List.length e0
    rw [placed_length, hcr] at this
    simp at this
  · have hpw : (placed size (p + 20 * b.rows.length) b.cells).Pairwise (fun a b => a.2.row ≠ b.2.row) ↔ Alone b.cells := by
      rw [alone_of_pairwise hsortb]
      conv => rhs; rw [← hp2 (p + 20 * b.rows.length) b.cells, List.pairwise_map]
    have hall : (∀ a ∈ placed size (p + 20 * b.rows.length) b.cells, ∀ d ∈ placed size (p + 20 * b.rows.length) b.cells,
        size a.2 = size d.2) ↔ ∀ d ∈ r, size d = size c := by
      constructor
      · intro ha d hd
        have hm : ∀ y ∈ b.cells, ∃ a ∈ placed size (p + 20 * b.rows.length) b.cells, a.2 = y := fun y hy => by
          rw [← hp2 (p + 20 * b.rows.length) b.cells] at hy
          exact List.mem_map.mp hy
        obtain ⟨a1, h1, e1⟩ := hm d (by simp [hcr, hd])
        obtain ⟨a2, h2, e2⟩ := hm c (by simp [hcr])
        rw [← e1, ← e2]
        exact ha a1 h1 a2 h2
      · intro ha
        have hm : ∀ a ∈ placed size (p + 20 * b.rows.length) b.cells, size a.2 = size c := fun a hma => by
          have : a.2 ∈ b.cells := by
            rw [← hp2 (p + 20 * b.rows.length) b.cells]; exact List.mem_map_of_mem hma
          rw [hcr] at this
          rcases List.mem_cons.mp this with e' | h'
          · rw [e']
          · exact ha _ h'
        exact fun a h1 d h2 => (hm a h1).trans (hm d h2).symm
    rw [show (Block.trailer size p b).cells = placed size (p + 20 * b.rows.length) b.cells from rfl, hpw, hall]
    simp only [Trailer.leads, Block.trailer]
    rw [hoffs, Nat.add_zero]
    have key : Alone b.cells → (follow p (20 * b.rows.length :: r.map size) =
        rowStarts (placed size (p + 20 * b.rows.length) b.cells) ↔ ∀ d ∈ r, size d = size c) := by
      intro ha
      rw [rowStarts_alone size _ _ ha, hcr]
      simp only [follow, placed, List.map_cons, List.cons.injEq, true_and]
      exact follow_sizes size c r _
    constructor
    · intro e
      have ha : Alone b.cells := by
        rw [← rowStarts_all size (p + 20 * b.rows.length), ← e, follow_length, hcr]
        simp
      exact ⟨ha, (key ha).mp e⟩
    · rintro ⟨ha, hsame⟩
      exact (key ha).mpr hsame

/-- The file format counts the first offset from the second ROW record.  For every block of every sheet the first
    position found that way is 20 bytes after the first cell, so no DBCELL record leads to the first cell of each row. -/
theorem c67_shifted (size : Cell α → Nat) (cells : List (Cell α)) (heights : List RowHeight) (R : List Nat)
    (old : St α) (off : Nat) (ho : Ordered Cell.key cells) (hh : HtSorted heights) (hlen : cells.length < 2 ^ 32)
    (hR : RowList cells heights R) (hst : NoStall cells R) :
    ∃ n evs s', (∀ fuel, run size heights (fuel + n) off (enter cells old) = .done evs s') ∧
      (cells ≠ [] → trailers size off off [] evs ≠ []) ∧
      ∀ t ∈ trailers size off off [] evs, (follow (t.start + 20) t.offs).head? = t.cells.head?.map (·.1 + 20) ∧ ¬ t.leads 20 := by
  have hs := rowSorted_of_ordered ho
  rw [rowList_unique hR hs hh] at hst
  obtain ⟨bs, hb⟩ := (blocks_some_iff cells heights hs hh).mpr hst
  obtain ⟨n, s', h⟩ := run_blocks size heights cells old off bs hlen hb
  refine ⟨n, _, s', fun fuel => (h fuel).1, ?_, ?_⟩
  · intro hne e
    have h1 := trailers_length size bs off
    rw [e] at h1
    have : bs = [] := List.length_eq_zero_iff.mp h1.symm
    subst this
    exact hne (blocks_cells cells heights [] hb).symm
  · intro t ht
    obtain ⟨b, hbm, e⟩ := trailers_blocks size bs off t ht
    have hne := blocks_full cells heights bs hb b hbm
    have hrows := (blocks_length cells heights bs hb b hbm).1
    generalize t.start = p at e
    subst e
    obtain ⟨c, r, hcr⟩ := List.exists_cons_of_ne_nil hne
    have hhead : (follow (p + 20) ((offsOf size b.rows.length b.cells).map (· % 2 ^ 16))).head? =
        some (p + 20 * b.rows.length + 20) := by
      rw [hcr, offsOf, List.map_cons, Nat.mod_eq_of_lt (by omega), follow]
      simp only [List.head?_cons, Option.some.injEq]
      omega
    refine ⟨?_, ?_⟩
    · simp only [Block.trailer]
      rw [hhead, hcr]
      rfl
    · simp only [Trailer.leads, Block.trailer]
      intro e0
      rw [e0, hcr, placed, rowStarts] at hhead
      simp at hhead

/-! ### Concrete cases -/

/-- Two cells in row 2, one in row 5: the offsets are 60, 14 and 14; counted from the first ROW record they lead to each
    cell in turn, not to the beginnings of the rows. -/
example : trailers (fun _ => 14) 0 0 [] [.row 2 1 4 none, .row 3 1 0 (some ⟨3, 400, none⟩), .row 5 0 0 none,
      .cell (⟨0, 2, 1, ()⟩ : Cell Unit), .cell ⟨1, 2, 4, ()⟩, .cell ⟨2, 5, 0, ()⟩, .dbcell 102 [60, 14, 14]] =
    [⟨102, 102, [60, 14, 14], 0, [(60, ⟨0, 2, 1, ()⟩), (74, ⟨1, 2, 4, ()⟩), (88, ⟨2, 5, 0, ()⟩)]⟩] := rfl

example : rowStarts [(60, (⟨0, 2, 1, ()⟩ : Cell Unit)), (74, ⟨1, 2, 4, ()⟩), (88, ⟨2, 5, 0, ()⟩)] = [60, 88] := by
  simp [rowStarts, List.dropWhile]

example : follow 0 [60, 14, 14] = [60, 74, 88] := rfl

/-- A block for which the offsets do lead to the rows if counted from the first ROW record. -/
example : (⟨68, 68, [40, 14], 0, [(40, (⟨0, 2, 1, ()⟩ : Cell Unit)), (54, ⟨1, 4, 4, ()⟩)]⟩ : Trailer Unit).leads 0 := by
  simp [Trailer.leads, follow, rowStarts, List.dropWhile]

end Xls.Rows
