import Verif.Note.InSheet
/-
C36, C37 and C47: comments in a saved sheet.
-/
namespace Xls.Note
open Xls.Biff Xls.Unit Xls.Spec Xls.Sheet Xls.Cells Xls.Rows

variable {α : Type}

/-! ### C36 -/

/-- The bytes of the drawing records of a saved sheet. -/
theorem drawing_part {cd : Cell α → Bytes} {cs : Cell α → Nat} (ht : (env cd cs).Typed) {D : Data α Note} {off fuel : Nat} {s : Sheet.St α}
    {us : List Book.U} {x : Data α Note × Sheet.St α} (hs : Ready D s) (hlen : D.cells.length < 2 ^ 32) (h16 : D.notes.length ≤ 65535)
    (hd : drain (next (env cd cs)) fuel off 0 (D, s) = .done us x) (hf : ∀ n ∈ D.notes, n.full.length < 32767) :
    records (inSection 7 us).flatten = some (recsFrom D.index D.notes.length s.spid 0 D.notes) := by
  obtain ⟨bs, hb, rfl, -, -⟩ := drain_done hs hlen h16 hd
  rw [inSection_units ht, layout_draw, drawEvs_recs _ _ _ _ _ _ hf]
  exact records_all _ (recsFrom_fits _ _ _ _ _ hf)

/-- C36 (drawing): in a saved sheet with comments the drawing, spread over the sheet's MSODRAWING records, can be
    read as the file format says — every nested length ends exactly where its contents end — and it announces one shape per
    comment and one for the group, the number of the last one, and the shapes are as many as announced. -/
theorem c36_drawing (cd : Cell α → Bytes) (cs : Cell α → Nat) (ht : (env cd cs).Typed) (D : Data α Note) (off fuel : Nat) (s : Sheet.St α)
    (us : List Book.U) (x : Data α Note × Sheet.St α) (hs : Ready D s) (hlen : D.cells.length < 2 ^ 32) (h16 : D.notes.length ≤ 65535)
    (hd : drain (next (env cd cs)) fuel off 0 (D, s) = .done us x) (hn : D.notes ≠ [])
    (hf : ∀ n ∈ D.notes, n.full.length < 32767) :
    ((records (inSection 7 us).flatten).bind fun rs => readDrawing (drawingBytes rs)) =
      some { count := D.notes.length + 1
             last := ((D.index + 1) * 1000 + 24 + s.spid + D.notes.length) % 2 ^ 32
             ids := (List.range (D.notes.length + 1)).map fun j => ((D.index + 1) * 1000 + 24 + s.spid + j) % 2 ^ 32 } := by
  rw [drawing_part ht hs hlen h16 hd hf, Option.bind_some, recsFrom_whole _ _ _ hn (by omega), container_read _ _ _ (by omega)]
  unfold makeSPID
  simp only [Nat.add_assoc]

/-- C36 (text): each comment has one object record, and a text record whose announced number of characters is the
    number written; the characters are the author, a colon, a line feed and the text; the announced number of
    formatting bytes is the number written. -/
theorem c36_text (cd : Cell α → Bytes) (cs : Cell α → Nat) (ht : (env cd cs).Typed) (D : Data α Note) (off fuel : Nat) (s : Sheet.St α)
    (us : List Book.U) (x : Data α Note × Sheet.St α) (hs : Ready D s) (hlen : D.cells.length < 2 ^ 32) (h16 : D.notes.length ≤ 65535)
    (hd : drain (next (env cd cs)) fuel off 0 (D, s) = .done us x) (hf : ∀ n ∈ D.notes, n.full.length < 32767) :
    (inSection 7 us).map (fun b => (records b).bind readComment) =
      D.notes.zipIdx.map fun p => some
        { object := p.2 + 1, text := p.1.author ++ [58, 10] ++ p.1.text,
          runs := [(0, 1), (p.1.author.length + 2, 0), (p.1.author.length + 2 + p.1.text.length, 0)] } := by
  obtain ⟨bs, hb, rfl, -, -⟩ := drain_done hs hlen h16 hd
  rw [inSection_units ht, layout_draw, List.map_map]
  have key : ∀ (l : List Note) (sp k : Nat), (∀ n ∈ l, n.full.length < 32767) → k + l.length ≤ 65535 →
      (drawEvs sp k l : List (Ev α Note)).map ((fun b => (records b).bind readComment) ∘ Ev.bytes (env cd cs) D) =
        (l.zipIdx k).map fun p => some
          { object := p.2 + 1, text := p.1.author ++ [58, 10] ++ p.1.text,
            runs := [(0, 1), (p.1.author.length + 2, 0), (p.1.author.length + 2 + p.1.text.length, 0)] } := by
    intro l
    induction l with
    | nil => intro sp k _ _; rfl
    | cons n r ih =>
      intro sp k h hk
      rw [List.length_cons] at hk
      have he : Ev.bytes (env cd cs) D (Ev.drawing sp k n) = drawing D.index D.notes.length sp k n := rfl
      rw [drawEvs, List.map_cons, ih _ _ (fun y hy => h y (by simp [hy])) (by omega), List.zipIdx_cons, List.map_cons, Function.comp_apply, he,
        drawing_records _ _ _ _ _ (h n (by simp)), Option.bind_some, unit_comment _ _ _ _ _ (h n (by simp)),
        Nat.mod_eq_of_lt (by omega)]
      simp only [Note.full, List.length_append, List.length_cons, List.length_nil]
  exact key D.notes s.spid 0 hf (by omega)

/-! ### C37 -/

theorem ids_of_sheet {cd : Cell α → Bytes} {cs : Cell α → Nat} (ht : (env cd cs).Typed) {D : Data α Note} {off fuel : Nat} {s : Sheet.St α}
    {us : List Book.U} {x : Data α Note × Sheet.St α} (hs : Ready D s) (hlen : D.cells.length < 2 ^ 32) (h16 : D.notes.length ≤ 65535)
    (hd : drain (next (env cd cs)) fuel off 0 (D, s) = .done us x) (hn : D.notes ≠ [])
    (hf : ∀ n ∈ D.notes, n.full.length < 32767) :
    sheetIds (inSection 7 us).flatten =
      some ((List.range (D.notes.length + 1)).map fun j => ((D.index + 1) * 1000 + 24 + s.spid + j) % 2 ^ 32) := by
  unfold sheetIds
  rw [c36_drawing cd cs ht D off fuel s us x hs hlen h16 hd hn hf]
  rfl

/-- C37 within one sheet: no two shapes of a saved sheet have the same identifier. -/
theorem c37_within_sheet (cd : Cell α → Bytes) (cs : Cell α → Nat) (ht : (env cd cs).Typed) (D : Data α Note) (off fuel : Nat)
    (s : Sheet.St α) (us : List Book.U) (x : Data α Note × Sheet.St α) (hs : Ready D s) (hlen : D.cells.length < 2 ^ 32)
    (h16 : D.notes.length ≤ 65535) (hd : drain (next (env cd cs)) fuel off 0 (D, s) = .done us x) (hn : D.notes ≠ [])
    (hf : ∀ n ∈ D.notes, n.full.length < 32767) :
    ∃ ids, sheetIds (inSection 7 us).flatten = some ids ∧ ids.length = D.notes.length + 1 ∧ ids.Nodup := by
  refine ⟨_, ids_of_sheet ht hs hlen h16 hd hn hf, by simp, ?_⟩
  rw [List.Nodup, List.pairwise_map]
  refine List.Pairwise.imp_of_mem ?_ List.nodup_range
  intro a b ha hb hab h
  simp only [List.mem_range] at ha hb
  omega

/-- A sheet that has been pulled to the end: number, shape counter at the start, comments, and the units. -/
structure Pulled (cd : Cell α → Bytes) (cs : Cell α → Nat) (D : Data α Note) (sp : Nat) (us : List Book.U) : Prop where
  exec : ∃ off fuel s x, s.spid = sp ∧ Ready D s ∧ drain (next (env cd cs)) fuel off 0 (D, s) = .done us x
  cells : D.cells.length < 2 ^ 32
  notes : D.notes.length ≤ 65535
  texts : ∀ n ∈ D.notes, n.full.length < 32767

theorem Pulled.ids {cd : Cell α → Bytes} {cs : Cell α → Nat} (ht : (env cd cs).Typed) {D : Data α Note} {sp : Nat} {us : List Book.U}
    (h : Pulled cd cs D sp us) (hn : D.notes ≠ []) : sheetIds (inSection 7 us).flatten =
      some ((List.range (D.notes.length + 1)).map fun j => ((D.index + 1) * 1000 + 24 + sp + j) % 2 ^ 32) := by
  obtain ⟨off, fuel, s, x, rfl, h1, h2⟩ := h.exec
  exact ids_of_sheet ht h1 h.cells h.notes h2 hn h.texts

/-- C37 across sheets, for a first save (the shape counters are 0) of at most 999 comments per sheet: no shape of one sheet has the
    identifier of a shape of another sheet.  The full claim, without the two limits, is false:
    `c37_thousand_collide`, `c37_second_save_collides`. -/
theorem c37_across_sheets_partial (cd : Cell α → Bytes) (cs : Cell α → Nat) (ht : (env cd cs).Typed) (D₁ D₂ : Data α Note)
    (us₁ us₂ : List Book.U) (h₁ : Pulled cd cs D₁ 0 us₁) (h₂ : Pulled cd cs D₂ 0 us₂) (hne : D₁.index ≠ D₂.index)
    (hi₁ : D₁.index < 65536) (hi₂ : D₂.index < 65536) (hc₁ : D₁.notes.length ≤ 999) (hc₂ : D₂.notes.length ≤ 999)
    (ids₁ ids₂ : List Nat) (e₁ : sheetIds (inSection 7 us₁).flatten = some ids₁) (e₂ : sheetIds (inSection 7 us₂).flatten = some ids₂)
    (hn₁ : D₁.notes ≠ []) (hn₂ : D₂.notes ≠ []) : ∀ a ∈ ids₁, a ∉ ids₂ := by
  rw [h₁.ids ht hn₁] at e₁
  rw [h₂.ids ht hn₂] at e₂
  obtain rfl := Option.some.inj e₁
  obtain rfl := Option.some.inj e₂
  intro a ha hb
  simp only [List.mem_map, List.mem_range] at ha hb
  obtain ⟨j, hj, rfl⟩ := ha
  obtain ⟨k, hk, hjk⟩ := hb
  rw [Nat.mod_eq_of_lt (by omega), Nat.mod_eq_of_lt (by omega)] at hjk
  rcases Nat.lt_or_gt_of_ne hne with h | h <;> omega

/-- C37 is false for 1001 comments: a sheet with that many shares a comment's identifier with the next sheet's first comment. -/
theorem c37_thousand_collide (cd : Cell α → Bytes) (cs : Cell α → Nat) (ht : (env cd cs).Typed) (D₁ D₂ : Data α Note)
    (us₁ us₂ : List Book.U) (h₁ : Pulled cd cs D₁ 0 us₁) (h₂ : Pulled cd cs D₂ 0 us₂) (hi : D₂.index = D₁.index + 1)
    (hi₁ : D₁.index < 65536) (hc₁ : 1001 ≤ D₁.notes.length) (hn₂ : D₂.notes ≠ []) :
    ∃ ids₁ ids₂ : List Nat, sheetIds (inSection 7 us₁).flatten = some ids₁ ∧ sheetIds (inSection 7 us₂).flatten = some ids₂ ∧
      ∃ a, ids₁[1001]? = some a ∧ ids₂[1]? = some a := by
  have hn₁ : D₁.notes ≠ [] := by intro h; rw [h] at hc₁; simp at hc₁
  have hl₂ : 0 < D₂.notes.length := List.length_pos_iff.mpr hn₂
  refine ⟨_, _, h₁.ids ht hn₁, h₂.ids ht hn₂, ((D₁.index + 1) * 1000 + 24 + 0 + 1001) % 2 ^ 32, ?_, ?_⟩
  · rw [List.getElem?_map, List.getElem?_range (by omega)]; rfl
  · rw [List.getElem?_map, List.getElem?_range (by omega), Option.map_some, hi]
    refine congrArg some ?_
    omega

/-- The shape counter of a sheet is not set back after a save: it has grown by the number of comments plus one. -/
theorem c37_counter_grows (cd : Cell α → Bytes) (cs : Cell α → Nat) (D : Data α Note) (off fuel : Nat) (s : Sheet.St α)
    (us : List Book.U) (x : Data α Note × Sheet.St α) (hs : Ready D s) (hlen : D.cells.length < 2 ^ 32) (h16 : D.notes.length ≤ 65535)
    (hd : drain (next (env cd cs)) fuel off 0 (D, s) = .done us x) (hn : D.notes ≠ []) :
    x.1 = D ∧ Ready D x.2 ∧ x.2.spid = (s.spid + D.notes.length + 1) % 2 ^ 32 := by
  obtain ⟨bs, -, -, h1, h2, h3⟩ := drain_done hs hlen h16 hd
  exact ⟨h1, h2, by rw [h3, spidEnd_zero _ _ hn]⟩

/-- C37 is false for a second save of the same workbook: a sheet with 600 comments then shares a comment's identifier with the next
    sheet's only comment, though both have fewer than 1000. -/
theorem c37_second_save_collides (cd : Cell α → Bytes) (cs : Cell α → Nat) (ht : (env cd cs).Typed) (D₁ D₂ : Data α Note)
    (off₁ fuel₁ off₂ fuel₂ off₁' fuel₁' off₂' fuel₂' : Nat) (s₁ s₂ : Sheet.St α) (us₁ us₂ us₁' us₂' : List Book.U)
    (x₁ x₂ x₁' x₂' : Data α Note × Sheet.St α) (hs₁ : Ready D₁ s₁) (hs₂ : Ready D₂ s₂) (hz₁ : s₁.spid = 0) (hz₂ : s₂.spid = 0)
    (hlen₁ : D₁.cells.length < 2 ^ 32) (hlen₂ : D₂.cells.length < 2 ^ 32)
    (hd₁ : drain (next (env cd cs)) fuel₁ off₁ 0 (D₁, s₁) = .done us₁ x₁) (hd₂ : drain (next (env cd cs)) fuel₂ off₂ 0 (D₂, s₂) = .done us₂ x₂)
    (hd₁' : drain (next (env cd cs)) fuel₁' off₁' 0 x₁ = .done us₁' x₁') (hd₂' : drain (next (env cd cs)) fuel₂' off₂' 0 x₂ = .done us₂' x₂')
    (hi : D₂.index = D₁.index + 1) (hi₁ : D₁.index < 65536) (hc₁ : D₁.notes.length = 600) (hc₂ : D₂.notes.length = 1)
    (hf₁ : ∀ n ∈ D₁.notes, n.full.length < 32767) (hf₂ : ∀ n ∈ D₂.notes, n.full.length < 32767) :
    ∃ ids₁ ids₂ : List Nat, sheetIds (inSection 7 us₁').flatten = some ids₁ ∧ sheetIds (inSection 7 us₂').flatten = some ids₂ ∧
      ∃ a, ids₁[402]? = some a ∧ ids₂[1]? = some a := by
  have hn₁ : D₁.notes ≠ [] := by intro h; rw [h] at hc₁; simp at hc₁
  have hn₂ : D₂.notes ≠ [] := by intro h; rw [h] at hc₂; simp at hc₂
  obtain ⟨a1, a2, a3⟩ := c37_counter_grows cd cs D₁ off₁ fuel₁ s₁ us₁ x₁ hs₁ hlen₁ (by omega) hd₁ hn₁
  obtain ⟨b1, b2, b3⟩ := c37_counter_grows cd cs D₂ off₂ fuel₂ s₂ us₂ x₂ hs₂ hlen₂ (by omega) hd₂ hn₂
  obtain ⟨y₁, t₁⟩ := x₁
  obtain ⟨y₂, t₂⟩ := x₂
  simp only at a1 a2 a3 b1 b2 b3
  subst a1 b1
  refine ⟨_, _, ids_of_sheet ht a2 hlen₁ (by omega) hd₁' hn₁ hf₁, ids_of_sheet ht b2 hlen₂ (by omega) hd₂' hn₂ hf₂,
    ((y₁.index + 1) * 1000 + 24 + t₁.spid + 402) % 2 ^ 32, ?_, ?_⟩
  · rw [List.getElem?_map, List.getElem?_range (by omega)]; rfl
  · rw [List.getElem?_map, List.getElem?_range (by omega), Option.map_some, hi]
    refine congrArg some ?_
    rw [hz₁, hc₁] at a3
    rw [hz₂, hc₂] at b3
    omega

/-! ### C47 -/

/-- C47 (records): the comments of a saved sheet, read from its NOTE records as the file format says, have the row, column and author
    given, and each points to the object of the same comment in the drawing (`c36_text`). -/
theorem c47_notes (cd : Cell α → Bytes) (cs : Cell α → Nat) (ht : (env cd cs).Typed) (D : Data α Note) (off fuel : Nat) (s : Sheet.St α)
    (us : List Book.U) (x : Data α Note × Sheet.St α) (hs : Ready D s) (hlen : D.cells.length < 2 ^ 32) (h16 : D.notes.length ≤ 65535)
    (hd : drain (next (env cd cs)) fuel off 0 (D, s) = .done us x)
    (hf : ∀ n ∈ D.notes, n.row.toNat < 65536 ∧ n.col.toNat < 65536 ∧ n.author.length < 32000) :
    (inSection 8 us).map (fun b => (payloadOf b).bind readNote) =
      D.notes.zipIdx.map fun p => some { row := p.1.row.toNat, col := p.1.col.toNat, object := p.2 + 1, author := p.1.author } := by
  obtain ⟨bs, hb, rfl, -, -⟩ := drain_done hs hlen h16 hd
  rw [inSection_units ht, layout_note, List.map_map]
  have key : ∀ (l : List Note) (k : Nat), (∀ n ∈ l, n.row.toNat < 65536 ∧ n.col.toNat < 65536 ∧ n.author.length < 32000) →
      k + l.length ≤ 65535 →
      (noteEvs k l : List (Ev α Note)).map ((fun b => (payloadOf b).bind readNote) ∘ Ev.bytes (env cd cs) D) =
        (l.zipIdx k).map fun p => some { row := p.1.row.toNat, col := p.1.col.toNat, object := p.2 + 1, author := p.1.author } := by
    intro l
    induction l with
    | nil => intro k _ _; rfl
    | cons n r ih =>
      intro k h hk
      rw [List.length_cons] at hk
      obtain ⟨h1, h2, h3⟩ := h n (by simp)
      have he : Ev.bytes (env cd cs) D (Ev.note k n) = enc (0x1C, notePayload k n) := rfl
      have hl : (strBytes n.author .len2).length < 65000 := by
        rw [c04_string_size]
        simp only [unicodeStringLength]
        split <;> omega
      have hr : readNote (notePayload k n) = some ⟨n.row.toNat, n.col.toNat, k + 1, n.author⟩ := by
        unfold notePayload readNote
        simp only [List.append_assoc, takeLE_leN_append, c04_len2_roundtrip n.author [0] (by omega)]
        rw [show n.row.toNat % 65536 % 256 ^ 2 = n.row.toNat by omega, show n.col.toNat % 65536 % 256 ^ 2 = n.col.toNat by omega,
          show (k + 1) % 65536 % 256 ^ 2 = k + 1 by omega]
      rw [noteEvs, List.map_cons, ih _ (fun y hy => h y (by simp [hy])) (by omega), List.zipIdx_cons, List.map_cons, Function.comp_apply, he,
        payloadOf_enc _ _ (by simp only [notePayload, List.length_append, leN_length, List.length_cons, List.length_nil]; omega),
        Option.bind_some, hr]
  exact key D.notes 0 hf (by omega)

theorem shrink_some : ∀ (fuel cols lines : Nat), lines ≤ 20 * 2 ^ fuel → ∃ p, shrink (fuel + 1) cols lines = some p := by
  intro fuel
  induction fuel with
  | zero => intro cols lines h; exact ⟨(cols, lines), by rw [shrink, if_neg (by omega)]⟩
  | succ f ih =>
    intro cols lines h
    rw [shrink]
    split
    · exact ih _ _ (by rw [Nat.pow_succ] at h; omega)
    · exact ⟨_, rfl⟩

/-- C47 (call): the call always makes a comment at the cell given; author and text are kept if they have 1 to 54 and 1 to
    2048 characters, and replaced by a fixed text if not. -/
theorem c47_call (row col : UInt32) (author text : List UInt16) :
    ∃ n, mk row col author text = some n ∧ n.row = row ∧ n.col = col ∧
      (1 ≤ author.length ∧ author.length ≤ 54 → n.author = author) ∧ (1 ≤ text.length ∧ text.length ≤ 2048 → n.text = text) ∧
      (author.length = 0 ∨ 54 < author.length → n.author = authorWarning) ∧ (text.length = 0 ∨ 2048 < text.length → n.text = textWarning) ∧
      1 ≤ n.author.length ∧ n.author.length ≤ 54 ∧ 1 ≤ n.text.length ∧ n.text.length ≤ 2048 ∧ n.full.length < 32767 := by
  unfold mk
  simp only
  obtain ⟨p, hp⟩ := shrink_some 16 2 ((1 + (((if author.length = 0 ∨ author.length > 54 then authorWarning else author).length +
    (if text.length = 0 ∨ text.length > 2048 then textWarning else text).length + 2) / 11 +
      countNL (if text.length = 0 ∨ text.length > 2048 then textWarning else text) false + 1) / 2 + 1) % 65536) (by omega)
  rw [hp]
  refine ⟨_, rfl, rfl, rfl, ?_, ?_, ?_, ?_, ?_⟩
  · intro h; exact if_neg (by omega)
  · intro h; exact if_neg (by omega)
  · intro h; exact if_pos (by omega)
  · intro h; exact if_pos (by omega)
  · have ha : 1 ≤ (if author.length = 0 ∨ author.length > 54 then authorWarning else author).length ∧
        (if author.length = 0 ∨ author.length > 54 then authorWarning else author).length ≤ 54 := by
      split
      · decide
      · omega
    have ht : 1 ≤ (if text.length = 0 ∨ text.length > 2048 then textWarning else text).length ∧
        (if text.length = 0 ∨ text.length > 2048 then textWarning else text).length ≤ 2048 := by
      split
      · decide
      · omega
    refine ⟨ha.1, ha.2, ht.1, ht.2, ?_⟩
    simp only [Note.full, List.length_append, List.length_cons, List.length_nil]
    omega

/-! ### Concrete cases -/

def demoCell : Cell Unit → Bytes := fun c => enc (0x201, leN 2 c.row ++ leN 2 c.col ++ leN 2 15)

theorem demo_typed : (env demoCell fun _ => 10).Typed :=
  env_typed fun c => by unfold demoCell; rw [typeOf_enc _ _ (by omega)]; rfl

def demoNote (row col : UInt32) (a t : List UInt16) : Note := ⟨row, col, a, t, ⟨3, 1, 0xCD, 0, 0x27, 3, 0x7B, 4, 0x3B⟩, 0x08000050⟩

/-- A sheet with these comments and nothing else. -/
def demoSheet (i : Nat) (notes : List Note) : Data Unit Note :=
  { cells := [], heights := [], cols := [], notes := notes, merged := [], links := [], dvals := []
    dimension := List.replicate 14 0, defRowHeight := 15, defColWidth := 10, rowSplit := 0, colSplit := 0, active := true, index := i }

def demoState (notes : List Note) (sp : Nat) : Sheet.St Unit :=
  ⟨.init, [], ⟨.init, [], [], [], 0, 0, 0, 0, []⟩, 0, 0, notes.map fun _ => 0, [], [], [], sp⟩

theorem demo_drains (i off : Nat) (notes : List Note) (h16 : notes.length ≤ 65535) (t : Sheet.St Unit)
    (hr : Ready (demoSheet i notes) t) :
    ∃ fuel us x, drain (next (env demoCell fun _ => 10)) fuel off 0 (demoSheet i notes, t) = .done us x := by
  obtain ⟨n, us, x, h⟩ := c21_terminates_without_heights (env demoCell fun _ => 10) (demoSheet i notes) off t hr .nil rfl
    (by simp [demoSheet]) h16
  exact ⟨0 + n, us, x, h 0⟩

theorem demo_ready (i sp : Nat) (notes : List Note) : Ready (demoSheet i notes) (demoState notes sp) :=
  ⟨rfl, rfl, by simp [demoState, demoSheet]⟩

theorem demo_pulled (i : Nat) (notes : List Note) (h16 : notes.length ≤ 65535) (hf : ∀ n ∈ notes, n.full.length < 32767) :
    ∃ us, Pulled demoCell (fun _ => 10) (demoSheet i notes) 0 us := by
  obtain ⟨fuel, us, x, h⟩ := demo_drains i 1000 notes h16 _ (demo_ready i 0 notes)
  exact ⟨us, ⟨1000, fuel, demoState notes 0, x, rfl, demo_ready i 0 notes, h⟩, by simp [demoSheet], h16, hf⟩

/-- Two comments in the second sheet, three in the third: the hypotheses of C36, C37 and C47 hold, and the identifiers are
    2024 (the group), 2025, 2026, and 3024 to 3027. -/
example : ∃ us₁ us₂,
    Pulled demoCell (fun _ => 10) (demoSheet 1 [demoNote 0 0 [65] [66, 67], demoNote 3 2 [0x3B1] [68]]) 0 us₁ ∧
    Pulled demoCell (fun _ => 10) (demoSheet 2 [demoNote 0 0 [65] [66], demoNote 0 1 [65] [67], demoNote 9 1 [65] [68]]) 0 us₂ ∧
    sheetIds (inSection 7 us₁).flatten = some [2024, 2025, 2026] ∧
    sheetIds (inSection 7 us₂).flatten = some [3024, 3025, 3026, 3027] := by
  obtain ⟨us₁, h₁⟩ := demo_pulled 1 [demoNote 0 0 [65] [66, 67], demoNote 3 2 [0x3B1] [68]] (by decide) (by decide)
  obtain ⟨us₂, h₂⟩ := demo_pulled 2 [demoNote 0 0 [65] [66], demoNote 0 1 [65] [67], demoNote 9 1 [65] [68]] (by decide) (by decide)
  refine ⟨us₁, us₂, h₁, h₂, ?_, ?_⟩
  · rw [h₁.ids demo_typed (by simp [demoSheet])]; rfl
  · rw [h₂.ids demo_typed (by simp [demoSheet])]; rfl

/-- C37 as stated is false: two sheets, 1001 comments in the first and one in the second, share an identifier in the first save. -/
theorem c37_not_unique : ∃ (l₁ l₂ : List Note) (us₁ us₂ : List Book.U) (ids₁ ids₂ : List Nat),
    Pulled demoCell (fun _ => 10) (demoSheet 0 l₁) 0 us₁ ∧ Pulled demoCell (fun _ => 10) (demoSheet 1 l₂) 0 us₂ ∧
    sheetIds (inSection 7 us₁).flatten = some ids₁ ∧ sheetIds (inSection 7 us₂).flatten = some ids₂ ∧
      ∃ a, ids₁[1001]? = some a ∧ ids₂[1]? = some a := by
  have hl : (List.replicate 1001 (demoNote 0 0 [65] [66])).length = 1001 := List.length_replicate
  obtain ⟨us₁, h₁⟩ := demo_pulled 0 (List.replicate 1001 (demoNote 0 0 [65] [66])) (by rw [hl]; decide)
    (fun n hn => by rw [List.eq_of_mem_replicate hn]; decide)
  obtain ⟨us₂, h₂⟩ := demo_pulled 1 [demoNote 0 0 [65] [66]] (by decide) (by decide)
  obtain ⟨i₁, i₂, e₁, e₂, e₃⟩ := c37_thousand_collide _ _ demo_typed _ _ us₁ us₂ h₁ h₂ rfl (by decide)
    (by show 1001 ≤ (List.replicate 1001 _).length; rw [hl]; decide) (by simp [demoSheet])
  exact ⟨_, _, us₁, us₂, i₁, i₂, h₁, h₂, e₁, e₂, e₃⟩

/-- The hypotheses of `c37_second_save_collides` can be met. -/
example : ∃ (l₁ l₂ : List Note) (f₁ f₂ f₁' f₂' : Nat) (us₁ us₂ us₁' us₂' : List Book.U) (x₁ x₂ x₁' x₂' : Data Unit Note × Sheet.St Unit),
    l₁.length = 600 ∧ l₂.length = 1 ∧
    drain (next (env demoCell fun _ => 10)) f₁ 1000 0 (demoSheet 0 l₁, demoState l₁ 0) = .done us₁ x₁ ∧
    drain (next (env demoCell fun _ => 10)) f₂ 1000 0 (demoSheet 1 l₂, demoState l₂ 0) = .done us₂ x₂ ∧
    drain (next (env demoCell fun _ => 10)) f₁' 1000 0 x₁ = .done us₁' x₁' ∧
    drain (next (env demoCell fun _ => 10)) f₂' 1000 0 x₂ = .done us₂' x₂' := by
  have two : ∀ (i : Nat) (l : List Note), l ≠ [] → l.length ≤ 65535 → ∃ f f' us us' x x',
      drain (next (env demoCell fun _ => 10)) f 1000 0 (demoSheet i l, demoState l 0) = .done us x ∧
      drain (next (env demoCell fun _ => 10)) f' 1000 0 x = .done us' x' := by
    intro i l hn h16
    obtain ⟨f, us, x, h⟩ := demo_drains i 1000 l h16 _ (demo_ready i 0 l)
    obtain ⟨a, b, -⟩ := c37_counter_grows _ _ _ _ _ _ _ _ (demo_ready i 0 l) (by simp [demoSheet]) h16 h hn
    obtain ⟨y, t⟩ := x
    simp only at a b
    subst a
    obtain ⟨f', us', x', h'⟩ := demo_drains i 1000 l h16 t b
    exact ⟨f, f', us, us', _, x', h, h'⟩
  have hl : (List.replicate 600 (demoNote 0 0 [65] [66])).length = 600 := List.length_replicate
  obtain ⟨f₁, f₁', us₁, us₁', x₁, x₁', a, b⟩ := two 0 (List.replicate 600 (demoNote 0 0 [65] [66]))
    (by intro h; rw [h] at hl; simp at hl) (by rw [hl]; decide)
  obtain ⟨f₂, f₂', us₂, us₂', x₂, x₂', c, d⟩ := two 1 [demoNote 0 0 [65] [66]] (by simp) (by decide)
  exact ⟨_, _, f₁, f₂, f₁', f₂', us₁, us₂, us₁', us₂', x₁, x₂, x₁', x₂', hl, rfl, a, c, b, d⟩

/-- A comment made by the call, and its limits: 54 characters are kept, 55 are not. -/
example : (mk 3 4 [65] [66, 10, 67]).map (fun n => (n.row, n.col, n.author, n.text)) = some (3, 4, [65], [66, 10, 67]) := by decide

example : (mk 3 4 (List.replicate 55 65) [66]).map (·.author.length) = some 32 ∧
    (mk 3 4 (List.replicate 54 65) [66]).map (·.author.length) = some 54 := by decide

end Xls.Note
