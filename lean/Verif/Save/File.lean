import Verif.Save.Small
import Verif.Ole.Props
/-
C43 to the end: saving terminates, and opening the saved file as a reader does gives back every substream.
-/
namespace Xls.Save
open Xls.Biff Xls.Book Xls.Unit Xls.Cells

variable {α : Type}

/-! ### A reader that follows the sheet table -/

/-- The records from the beginning of the bytes up to and including the first EOF record; what follows does not matter. -/
def readSubF : Nat → Bytes → Option (List Rec)
  | fuel + 1, a :: b :: c :: d :: r =>
    if ofLE [c, d] ≤ r.length then
      if ofLE [a, b] = 0x0A then some [(ofLE [a, b], r.take (ofLE [c, d]))]
      else (readSubF fuel (r.drop (ofLE [c, d]))).map ((ofLE [a, b], r.take (ofLE [c, d])) :: ·)
    else none
  | _, _ => none

def readSub (bs : Bytes) : Option (List Rec) := readSubF bs.length bs

/-- Read the globals at the start of the stream, then each sheet at the position that the sheet table gives: names and records. -/
def openBook (w : Bytes) : Option (List (List UInt16 × List Rec)) :=
  (readSub w).bind fun G => (sheetTable G).bind fun es => es.mapM fun e => (readSub (w.drop e.pos)).map fun R => (e.name, R)

theorem readSubF_all (l : List Rec) (p : Bytes) (rest : Bytes) (h : ∀ r ∈ l, Fits r ∧ r.1 ≠ 0x0A) (hp : p.length < 65536) :
    ∀ fuel, l.length < fuel → readSubF fuel (l.flatMap enc ++ enc (0x0A, p) ++ rest) = some (l ++ [(0x0A, p)]) := by
  have key : ∀ (r : Rec), Fits r → ∀ (f : Nat) (bs : Bytes), readSubF (f + 1) (enc r ++ bs) =
      if r.1 = 0x0A then some [r] else (readSubF f bs).map (r :: ·) := by
    intro r hf f bs
    obtain ⟨t, p⟩ := r
    obtain ⟨h1, h2⟩ := hf
    have e1 : ofLE [byteK 0 t, byteK 1 t] = t := by
      have := ofLE_leN 2 t
      rw [leN_two] at this
      rw [this]; exact Nat.mod_eq_of_lt h1
    have e2 : ofLE [byteK 0 p.length, byteK 1 p.length] = p.length := by
      have := ofLE_leN 2 p.length
      rw [leN_two] at this
      rw [this]; exact Nat.mod_eq_of_lt h2
    have he : enc (t, p) ++ bs = byteK 0 t :: byteK 1 t :: byteK 0 p.length :: byteK 1 p.length :: (p ++ bs) := by
      simp [enc, leN_two]
    rw [he]
    simp only [readSubF, e1, e2]
    rw [if_pos (by simp), List.drop_left, List.take_left]
  induction l with
  | nil =>
    intro fuel hf
    obtain ⟨f, rfl⟩ : ∃ f, fuel = f + 1 := ⟨fuel - 1, by omega⟩
    rw [List.flatMap_nil, List.nil_append, key _ ⟨by simp, hp⟩]
    simp
  | cons r t ih =>
    intro fuel hf
    obtain ⟨f, rfl⟩ : ∃ f, fuel = f + 1 := ⟨fuel - 1, by omega⟩
    obtain ⟨hr, hne⟩ := h r (by simp)
    rw [List.flatMap_cons, List.append_assoc, List.append_assoc, key r hr, if_neg hne, ← List.append_assoc,
      ih (fun x hx => h x (by simp [hx])) f (by simp at hf; omega)]
    rfl

theorem flatMap_enc_ge (l : List Rec) : l.length ≤ (l.flatMap enc).length := by
  induction l with
  | nil => simp
  | cons r t ih =>
    obtain ⟨a, b⟩ := r
    rw [List.flatMap_cons, List.length_append, enc_length, List.length_cons]
    omega

/-- A substream is read whatever follows it. -/
theorem readSub_sub {bof : Bytes} {R : List Rec} (h : IsSub bof R) (hf : ∀ r ∈ R, Fits r) (rest : Bytes) : readSub (R.flatMap enc ++ rest) = some R := by
  obtain ⟨mid, rfl, hm⟩ := h
  have e : ((0x809, bof) :: mid ++ [(0x0A, [])]).flatMap enc ++ rest = ((0x809, bof) :: mid).flatMap enc ++ enc (0x0A, []) ++ rest := by
    rw [List.flatMap_append]; simp
  unfold readSub
  rw [e]
  refine readSubF_all ((0x809, bof) :: mid) [] rest ?_ (by simp) _ ?_
  · intro r hr
    refine ⟨hf r (by simp only [List.cons_append, List.mem_cons, List.mem_append] at hr ⊢; rcases hr with h | h <;> simp [h]), ?_⟩
    rcases List.mem_cons.mp hr with rfl | hr
    · simp
    · exact (hm r hr).1
  · have := flatMap_enc_ge ((0x809, bof) :: mid)
    simp only [List.length_append, enc_length] at this ⊢
    omega

/-! ### Termination -/

/-- The sheets can be written: rows of cells and row heights do not stall (C17, C21). -/
structure Completes (D : Sheet.Data α Note.Note) : Prop where
  ordered : Ordered Cell.key D.cells
  sorted : Rows.HtSorted D.heights
  rows : ∃ R, Rows.RowList D.cells D.heights R ∧ Rows.NoStall D.cells R

/-- C43, termination: saving never runs into undefined behaviour and ends, if no sheet stalls.  Missing for the full claim:
    sheets that stall, which do run into undefined behaviour (`c21_stalled_runs_past_end`). -/
theorem c43_ends_partial (cd : Cell α → Bytes) (cs : Cell α → Nat) (D : Globals.Data) (gs : Globals.St)
    (sheets : List (Sheet.Data α Note.Note × Sheet.St α)) (s : Book.St (Globals.Data × Globals.St) (Sheet.Data α Note.Note × Sheet.St α))
    (hok : Saveable cd D gs sheets) (hs : start (D, gs) sheets s) (hc : ∀ x ∈ sheets, Completes x.1) :
    ∃ n us s', ∀ fuel ≥ n, Book.run Globals.next (Sheet.next (Note.env cd cs)) fuel s = .done us s' := by
  obtain ⟨g, hg, _⟩ := group_some D
  obtain ⟨t, ht⟩ := Globals.sst_some D
  obtain ⟨gs', htr, _⟩ := Globals.trace_units hg ht hok.fonts hok.xfs hok.phase
  have hsh : ∀ (l : List (Sheet.Data α Note.Note × Sheet.St α)), (∀ x ∈ l, x ∈ sheets) → ∀ off, ∃ uss l' offs,
      SheetsTrace (Sheet.next (Note.env cd cs)) off l uss l' offs := by
    intro l
    induction l with
    | nil => intro _ off; exact ⟨[], [], [], .nil⟩
    | cons x r ih =>
      intro hl off
      obtain ⟨r1, r2, r3⟩ := hok.ready x (hl x (by simp))
      obtain ⟨R, hR, hst⟩ := (hc x (hl x (by simp))).rows
      obtain ⟨n, us, y, hd⟩ := Sheet.c21_terminates_partial (Note.env cd cs) x.1 R off x.2 r1 (hc x (hl x (by simp))).ordered
        (hc x (hl x (by simp))).sorted r2 hR hst r3
      obtain ⟨wl, htr⟩ := trace_of_drain (0 + n) 0 x us (hd 0)
      obtain ⟨uss, l', offs, h'⟩ := ih (fun y hy => hl y (by simp [hy])) (off + wl)
      exact ⟨_, _, _, .cons htr h'⟩
  obtain ⟨uss, l', offs, h'⟩ := hsh sheets (fun _ h => h) ((Globals.units D g t).map (·.data.length)).sum
  obtain ⟨s', ⟨n, hn⟩, _⟩ := dump_run hs htr h' hok.some hok.few
  exact ⟨n, _, s', hn⟩

/-! ### Opening the file -/

/-- No record of the globals needs a CONTINUE record: at most 1000 sheets, names below 256 characters, no font, format, XF, style or
    palette payload above 8224 bytes. -/
structure SmallGlobals (D : Globals.Data) : Prop where
  sheets : D.bounds.length ≤ 1000
  names : ∀ b ∈ D.bounds, b.name.length < 256
  records : ∀ p ∈ D.defFonts ++ D.fonts ++ D.formats ++ D.defXfs ++ D.xfs ++ D.styles ++ [D.palette], p.length ≤ 8224

theorem not_oversize {u : U} (h : u.data.length ≤ 8228) : ¬u.oversize = true := by
  have : ¬u.paySize > maxRec := by simp only [U.paySize, maxRec]; omega
  simp [U.oversize, this]

theorem contHeaders_zero {u : U} (h : u.cont = true ∨ u.data.length ≤ 8228) : contHeaders u = 0 := by
  unfold contHeaders
  rw [if_neg]
  rcases h with h | h
  · simp [U.oversize, h]
  · exact not_oversize h

theorem withNotes_length (l : List Nat) : ∀ i, (Note.withNotes i l).length ≤ l.length := by
  induction l with
  | nil => intro i; simp [Note.withNotes]
  | cons c r ih =>
    intro i
    unfold Note.withNotes
    have := ih (i + 1)
    split <;> simp <;> omega

theorem globals_small {D : Globals.Data} (h : SmallGlobals D) {g t : List U} (hg : Globals.groupUnits D = some g) (ht : Globals.sstUnits D = some t) :
    ∀ u ∈ Globals.units D g t, contHeaders u = 0 := by
  intro u hu
  refine contHeaders_zero ?_
  have hrec : ∀ p, (p ∈ D.defFonts ++ D.fonts ++ D.formats ++ D.defXfs ++ D.xfs ++ D.styles ++ [D.palette]) → p.length + 4 ≤ 8228 :=
    fun p hp => by have := h.records p hp; omega
  have hunit : ∀ t p, p.length + 4 ≤ 8228 → (Globals.unit t p).cont = true ∨ (Globals.unit t p).data.length ≤ 8228 := by
    intro t p hp; right; simp only [Globals.unit, enc_length]; exact hp
  have hb := h.sheets
  simp only [Globals.units, Globals.headUnits, List.mem_append, List.mem_cons, List.mem_map, List.not_mem_nil, or_false] at hu
  rcases hu with ((rfl | rfl | rfl | rfl) | ⟨p, hp, rfl⟩ | ⟨p, hp, rfl⟩ | ⟨p, hp, rfl⟩ | ⟨p, hp, rfl⟩ | ⟨p, hp, rfl⟩ | ⟨p, hp, rfl⟩ | rfl) |
    ⟨b, hb', rfl⟩ | (rfl | rfl) | hu | hu | rfl
  · exact hunit _ _ (by simp [Sheet.bofPayload])
  · exact hunit _ _ (by simp)
  · exact hunit _ _ (by simp [Globals.Window1.payload])
  · exact hunit _ _ (by simp)
  · exact hunit _ _ (hrec p (by simp [hp]))
  · exact hunit _ _ (hrec p (by simp [hp]))
  · exact hunit _ _ (hrec p (by simp [hp]))
  · exact hunit _ _ (hrec p (by simp [hp]))
  · exact hunit _ _ (hrec p (by simp [hp]))
  · exact hunit _ _ (hrec p (by simp [hp]))
  · exact hunit _ _ (hrec _ (by simp))
  · right
    obtain ⟨x, i⟩ := b
    have hn := h.names x (List.fst_mem_of_mem_zipIdx hb')
    have hsz : (strBytes x.name .len1).length ≤ 2 * x.name.length + 2 := by
      rw [c04_string_size]; simp only [unicodeStringLength]; split <;> omega
    simp only [Globals.boundUnit, Globals.boundPayload, enc_length, List.length_append, leN_length]
    omega
  · exact hunit _ _ (by simp [Globals.supbookPayload])
  · refine hunit _ _ ?_
    simp only [Globals.externPayload, List.length_append, leN_length, externFrom_length]
    omega
  · right
    unfold Globals.groupUnits Note.makeDrawingGroup at hg
    split at hg
    · unfold Note.drawingGroup at hg
      cases hl : (Note.withNotes 0 (D.bounds.map (·.notes))).getLast? with
      | none => rw [hl] at hg; simp at hg
      | some last =>
        rw [hl] at hg
        simp only [Option.map_some, Option.some.injEq] at hg
        rw [← hg] at hu
        simp only [Option.toList, List.map_cons, List.map_nil, List.mem_singleton] at hu
        rw [hu]
        have hw := withNotes_length (D.bounds.map (·.notes)) 0
        rw [List.length_map] at hw
        simp only [enc_length, Note.drawData_length, List.length_append, leN_length, Note.clusters_length, Note.draw001, Note.draw002,
          List.length_cons, List.length_nil]
        omega
    · simp only [Option.map_some, Option.toList, List.map_nil, Option.some.injEq] at hg
      rw [← hg] at hu
      simp at hu
  · left
    unfold Globals.sstUnits at ht
    split at ht
    · simp only [Option.some.injEq] at ht
      rw [← ht] at hu
      simp at hu
    · obtain ⟨bs, _, rfl⟩ := Option.map_eq_some_iff.mp ht
      simp only [List.mem_singleton] at hu
      rw [hu]
  · exact hunit _ _ (by simp)

theorem sum_zero {β : Type} (f : β → Nat) (l : List β) (h : ∀ x ∈ l, f x = 0) : (l.map f).sum = 0 := by
  induction l with
  | nil => rfl
  | cons a r ih => simp [h a (by simp), ih fun x hx => h x (by simp [hx])]

/-- The globals are read from the start of the stream, whatever follows it. -/
theorem Parts.readGlobals {cd : Cell α → Bytes} {cs : Cell α → Nat} {D : Globals.Data} {gs : Globals.St}
    {sheets sheets' : List (Sheet.Data α Note.Note × Sheet.St α)} {us : List U} {bpos : List (Nat × Nat)} {bs : Bytes} {G : List Rec}
    {Rs : List (List Rec)} {gus : List U} {uss : List (List U)} {offs : List Nat} {A B : List Rec}
    (P : Parts cd cs D gs sheets sheets' us bpos bs G Rs gus uss offs A B) (pad : Bytes) : readSub (bs ++ pad) = some G := by
  obtain ⟨_, hfit⟩ := records_some P.recs
  have hsubG : IsSub (Sheet.bofPayload 5) G := by
    rw [P.headG]
    refine ⟨_, rfl, ?_⟩
    intro r hr
    rcases List.mem_append.mp hr with hr | hr
    · rcases List.mem_append.mp hr with hr | hr
      · exact (P.plain.1 r hr).1
      · exact boundRecs_inner _ _ r hr
    · exact (P.plain.2 r hr).1
  rw [P.bytes, List.flatMap_append, List.append_assoc]
  exact readSub_sub hsubG (fun r hr => hfit r (by simp [hr])) _

/-- C22 and C43 from the reader's side: whenever the globals need no CONTINUE record, no sheet's records do
    and the stream is below 4 GB, a reader that finds the sheets through the sheet table gets the names in order of
    creation and for each exactly its sheet's records, whatever bytes follow the stream (the container pads it).
    Missing for the full claim: larger records, where the sheet table is wrong (`c22_many_sheets`). -/
theorem c43_open_partial (cd : Cell α → Bytes) (cs : Cell α → Nat) (D : Globals.Data) (gs : Globals.St)
    (sheets : List (Sheet.Data α Note.Note × Sheet.St α)) (s s' : Book.St (Globals.Data × Globals.St) (Sheet.Data α Note.Note × Sheet.St α))
    (us : List U) (fuel : Nat) (hok : Saveable cd D gs sheets) (hs : start (D, gs) sheets s) (hsm : SmallGlobals D)
    (h : Book.run Globals.next (Sheet.next (Note.env cd cs)) fuel s = .done us s')
    (hsh : ∀ sh ∈ sheets, SmallSheet cd sh.1) :
    ∃ bs Rs, stream us s'.bpos = some bs ∧ Rs.length = sheets.length ∧ (bs.length < 2 ^ 32 → ∀ pad,
        openBook (bs ++ pad) = some ((D.bounds.map (·.name)).zip Rs)) ∧
      ∀ (i : Nat) sh, sheets[i]? = some sh → ∃ R vs fuel off x, Rs[i]? = some R ∧
        Sheet.drain (Sheet.next (Note.env cd cs)) fuel off 0 sh = .done vs x ∧ ShowsL (fun _ => none) vs R := by
  have hbig : ∀ sh ∈ sheets, ∀ f o vs x, Sheet.drain (Sheet.next (Note.env cd cs)) f o 0 sh = .done vs x → ∀ u ∈ vs, u.data.length ≤ 8228 := by
    intro sh hm f o vs x hd
    obtain ⟨r1, r2, r3⟩ := hok.ready sh hm
    exact sheet_small (hsh sh hm) r1 r2 r3 hd
  obtain ⟨bs, G, Rs, gus, uss, offs, A, B, P, hp, gs', hg, hgi⟩ := saved_parts hok hs h
  obtain ⟨hu, hv, ho, hst, hoff⟩ := sheetsTrace_parts P.sheetsTrace
  obtain ⟨bs2, rs2, G2, Rs2, es, k1, k2, k3, k4, k5, k6, k7, k8⟩ := c44_sheets_partial cd cs D gs sheets s s' us fuel hok hs hsm.names h
  have e1 : bs2 = bs := by rw [P.strm] at k1; exact (Option.some.inj k1).symm
  subst e1
  have e2 : rs2 = G ++ Rs.flatten := by rw [P.recs] at k2; exact (Option.some.inj k2).symm
  subst e2
  have e3 : G = G2 ∧ Rs = Rs2 := by rw [P.subs] at k3; simpa using k3
  obtain ⟨rfl, rfl⟩ := e3
  refine ⟨bs2, Rs, P.strm, P.len.1, ?_, k8⟩
  intro h32 pad
  obtain ⟨_, hfit⟩ := records_some P.recs
  have hleft : ∀ i, leftOut gus uss i = 0 := by
    intro i
    obtain ⟨g, t, hg, ht, rfl⟩ := P.units
    unfold leftOut
    rw [sum_zero _ _ (globals_small hsm hg ht), sum_zero]
    intro us hus
    refine sum_zero _ _ ?_
    intro u hu'
    obtain ⟨j, hj, rfl⟩ := List.mem_iff_getElem.mp (List.mem_of_mem_take hus)
    obtain ⟨sh, sh', o, wl, a, b, c, d⟩ := hst j uss[j] (by simp [hj])
    obtain ⟨f, hd⟩ := d.drain
    have := hbig sh (List.mem_of_getElem? a) f o _ _ hd u hu'
    unfold tailHeader
    rw [if_neg]
    exact fun hov => not_oversize this hov.1
  have hreadG : readSub (bs2 ++ pad) = some G := P.readGlobals pad
  have hesl : es.length = sheets.length := by
    have := congrArg List.length k5
    rw [List.length_map, List.length_map, hok.count] at this
    exact this
  -- the positions of the table
  have hpos : ∀ i (hi : i < es.length), es[i].pos = startOf G Rs i := by
    intro i hi
    obtain ⟨bs3, rs3, G3, Rs3, gus3, g3, uss3, offs3, q1, q2, q3, q4, q5, q6, q7⟩ := c22_positions_partial cd cs D gs sheets s s' us fuel hok hs h
    rw [P.strm] at q1
    obtain rfl := Option.some.inj q1
    rw [P.recs] at q2
    obtain rfl := Option.some.inj q2
    rw [P.subs] at q3
    simp only [Option.some.injEq, List.cons.injEq] at q3
    obtain ⟨rfl, rfl⟩ := q3
    obtain ⟨g', htr⟩ := P.trace
    obtain ⟨rfl, _⟩ := q4.det htr
    have hi' : i < sheets.length := by rw [← hesl]; exact hi
    obtain ⟨a1, a2, _⟩ := q7 i hi'
    have huss : leftOut gus3 uss3 i = 0 := by
      have s1 := startOf_eq P.showsG P.showsR i (by rw [hu]; omega)
      obtain ⟨hu3, hv3, ho3, hst3, hoff3⟩ := sheetsTrace_parts q5
      unfold leftOut
      have hz := hleft 0
      unfold leftOut at hz
      rw [show (gus3.map contHeaders).sum = 0 by omega, sum_zero]
      intro us hus
      refine sum_zero _ _ ?_
      intro u hu'
      obtain ⟨j, hj, rfl⟩ := List.mem_iff_getElem.mp (List.mem_of_mem_take hus)
      obtain ⟨sh, sh', o, wl, a, b, c, d⟩ := hst3 j uss3[j] (by simp [hj])
      obtain ⟨f, hd⟩ := d.drain
      have := hbig sh (List.mem_of_getElem? a) f o _ _ hd u hu'
      unfold tailHeader
      rw [if_neg]
      exact fun hov => not_oversize this hov.1
    rw [huss, Nat.sub_zero] at a2
    have hle : startOf G Rs i ≤ bs2.length := by
      have hsplit : G ++ Rs.flatten = (G ++ (Rs.take i).flatten) ++ (Rs.drop i).flatten := by
        rw [List.append_assoc, ← List.flatten_append, List.take_append_drop]
      rw [P.bytes, hsplit, List.flatMap_append, List.length_append]
      unfold startOf
      omega
    rw [Nat.mod_eq_of_lt (by omega)] at a2
    -- the table read in full and the positions alone agree
    have hagree : ∀ (l : List Bytes) (es : List SheetEntry), l.mapM readBound = some es → l.map (fun p => rdLE 4 p 0) = es.map fun e => some e.pos := by
      intro l
      induction l with
      | nil => intro es h; simp at h; simp [h]
      | cons p r ih =>
        intro es h
        rw [List.mapM_cons] at h
        cases hb : readBound p with
        | none => rw [hb] at h; simp at h
        | some e =>
          rw [hb] at h
          cases hm : r.mapM readBound with
          | none => rw [hm] at h; simp at h
          | some es' =>
            rw [hm] at h
            simp only [Option.pure_def, Option.bind_eq_bind, Option.bind_some, Option.some.injEq] at h
            subst h
            rw [List.map_cons, List.map_cons, ih es' hm]
            congr 1
            unfold readBound at hb
            simp only [rdLE, List.drop_zero]
            cases ht : takeLE 4 p with
            | none => rw [ht] at hb; simp at hb
            | some x =>
              rw [ht] at hb
              obtain ⟨pos, p1⟩ := x
              simp only at hb
              split at hb
              · simp at hb
              · split at hb
                · cases hb; rfl
                · simp at hb
    have := hagree _ _ k4
    have hpe : positions G = es.map fun e => some e.pos := by
      unfold positions
      rw [← this, List.map_map]
      rfl
    rw [hpe] at a2
    simp only [List.getElem?_map, List.getElem?_eq_getElem hi, Option.map_some, Option.some.injEq] at a2
    exact a2
  have hreadR : ∀ i (hi : i < es.length), readSub ((bs2 ++ pad).drop es[i].pos) = Rs[i]? := by
    intro i hi
    have hi' : i < Rs.length := by rw [P.len.1, ← hesl]; exact hi
    rw [hpos i hi]
    have hsplit : G ++ Rs.flatten = (G ++ (Rs.take i).flatten) ++ (Rs.drop i).flatten := by
      rw [List.append_assoc, ← List.flatten_append, List.take_append_drop]
    have hb : bs2 ++ pad = (G ++ (Rs.take i).flatten).flatMap enc ++ ((Rs.drop i).flatten.flatMap enc ++ pad) := by
      rw [P.bytes, hsplit, List.flatMap_append, List.append_assoc]
    rw [hb, show startOf G Rs i = ((G ++ (Rs.take i).flatten).flatMap enc).length from rfl, List.drop_left, List.drop_eq_getElem_cons hi',
      List.flatten_cons, List.flatMap_append, List.append_assoc, List.getElem?_eq_getElem hi']
    refine readSub_sub (P.sub _ (List.getElem_mem hi')) ?_ _
    intro r hr
    exact hfit r (by simp only [List.mem_append, List.mem_flatten]; exact .inr ⟨Rs[i], List.getElem_mem hi', hr⟩)
  unfold openBook
  rw [hreadG]
  simp only [Option.bind_some]
  rw [k4]
  simp only [Option.bind_some]
  rw [← k5]
  have : ∀ (es : List SheetEntry) (Rs : List (List Rec)), es.length = Rs.length →
      (∀ i (hi : i < es.length), readSub ((bs2 ++ pad).drop es[i].pos) = Rs[i]?) →
      es.mapM (fun e => (readSub ((bs2 ++ pad).drop e.pos)).map fun R => (e.name, R)) = some ((es.map (·.name)).zip Rs) := by
    intro es
    induction es with
    | nil => intro Rs _ _; rfl
    | cons e r ih =>
      intro Rs hl hr
      cases Rs with
      | nil => simp at hl
      | cons R T =>
        have h0 := hr 0 (by simp)
        simp only [List.getElem_cons_zero, List.getElem?_cons_zero] at h0
        have ih' := ih T (by simpa using hl) (fun i hi => by have := hr (i + 1) (by simpa using hi); simpa using this)
        rw [List.mapM_cons, h0, ih']
        rfl
  exact this es Rs (by rw [hesl, P.len.1]) hreadR

/-- The whole file: the container of `workbook::Dump` around such a stream; a compound-file reader and then a reader of the
    workbook stream give back every sheet. -/
theorem c43_file_partial (cd : Cell α → Bytes) (cs : Cell α → Nat) (D : Globals.Data) (gs : Globals.St)
    (sheets : List (Sheet.Data α Note.Note × Sheet.St α)) (s s' : Book.St (Globals.Data × Globals.St) (Sheet.Data α Note.Note × Sheet.St α))
    (us : List U) (fuel : Nat) (hok : Saveable cd D gs sheets) (hs : start (D, gs) sheets s) (hsm : SmallGlobals D)
    (h : Book.run Globals.next (Sheet.next (Note.env cd cs)) fuel s = .done us s')
    (hsh : ∀ sh ∈ sheets, SmallSheet cd sh.1)
    (wb si dsi : List Bytes) (hwb : us.mapM (patch s'.bpos) = some wb)
    (hsize : Ole.dataSize wb + Ole.dataSize si + Ole.dataSize dsi < 2 ^ 31 - 12288) :
    ∃ f w Rs, Ole.CompleteFile (Ole.workbookFiles wb si dsi) f ∧ Cfb.readStream f (Ole.nameUnits Ole.workbookNames[0]) = some w ∧
      openBook w = some ((D.bounds.map (·.name)).zip Rs) ∧ Rs.length = sheets.length ∧
      ∀ (i : Nat) sh, sheets[i]? = some sh → ∃ R vs fuel off x, Rs[i]? = some R ∧
        Sheet.drain (Sheet.next (Note.env cd cs)) fuel off 0 sh = .done vs x ∧ ShowsL (fun _ => none) vs R := by
  obtain ⟨f, k1, k2, k3, h1, h2, _⟩ := Ole.c10_workbook wb si dsi hsize
  obtain ⟨bs, Rs, e1, e2, e3, e4⟩ := c43_open_partial cd cs D gs sheets s s' us fuel hok hs hsm h hsh
  have hbs : bs = wb.flatten := by
    unfold stream at e1
    rw [hwb] at e1
    simpa using e1.symm
  subst hbs
  refine ⟨f, _, Rs, h1, h2, e3 ?_ _, e2, e4⟩
  have : wb.flatten.length = Ole.dataSize wb := by rw [List.length_flatten]; rfl
  omega

/-! ### Examples -/

/-- Globals with one font, one format and these sheets. -/
def demoGlobals (bounds : List Globals.Bound) (labels : List (List UInt16)) : Globals.Data :=
  { window := .init, defFonts := [List.replicate 16 0], fonts := [], formats := [[164, 0, 1, 0, 0, 48]]
    defXfs := [List.replicate 20 0], xfs := [], styles := [], palette := leN 2 0, bounds := bounds, labels := labels }

def demoGs : Globals.St := ⟨.init, [], [], [], [], [], [], []⟩

/-- Two sheets: one with two comments and three cells, one empty. -/
def demoNotes : List Note.Note := [Note.demoNote 0 0 [65] [66, 67], Note.demoNote 3 2 [0x3B1] [68]]

def demoSheets : List (Sheet.Data Unit Note.Note × Sheet.St Unit) :=
  [({ Note.demoSheet 0 demoNotes with cells := [⟨0, 0, 0, ()⟩, ⟨1, 0, 7, ()⟩, ⟨2, 9, 1, ()⟩] }, Note.demoState demoNotes 0),
   (Note.demoSheet 1 [], Note.demoState [] 0)]

def demoBook : Globals.Data := demoGlobals [⟨[65], 2⟩, ⟨[66, 0x3B1], 0⟩] [[65, 66], [67]]

def demoBookSt (D : Globals.Data) (sheets : List (Sheet.Data Unit Note.Note × Sheet.St Unit)) :
    Book.St (Globals.Data × Globals.St) (Sheet.Data Unit Note.Note × Sheet.St Unit) :=
  ⟨.init, .init, (D, demoGs), sheets, 0, 0, 0, none, 0, 0, []⟩

theorem demoCell_ok (c : Cell Unit) : CellOk (Note.demoCell c) := .inl ⟨0x201, _, rfl, by decide, by decide, by decide⟩

theorem demo_saveable : Saveable Note.demoCell demoBook demoGs demoSheets where
  phase := rfl
  fonts := by simp [demoBook, demoGlobals]
  xfs := by simp [demoBook, demoGlobals]
  count := rfl
  some := by simp [demoSheets]
  few := by simp [demoSheets]
  ready := by
    intro x hx
    simp only [demoSheets, List.mem_cons, List.not_mem_nil, or_false] at hx
    rcases hx with rfl | rfl
    · exact ⟨⟨rfl, rfl, rfl⟩, by simp, by simp [Note.demoSheet, demoNotes]⟩
    · exact ⟨⟨rfl, rfl, rfl⟩, by simp [Note.demoSheet], by simp [Note.demoSheet]⟩
  cells := fun _ _ c _ => demoCell_ok c
  notes := by
    intro x hx n hn
    simp only [demoSheets, List.mem_cons, List.not_mem_nil, or_false] at hx
    rcases hx with rfl | rfl
    · simp only [Note.demoSheet, demoNotes, List.mem_cons, List.not_mem_nil, or_false] at hn
      rcases hn with rfl | rfl <;> decide
    · simp [Note.demoSheet] at hn

theorem demo_start : start (demoBook, demoGs) demoSheets (demoBookSt demoBook demoSheets) := ⟨rfl, rfl, rfl, rfl⟩

theorem demo_completes : ∀ x ∈ demoSheets, Completes x.1 := by
  intro x hx
  simp only [demoSheets, List.mem_cons, List.not_mem_nil, or_false] at hx
  rcases hx with rfl | rfl
  · refine ⟨by simp only [Ordered]; decide, .nil, _, rowList_items _ (Rows.rowSorted_of_ordered (by simp only [Ordered]; decide)), ?_⟩
    intro k n hn
    have : (Rows.nums (Rows.items [⟨0, 0, 0, ()⟩, ⟨1, 0, 7, ()⟩, ⟨2, 9, 1, ()⟩] [])).length = 2 := by decide
    rw [List.getElem?_eq_none (by rw [this]; omega)] at hn
    simp at hn
  · refine ⟨.nil, .nil, [], ⟨.nil, by simp [Note.demoSheet]⟩, ?_⟩
    intro k n hn
    simp at hn

theorem demo_small : SmallGlobals demoBook ∧ ∀ x ∈ demoSheets, SmallSheet Note.demoCell x.1 := by
  refine ⟨⟨by simp [demoBook, demoGlobals], ?_, ?_⟩, ?_⟩
  · intro b hb
    simp only [demoBook, demoGlobals, List.mem_cons, List.not_mem_nil, or_false] at hb
    rcases hb with rfl | rfl <;> decide
  · intro p hp
    simp only [demoBook, demoGlobals, List.mem_append, List.mem_cons, List.not_mem_nil, or_false] at hp
    rcases hp with (((rfl | rfl) | rfl) | rfl) <;> decide
  · intro x hx
    simp only [demoSheets, List.mem_cons, List.not_mem_nil, or_false] at hx
    rcases hx with rfl | rfl
    · refine ⟨by simp only [Ordered]; decide, .nil, by decide, ?_, ?_, ?_, by decide, by simp [Note.demoSheet], by simp [Note.demoSheet]⟩
      · intro R hR
        rw [Rows.rowList_unique hR (Rows.rowSorted_of_ordered (by simp only [Ordered]; decide)) .nil]
        decide
      · intro c _
        simp [Note.demoCell, enc_length]
      · intro n hn
        simp only [Note.demoSheet, demoNotes, List.mem_cons, List.not_mem_nil, or_false] at hn
        rcases hn with rfl | rfl <;> decide
    · refine ⟨.nil, .nil, by simp [Note.demoSheet], ?_, by simp [Note.demoSheet], by simp [Note.demoSheet], by decide,
        by simp [Note.demoSheet], by simp [Note.demoSheet]⟩
      intro R hR
      rw [Rows.rowList_unique hR .nil .nil]
      decide

/-- The two sheets are saved, and opened again under their names; the first has a record for each cell. -/
example : ∃ us s' fuel bs Rs, Book.run Globals.next (Sheet.next (Note.env Note.demoCell fun _ => 10)) fuel (demoBookSt demoBook demoSheets) = .done us s' ∧
    stream us s'.bpos = some bs ∧ Rs.length = 2 ∧ (bs.length < 2 ^ 32 → openBook bs = some ([[65], [66, 0x3B1]].zip Rs)) := by
  obtain ⟨n, us, s', h⟩ := c43_ends_partial Note.demoCell (fun _ => 10) demoBook demoGs demoSheets _ demo_saveable demo_start demo_completes
  obtain ⟨bs, Rs, h1, h2, h3, _⟩ := c43_open_partial Note.demoCell (fun _ => 10) demoBook demoGs demoSheets _ s' us n demo_saveable demo_start demo_small.1
    (h n (Nat.le_refl _)) demo_small.2
  exact ⟨us, s', n, bs, Rs, h n (Nat.le_refl _), h1, h2, fun hl => by have := h3 hl []; rwa [List.append_nil] at this⟩

/-- 32833 rows with one cell each, and a second sheet: the hypotheses of `c22_many_rows` can be met. -/
def tallCells : List (Cell Unit) := (List.range 32833).map fun i => ⟨i, i, 0, ()⟩

def tallSheets : List (Sheet.Data Unit Note.Note × Sheet.St Unit) :=
  [({ Note.demoSheet 0 [] with cells := tallCells }, Note.demoState [] 0), (Note.demoSheet 1 [], Note.demoState [] 0)]

theorem tall_ordered : Ordered Cell.key tallCells := by
  unfold Ordered tallCells
  rw [List.pairwise_map]
  refine List.pairwise_lt_range.imp ?_
  intro a b h
  rw [klt_iff]
  exact .inl h

theorem tall_length : tallCells.length = 32833 := by rw [tallCells, List.length_map, List.length_range]

theorem tall_rows : Rows.RowList tallCells [] (List.range 32833) := by
  refine ⟨List.pairwise_lt_range, ?_⟩
  intro n
  unfold tallCells
  constructor
  · intro h
    exact .inl ⟨_, List.mem_map_of_mem h, rfl⟩
  · rintro (⟨c, hc, rfl⟩ | ⟨⟨h, hh, _⟩, _⟩)
    · obtain ⟨i, hi, rfl⟩ := List.mem_map.mp hc
      exact hi
    · simp at hh

theorem tall_mem (c : Cell Unit) : c ∈ tallCells ↔ c.row < 32833 ∧ c = ⟨c.row, c.row, 0, ()⟩ := by
  unfold tallCells
  rw [List.mem_map]
  constructor
  · rintro ⟨i, hi, rfl⟩
    exact ⟨List.mem_range.mp hi, rfl⟩
  · rintro ⟨h, e⟩
    exact ⟨c.row, List.mem_range.mpr h, e.symm⟩

attribute [local irreducible] tallCells

theorem tall_saveable : Saveable Note.demoCell demoBook demoGs tallSheets where
  phase := rfl
  fonts := by simp [demoBook, demoGlobals]
  xfs := by simp [demoBook, demoGlobals]
  count := rfl
  some := by simp [tallSheets]
  few := by simp [tallSheets]
  ready := by
    intro x hx
    simp only [tallSheets, List.mem_cons, List.not_mem_nil, or_false] at hx
    rcases hx with rfl | rfl
    · exact ⟨⟨rfl, rfl, rfl⟩, by rw [tall_length]; decide, by simp [Note.demoSheet]⟩
    · exact ⟨⟨rfl, rfl, rfl⟩, by simp [Note.demoSheet], by simp [Note.demoSheet]⟩
  cells := fun _ _ c _ => demoCell_ok c
  notes := by
    intro x hx n hn
    simp only [tallSheets, List.mem_cons, List.not_mem_nil, or_false] at hx
    rcases hx with rfl | rfl <;> simp [Note.demoSheet] at hn

/-- C22 as stated is false: there is a workbook of two sheets whose table is wrong about the second. -/
theorem c22_wrong_position : ∃ us s' fuel bs rs G Rs x,
    Book.run Globals.next (Sheet.next (Note.env Note.demoCell fun _ => 10)) fuel (demoBookSt demoBook tallSheets) = .done us s' ∧
    stream us s'.bpos = some bs ∧ records bs = some rs ∧ substreams rs = some (G :: Rs) ∧
      (positions G)[1]? = some (some x) ∧ x ≠ startOf G Rs 1 := by
  have hs : start (demoBook, demoGs) tallSheets (demoBookSt demoBook tallSheets) := ⟨rfl, rfl, rfl, rfl⟩
  have hc : ∀ x ∈ tallSheets, Completes x.1 := by
    intro x hx
    simp only [tallSheets, List.mem_cons, List.not_mem_nil, or_false] at hx
    rcases hx with rfl | rfl
    · refine ⟨tall_ordered, .nil, _, tall_rows, ?_⟩
      intro k n hn
      left
      refine ⟨⟨n, n, 0, ()⟩, ?_, ?_⟩
      · exact (tall_mem _).mpr ⟨List.mem_range.mp (List.mem_of_getElem? hn), rfl⟩
      · rw [List.mem_take_iff_getElem]
        obtain ⟨hlt, e⟩ := List.getElem?_eq_some_iff.mp hn
        rw [List.length_range] at hlt
        refine ⟨15, by rw [List.length_drop, List.length_range]; omega, ?_⟩
        rw [List.getElem_drop]
        exact e
    · refine ⟨.nil, .nil, [], ⟨.nil, by simp [Note.demoSheet]⟩, ?_⟩
      intro k n hn
      simp at hn
  obtain ⟨n, us, s', h⟩ := c43_ends_partial Note.demoCell (fun _ => 10) demoBook demoGs tallSheets _ tall_saveable hs hc
  obtain ⟨bs, rs, G, Rs, h1, h2, h3, h4⟩ := c22_many_rows Note.demoCell (fun _ => 10) demoBook demoGs tallSheets _ s' us n tall_saveable hs
    (h n (Nat.le_refl _)) 0 _ rfl tall_ordered _ tall_rows (by rw [List.length_range]; omega) (by
      intro c hc
      have := ((tall_mem c).mp hc).1
      omega)
  obtain ⟨x, h5, h6⟩ := h4 1 (by simp [tallSheets]) (by omega)
  exact ⟨us, s', n, bs, rs, G, Rs, x, h n (Nat.le_refl _), h1, h2, h3, h5, h6⟩

/-- C07 on this workbook: the tall sheet's INDEX record is handed out whole and appears as a record and one CONTINUE record. -/
example : ∃ u : U, u.cont = false ∧ u.data = leN 2 0x20B ++ leN 2 (16 + 4 * 2053) ++ List.replicate (16 + 4 * 2053) 7 ∧
    (List.replicate (16 + 4 * 2053) (7 : UInt8)).length > 8224 :=
  ⟨{ data := leN 2 0x20B ++ leN 2 (16 + 4 * 2053) ++ List.replicate (16 + 4 * 2053) 7 }, rfl, rfl, by rw [List.length_replicate]; decide⟩

example : ∃ (u : U) (p1 p2 : Bytes), u.data = enc (0x06, p1) ++ enc (0x207, p2) ∧ u.cont = false ∧ p1.length ≤ 8224 ∧ p1.length + 4 + p2.length > 8224 :=
  ⟨{ data := enc (0x06, List.replicate 40 1) ++ enc (0x207, List.replicate 8200 2) }, List.replicate 40 1, List.replicate 8200 2, rfl, rfl,
    by rw [List.length_replicate]; decide, by rw [List.length_replicate, List.length_replicate]; decide⟩

/-- Names that C44 keeps and one that it loses. -/
example : (∀ b ∈ demoBook.bounds, b.name.length < 256) ∧ ∃ b : Globals.Bound, b.name.length = 256 :=
  ⟨demo_small.1.names, ⟨List.replicate 256 65, 0⟩, List.length_replicate⟩

end Xls.Save
