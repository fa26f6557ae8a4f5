import Verif.Save.Whole
/-
C07, C22, C43, C44: the saved workbook stream.
-/
namespace Xls.Save
open Xls.Biff Xls.Book Xls.Unit Xls.Cells

variable {α γ σ : Type}

/-! ### C07 -/

/-- How a unit handed out by the globals or a sheet is to appear: unchanged if it fits or is already split, otherwise,
    if it is a record of type `t` with payload `p`, as the file format wants. -/
structure Appears (u : U) (vs : List U) : Prop where
  same : u.cont = true ∨ u.data.length ≤ 8228 → vs = [u]
  split : ∀ t x p, u.cont = false → u.data = leN 2 t ++ leN 2 x ++ p → p.length > 8224 → ∃ rs, WrittenAs t p rs ∧ vs.map (·.data) = rs.map enc

theorem pieces_appear (u : U) : Appears u (pieces u) where
  same h := pieces_small (h.imp id fun h => by simp only [U.paySize, maxRec]; omega)
  split _ _ _ hc hd hp := pieces_written hd hp hc

/-- C07: in every dump that ends, whatever the globals and the sheets do, the stream is made of what the globals hand out
    (`gus`), then what each sheet hands out (`uss`), each record in its place and appearing as it should. -/
theorem c07_continued (gnext : γ → Src γ) (snext : σ → Nat → Nat → Src σ) (g : γ) (sheets : List σ) (s s' : St γ σ) (us : List U) (fuel : Nat)
    (hs : start g sheets s) (h : run gnext snext fuel s = .done us s') (h0 : sheets ≠ []) (hn : sheets.length < 65536) :
    ∃ (gus : List U) (g' : γ) (uss : List (List U)) (sheets' : List σ) (offs : List Nat) (blocks : List (List U)), GTrace gnext g gus g' ∧ SheetsTrace snext (gus.map (·.data.length)).sum sheets uss sheets' offs ∧
      us = blocks.flatten ∧ blocks.length = (gus ++ uss.flatten).length ∧
      ∀ (i : Nat) u, (gus ++ uss.flatten)[i]? = some u → ∃ vs, blocks[i]? = some vs ∧ Appears u vs := by
  obtain ⟨gus, g', uss, sheets', offs, h1, h2, h3, _⟩ := dump_inv hs h h0 hn
  refine ⟨gus, g', uss, sheets', offs, (gus ++ uss.flatten).map pieces, h1, h2, by rw [h3, List.flatMap_def], by rw [List.length_map], ?_⟩
  intro i u hu
  exact ⟨pieces u, by rw [List.getElem?_map, hu]; rfl, pieces_appear u⟩

/-- Where C07 ends: a unit of two records that are small enough each but together exceed 8224 bytes is taken for one record; the
    second record's header ends up inside the payload of the first. -/
theorem c07_two_records_merged (u : U) (t1 t2 : Nat) (p1 p2 : Bytes) (hd : u.data = enc (t1, p1) ++ enc (t2, p2)) (hc : u.cont = false)
    (h1 : t1 < 65536) (hp : p1.length ≤ 8224) (ht : p1.length + 4 + p2.length > 8224) :
    ∃ (q : Bytes) (rest : List Bytes), records ((pieces u).flatMap (·.data)) = some ((t1, p1 ++ q) :: rest.map fun c => (0x3C, c)) ∧
      p1 ++ q ++ rest.flatten = p1 ++ enc (t2, p2) ∧ (p1 ++ q).length = 8224 := by
  have hu : u.data = leN 2 t1 ++ leN 2 p1.length ++ (p1 ++ enc (t2, p2)) := by rw [hd]; simp [enc]
  have hlen : (p1 ++ enc (t2, p2)).length > maxRec := by rw [List.length_append, enc_length]; simp only [maxRec]; omega
  obtain ⟨rs, hw, he⟩ := pieces_written hu hlen hc
  obtain ⟨p0, ps, rfl, hcat, hle, hps, _, hbig⟩ := hw
  have h8 := (hbig hlen).1
  have hpre : p0 = p1 ++ (enc (t2, p2)).take (8224 - p1.length) := by
    have : p0 = (p1 ++ enc (t2, p2)).take 8224 := by rw [← hcat, ← h8, List.take_left]
    rw [this, List.take_append, List.take_of_length_le hp]
  refine ⟨(enc (t2, p2)).take (8224 - p1.length), ps, ?_, by rw [← hpre, hcat], by rw [← hpre, h8]⟩
  rw [List.flatMap_def, he, ← List.flatMap_def, ← hpre]
  refine records_all _ ?_
  intro r hr
  rcases List.mem_cons.mp hr with rfl | hr
  · exact ⟨h1, by rw [h8]; decide⟩
  · obtain ⟨c, hc, rfl⟩ := List.mem_map.mp hr
    exact ⟨by simp, by have := (hps c hc).2; simp only; omega⟩

/-! ### The saved workbook -/

/-- What is assumed of a workbook about to be saved: the state left by the constructors or by an earlier save, as many
    BOUNDSHEETs as sheets, at least one sheet and at most 65535, fewer than 2³² cells and 65536 comments on each; cells made
    of proper records, comments no longer than the API allows (`c47_call`). -/
structure Saveable (cd : Cell α → Bytes) (D : Globals.Data) (gs : Globals.St) (sheets : List (Sheet.Data α Note.Note × Sheet.St α)) : Prop where
  phase : gs.phase = .init
  fonts : D.defFonts ≠ []
  xfs : D.defXfs ≠ []
  count : D.bounds.length = sheets.length
  some : sheets ≠ []
  few : sheets.length < 65536
  ready : ∀ x ∈ sheets, Sheet.Ready x.1 x.2 ∧ x.1.cells.length < 2 ^ 32 ∧ x.1.notes.length ≤ 65535
  cells : ∀ x ∈ sheets, ∀ c ∈ x.1.cells, CellOk (cd c)
  notes : ∀ x ∈ sheets, ∀ n ∈ x.1.notes, n.full.length ≤ 3900

/-- The headers of the CONTINUE records made for a unit. -/
def contHeaders (u : U) : Nat := if u.oversize then 4 * ((u.paySize - 1) / maxRec) else 0

/-- The CONTINUE header that the length count of a sheet leaves out. -/
def tailHeader (u : U) : Nat := if u.oversize ∧ u.paySize % maxRec ≠ 0 then 4 else 0

theorem cost_eq (u : U) : cost u + tailHeader u = u.data.length + contHeaders u := by
  unfold cost tailHeader contHeaders
  by_cases ho : u.oversize
  · have hgt : u.paySize > maxRec := by
      simp only [U.oversize, Bool.and_eq_true, decide_eq_true_eq] at ho
      exact ho.2
    simp only [ho, if_true, true_and, show maxRec = 8224 from rfl] at *
    by_cases hz : u.paySize % 8224 = 0
    · rw [if_neg (by simp [hz])]; omega
    · rw [if_pos hz]; omega
  · simp [ho]

theorem flatMap_enc_length (l : List Rec) : (l.flatMap enc).length = (l.map fun r => r.2.length + 4).sum := by
  induction l with
  | nil => rfl
  | cons r t ih => rw [List.flatMap_cons, List.length_append, ih]; obtain ⟨a, b⟩ := r; simp [enc_length]

theorem splitRec_length (t : Nat) (p : Bytes) : ((splitRec t p).flatMap enc).length =
    p.length + 4 + (if p.length > maxRec then 4 * ((p.length - 1) / maxRec) else 0) := by
  have hm : 0 < maxRec := by decide
  unfold splitRec
  by_cases h : p.length ≤ maxRec
  · rw [if_pos h, if_neg (by omega)]; simp [enc_length]
  · rw [if_neg h, if_pos (by omega)]
    have hl : ∀ l : List Bytes, ((l.map fun c => ((0x3C, c) : Rec)).flatMap enc).length = l.flatten.length + 4 * l.length := by
      intro l
      induction l with
      | nil => rfl
      | cons c r ih => rw [List.map_cons, List.flatMap_cons, List.length_append, ih, enc_length]; simp; omega
    rw [List.flatMap_cons, List.length_append, hl, chunks_flatten hm, chunks_length hm, enc_length]
    simp only [List.length_take, List.length_drop, show maxRec = 8224 from rfl] at *
    omega

theorem shows_length {pos : Nat → Option Nat} {u : U} {rs : List Rec} (h : Shows pos u rs) :
    (rs.flatMap enc).length = u.data.length + contHeaders u := by
  have key : ∀ p : Bytes, u.paySize = p.length → u.cont = false →
      (if p.length > maxRec then 4 * ((p.length - 1) / maxRec) else 0) = contHeaders u := by
    intro p hp hc
    simp [contHeaders, U.oversize, hc, hp]
  cases h with
  | @one t p hd ht hc hn =>
    rw [splitRec_length, key p (by simp [U.paySize, hd, enc_length]) hc, hd, enc_length]
  | many hd hr hc hn =>
    have ho : u.oversize = false := by
      rcases hc with h | h
      · simp [U.oversize, h]
      · simp [U.oversize]; omega
    simp [contHeaders, ho, hd]
  | @bound i x q hd hc hn hx =>
    rw [splitRec_length, key (leN 4 x ++ q) (by simp [U.paySize, hd, enc_length]) hc, hd, enc_length]
    simp

theorem showsL_length {pos : Nat → Option Nat} {us : List U} {rs : List Rec} (h : ShowsL pos us rs) :
    (rs.flatMap enc).length = (us.map (·.data.length)).sum + (us.map contHeaders).sum := by
  induction h with
  | nil => rfl
  | cons a _ ih =>
    rw [List.flatMap_append, List.length_append, ih, shows_length a]
    simp
    omega

theorem sum_cost (us : List U) : (us.map cost).sum + (us.map tailHeader).sum = (us.map (·.data.length)).sum + (us.map contHeaders).sum := by
  induction us with
  | nil => rfl
  | cons u t ih =>
    have := cost_eq u
    simp only [List.map_cons, List.sum_cons]
    omega

theorem posOf_zip (offs : List Nat) (i : Nat) (hi : i < offs.length) : posOf (offs.zipIdx.map fun p => (p.2, p.1)) i = some (offs[i] % 2 ^ 32) := by
  have : ∀ (l : List Nat) (k i : Nat) (hi : i < l.length), ((l.zipIdx k).map fun p => (p.2, p.1)).find? (fun p => p.1 == k + i) = some (k + i, l[i]) := by
    intro l
    induction l with
    | nil => intro k i hi; simp at hi
    | cons a r ih =>
      intro k i hi
      simp only [List.zipIdx_cons, List.map_cons, List.find?_cons]
      cases i with
      | zero => simp
      | succ j =>
        have hne : (k == k + (j + 1)) = false := by simp
        rw [hne]
        have := ih (k + 1) j (by simpa using hi)
        simpa [Nat.add_assoc, Nat.add_comm 1 j] using this
  have h := this offs 0 i hi
  rw [Nat.zero_add] at h
  simp [posOf, h]

theorem sheetsTrace_parts {snext : σ → Nat → Nat → Src σ} {off : Nat} {sheets sheets' : List σ} {uss : List (List U)} {offs : List Nat}
    (h : SheetsTrace snext off sheets uss sheets' offs) : uss.length = sheets.length ∧ sheets'.length = sheets.length ∧ offs.length = sheets.length ∧
    (∀ (i : Nat) us, uss[i]? = some us → ∃ sh sh' o wl, sheets[i]? = some sh ∧ sheets'[i]? = some sh' ∧ offs[i]? = some o ∧
      STrace snext o sh 0 us wl sh') ∧
    ∀ (i : Nat) o, offs[i]? = some o → o = off + ((uss.take i).map fun us => (us.map cost).sum).sum := by
  induction h with
  | nil => simp
  | @cons off sh us wl sh' rest uss rest' offs ht _ ih =>
    obtain ⟨a, b, c, d, e⟩ := ih
    refine ⟨by simp [a], by simp [b], by simp [c], ?_, ?_⟩
    · intro i vs hi
      cases i with
      | zero =>
        simp only [List.getElem?_cons_zero, Option.some.injEq] at hi
        subst hi
        exact ⟨sh, sh', off, wl, rfl, rfl, rfl, ht⟩
      | succ j => simpa using d j vs (by simpa using hi)
    · intro i o hi
      cases i with
      | zero => simp at hi; simp [hi]
      | succ j =>
        have := e j o (by simpa using hi)
        have hw := ht.wl
        simp only [List.take_succ_cons, List.map_cons, List.sum_cons]
        omega

theorem shows_sheets {pos : Nat → Option Nat} {cd : Cell α → Bytes} {cs : Cell α → Nat}
    {off : Nat} {sheets sheets' : List (Sheet.Data α Note.Note × Sheet.St α)} (hc : ∀ x ∈ sheets, ∀ c ∈ x.1.cells, CellOk (cd c)) {uss : List (List U)} {offs : List Nat}
    (h : SheetsTrace (Sheet.next (Note.env cd cs)) off sheets uss sheets' offs)
    (hr : ∀ x ∈ sheets, Sheet.Ready x.1 x.2 ∧ x.1.cells.length < 2 ^ 32 ∧ x.1.notes.length ≤ 65535)
    (hn : ∀ x ∈ sheets, ∀ n ∈ x.1.notes, n.full.length ≤ 3900) :
    ∃ Rs : List (List Rec), Rs.length = uss.length ∧ ShowsL pos uss.flatten Rs.flatten ∧ (∀ R ∈ Rs, IsSub (Sheet.bofPayload 0x10) R) ∧
      ∀ (i : Nat) us, uss[i]? = some us → ∃ R, Rs[i]? = some R ∧ ShowsL pos us R := by
  induction h with
  | nil => exact ⟨[], rfl, .nil, by simp, by simp⟩
  | @cons off sh us wl sh' rest uss rest' offs ht _ ih =>
    obtain ⟨Rs, a, b, c, d⟩ := ih (fun x hx => hc x (by simp [hx])) (fun x hx => hr x (by simp [hx])) (fun x hx => hn x (by simp [hx]))
    obtain ⟨f, hd⟩ := ht.drain
    obtain ⟨h1, h2, h3⟩ := hr sh (by simp)
    obtain ⟨R, hR, hsub⟩ := sheet_shows (pos := pos) (hc sh (by simp)) h1 h2 h3 (hn sh (by simp)) hd
    refine ⟨R :: Rs, by simp [a], by simpa using hR.append b, ?_, ?_⟩
    · intro x hx
      rcases List.mem_cons.mp hx with rfl | hx
      · exact hsub
      · exact c x hx
    · intro i vs hi
      cases i with
      | zero => simp only [List.getElem?_cons_zero, Option.some.injEq] at hi; subst hi; exact ⟨R, rfl, hR⟩
      | succ j => simpa using d j vs (by simpa using hi)

theorem ShowsL.untag {pos pos' : Nat → Option Nat} {us : List U} {rs : List Rec} (h : ShowsL pos us rs) (ht : ∀ u ∈ us, u.tag = none) :
    ShowsL pos' us rs := by
  induction h with
  | nil => exact .nil
  | cons a _ ih =>
    refine .cons ?_ (ih fun u hu => ht u (by simp [hu]))
    cases a with
    | one h1 h2 h3 h4 => exact .one h1 h2 h3 h4
    | many h1 h2 h3 h4 => exact .many h1 h2 h3 h4
    | bound h1 h2 h3 h4 => rw [ht _ (by simp)] at h3; cases h3

/-- The parts of a saved workbook. -/
structure Parts (cd : Cell α → Bytes) (cs : Cell α → Nat) (D : Globals.Data) (gs : Globals.St)
    (sheets sheets' : List (Sheet.Data α Note.Note × Sheet.St α)) (us : List U) (bpos : List (Nat × Nat))
    (bs : Bytes) (G : List Rec) (Rs : List (List Rec)) (gus : List U) (uss : List (List U)) (offs : List Nat) (A B : List Rec) : Prop where
  strm : stream us bpos = some bs
  bytes : bs = (G ++ Rs.flatten).flatMap enc
  recs : records bs = some (G ++ Rs.flatten)
  small : ∀ r ∈ G ++ Rs.flatten, r.2.length ≤ 8224
  subs : substreams (G ++ Rs.flatten) = some (G :: Rs)
  trace : ∃ g', GTrace Globals.next (D, gs) gus g'
  sheetsTrace : SheetsTrace (Sheet.next (Note.env cd cs)) (gus.map (·.data.length)).sum sheets uss sheets' offs
  len : Rs.length = sheets.length ∧ uss.length = sheets.length ∧ offs.length = sheets.length
  showsG : ShowsL (posOf bpos) gus G
  showsR : ∀ (i : Nat) us, uss[i]? = some us → ∃ R, Rs[i]? = some R ∧ ShowsL (posOf bpos) us R
  headG : G = (0x809, Sheet.bofPayload 5) :: (A ++ boundRecs (fun i => offs.getD i 0 % 2 ^ 32) D.bounds.zipIdx ++ B) ++ [(0x0A, [])]
  plain : (∀ r ∈ A, Plain r) ∧ ∀ r ∈ B, Plain r
  sub : ∀ R ∈ Rs, IsSub (Sheet.bofPayload 0x10) R
  units : ∃ g t, Globals.groupUnits D = some g ∧ Globals.sstUnits D = some t ∧ gus = Globals.units D g t

theorem boundRecs_inner (pos : Nat → Nat) (bs : List (Globals.Bound × Nat)) : ∀ r ∈ boundRecs pos bs, Inner r := by
  intro r hr
  obtain ⟨b, _, hr⟩ := List.mem_flatMap.mp hr
  exact inner_split (by decide) (by decide) (by decide) r hr

theorem saved_parts {cd : Cell α → Bytes} {cs : Cell α → Nat} {D : Globals.Data} {gs : Globals.St}
    {sheets : List (Sheet.Data α Note.Note × Sheet.St α)} {s s' : Book.St (Globals.Data × Globals.St) (Sheet.Data α Note.Note × Sheet.St α)}
    {us : List U} {fuel : Nat} (hok : Saveable cd D gs sheets) (hs : start (D, gs) sheets s)
    (h : Book.run Globals.next (Sheet.next (Note.env cd cs)) fuel s = .done us s') :
    ∃ bs G Rs gus uss offs A B, Parts cd cs D gs sheets s'.sheets us s'.bpos bs G Rs gus uss offs A B ∧
      s'.phase = .init ∧ ∃ gs', s'.g = (D, gs') ∧ gs'.phase = .init := by
  obtain ⟨gus, g', uss, sheets', offs, h1, h2, h3, h4, h5⟩ := dump_inv hs h hok.some hok.few
  obtain ⟨hu, hv, ho, hst, hoff⟩ := sheetsTrace_parts h2
  have hbpos : ∀ b ∈ D.bounds.zipIdx, posOf s'.bpos b.2 = some (offs.getD b.2 0 % 2 ^ 32) := by
    intro b hb
    have hlt : b.2 < D.bounds.length := by
      obtain ⟨x, i⟩ := b
      have := List.mem_zipIdx hb
      simpa using this.2.1
    have hlt' : b.2 < offs.length := by rw [ho, ← hok.count]; exact hlt
    rw [h5, posOf_zip offs b.2 hlt']
    simp [List.getD, hlt']
  obtain ⟨g, t, A, B, hg, ht, hsh, hA, hB⟩ := globals_shows (fun i => offs.getD i 0 % 2 ^ 32) D (posOf s'.bpos) hbpos
  obtain ⟨gs', htr, hgi⟩ := Globals.trace_units hg ht hok.fonts hok.xfs hok.phase
  obtain ⟨e1, e2⟩ := h1.det htr
  obtain ⟨Rs, r1, r2, r3, r4⟩ := shows_sheets (pos := posOf s'.bpos) hok.cells h2 hok.ready hok.notes
  rw [← e1] at hsh
  obtain ⟨hstr, hrec, hfit⟩ := showsL_stream (hsh.append r2)
  obtain ⟨p1, p2, p3, p4⟩ := h4
  simp only at p1 p2 p3
  have hsub0 : IsSub (Sheet.bofPayload 5) ((0x809, Sheet.bofPayload 5) ::
      (A ++ boundRecs (fun i => offs.getD i 0 % 2 ^ 32) D.bounds.zipIdx ++ B) ++ [(0x0A, [])]) := by
    refine ⟨_, rfl, ?_⟩
    intro r hr
    rcases List.mem_append.mp hr with hr | hr
    · rcases List.mem_append.mp hr with hr | hr
      · exact (hA r hr).1
      · exact boundRecs_inner _ _ r hr
    · exact (hB r hr).1
  refine ⟨_, _, Rs, gus, uss, offs, A, B, ⟨by rw [h3]; exact hstr, rfl, hrec, fun r hr => (hfit r hr).2, ?_, ⟨_, h1⟩, by rw [p3]; exact h2,
    ⟨by rw [r1, hu], hu, ho⟩, hsh, r4, rfl, ⟨hA, hB⟩, r3, ⟨g, t, hg, ht, e1⟩⟩, p1, gs', by rw [p2, e2], hgi⟩
  rw [← List.flatten_cons]
  refine substreams_all _ ?_
  intro x hx
  rcases List.mem_cons.mp hx with rfl | hx
  · exact ⟨_, hsub0⟩
  · exact ⟨_, r3 x hx⟩

/-! ### C43 -/

theorem kind_sub {n : Nat} {R : List Rec} (hn : n < 65536) (h : IsSub (Sheet.bofPayload n) R) : kind R = some n := by
  obtain ⟨mid, rfl, _⟩ := h
  simp only [List.cons_append, kind, if_true, Sheet.bofPayload, List.append_assoc]
  rw [rdLE_at' (i := 2) 2 n (leN 2 0x600) _ (by simp), Nat.mod_eq_of_lt (by simpa using hn)]

/-- C43: every saved workbook is a sequence of records with payloads of at most 8224 bytes; these form one globals
    substream (kind 5) followed by exactly one worksheet substream (kind 16) for each sheet; and the workbook is ready to be
    saved again. -/
theorem c43_stream (cd : Cell α → Bytes) (cs : Cell α → Nat) (D : Globals.Data) (gs : Globals.St)
    (sheets : List (Sheet.Data α Note.Note × Sheet.St α)) (s s' : Book.St (Globals.Data × Globals.St) (Sheet.Data α Note.Note × Sheet.St α))
    (us : List U) (fuel : Nat) (hok : Saveable cd D gs sheets) (hs : start (D, gs) sheets s)
    (h : Book.run Globals.next (Sheet.next (Note.env cd cs)) fuel s = .done us s') :
    ∃ bs rs G Rs, stream us s'.bpos = some bs ∧ records bs = some rs ∧ (∀ r ∈ rs, r.2.length ≤ 8224) ∧ substreams rs = some (G :: Rs) ∧
      kind G = some 5 ∧ Rs.length = sheets.length ∧ (∀ R ∈ Rs, kind R = some 16) ∧
      ∃ gs', start (D, gs') s'.sheets { s' with bpos := [] } ∧ Saveable cd D gs' s'.sheets := by
  obtain ⟨bs, G, Rs, gus, uss, offs, A, B, P, hp, gs', hg, hgi⟩ := saved_parts hok hs h
  obtain ⟨hu, hv, ho, hst, hoff⟩ := sheetsTrace_parts P.sheetsTrace
  have hG : kind G = some 5 := by
    rw [P.headG]
    refine kind_sub (by decide) ⟨_, rfl, ?_⟩
    intro r hr
    rcases List.mem_append.mp hr with hr | hr
    · rcases List.mem_append.mp hr with hr | hr
      · exact (P.plain.1 r hr).1
      · exact boundRecs_inner _ _ r hr
    · exact (P.plain.2 r hr).1
  refine ⟨bs, _, G, Rs, P.strm, P.recs, P.small, P.subs, hG, P.len.1, fun R hR => kind_sub (by decide) (P.sub R hR), gs', ⟨hp, hg, rfl, rfl⟩, ?_⟩
  have hsame : ∀ x' ∈ s'.sheets, ∃ x ∈ sheets, x'.1 = x.1 ∧ Sheet.Ready x.1 x'.2 := by
    intro x' hx'
    obtain ⟨i, hi, rfl⟩ := List.mem_iff_getElem.mp hx'
    have hiu : i < uss.length := by rw [hu, ← hv]; exact hi
    obtain ⟨sh, sh', o, wl, a, b, c, d⟩ := hst i uss[i] (by simp [hiu])
    have hb : s'.sheets[i] = sh' := by
      have := List.getElem?_eq_getElem hi
      rw [this] at b
      exact Option.some.inj b
    obtain ⟨f, hd⟩ := d.drain
    have hmem : sh ∈ sheets := List.mem_of_getElem? a
    obtain ⟨r1, r2, r3⟩ := hok.ready sh hmem
    obtain ⟨_, _, _, e1, e2, _⟩ := Sheet.drain_done r1 r2 r3 hd
    exact ⟨sh, hmem, by rw [hb, e1], by rw [hb]; exact e2⟩
  refine ⟨hgi, hok.fonts, hok.xfs, by rw [hv]; exact hok.count, ?_, by rw [hv]; exact hok.few, ?_, ?_, ?_⟩
  · intro h0
    rw [h0] at hv
    exact hok.some (List.length_eq_zero_iff.mp hv.symm)
  · intro x' hx'
    obtain ⟨x, hx, e, r⟩ := hsame x' hx'
    rw [e]
    exact ⟨r, (hok.ready x hx).2⟩
  · intro x' hx'
    obtain ⟨x, hx, e, _⟩ := hsame x' hx'
    rw [e]
    exact hok.cells x hx
  · intro x' hx'
    obtain ⟨x, hx, e, _⟩ := hsame x' hx'
    rw [e]
    exact hok.notes x hx

/-! ### C44 -/

theorem filter_plain (l : List Rec) (h : ∀ r ∈ l, Plain r) : (l.filter fun r => r.1 == 0x85) = [] := by
  rw [List.filter_eq_nil_iff]
  intro r hr
  simp [(h r hr).2]

theorem bounds_of_globals {pos : Nat → Nat} {bs : List (Globals.Bound × Nat)} {A B : List Rec} {p q : Bytes} (hA : ∀ r ∈ A, Plain r)
    (hB : ∀ r ∈ B, Plain r) :
    (((0x809, p) :: (A ++ boundRecs pos bs ++ B) ++ [(0x0A, q)]).filter fun r => r.1 == 0x85) = (boundRecs pos bs).filter fun r => r.1 == 0x85 := by
  simp [List.filter_cons, List.filter_append, filter_plain A hA, filter_plain B hB]

/-- C44: the sheet table of a saved workbook lists the sheets' names in the order of creation (names of up to 255
    characters), with as many worksheet substreams following; substream number `i` has the records that sheet
    number `i` handed out. -/
theorem c44_sheets_partial (cd : Cell α → Bytes) (cs : Cell α → Nat) (D : Globals.Data) (gs : Globals.St)
    (sheets : List (Sheet.Data α Note.Note × Sheet.St α)) (s s' : Book.St (Globals.Data × Globals.St) (Sheet.Data α Note.Note × Sheet.St α))
    (us : List U) (fuel : Nat) (hok : Saveable cd D gs sheets) (hs : start (D, gs) sheets s) (hname : ∀ b ∈ D.bounds, b.name.length < 256)
    (h : Book.run Globals.next (Sheet.next (Note.env cd cs)) fuel s = .done us s') :
    ∃ bs rs G Rs es, stream us s'.bpos = some bs ∧ records bs = some rs ∧ substreams rs = some (G :: Rs) ∧ sheetTable G = some es ∧
      es.map (·.name) = D.bounds.map (·.name) ∧ (∀ e ∈ es, e.flags = 0) ∧ Rs.length = sheets.length ∧
      ∀ (i : Nat) sh, sheets[i]? = some sh → ∃ R vs fuel off x, Rs[i]? = some R ∧
        Sheet.drain (Sheet.next (Note.env cd cs)) fuel off 0 sh = .done vs x ∧ ShowsL (fun _ => none) vs R := by
  obtain ⟨bs, G, Rs, gus, uss, offs, A, B, P, hp, gs', hg, hgi⟩ := saved_parts hok hs h
  obtain ⟨hu, hv, ho, hst, hoff⟩ := sheetsTrace_parts P.sheetsTrace
  have htab : ∀ (l : List (Globals.Bound × Nat)) (pos : Nat → Nat), (∀ b ∈ l, b.1.name.length < 256) → (∀ b ∈ l, pos b.2 < 2 ^ 32) →
      (((boundRecs pos l).filter fun r => r.1 == 0x85).map (·.2)).mapM readBound = some (l.map fun b => ⟨pos b.2, 0, b.1.name⟩) := by
    intro l pos
    induction l with
    | nil => intro _ _; rfl
    | cons b t ih =>
      intro hl hp
      have h256 := hl b (by simp)
      have hsz : (strBytes b.1.name .len1).length ≤ 2 * b.1.name.length + 2 := by
        rw [c04_string_size]; simp only [unicodeStringLength]; split <;> omega
      have hshort : splitRec 0x85 (leN 4 (pos b.2) ++ (leN 2 0 ++ strBytes b.1.name .len1)) =
          [(0x85, leN 4 (pos b.2) ++ (leN 2 0 ++ strBytes b.1.name .len1))] := by
        rw [splitRec, if_pos]
        simp only [List.length_append, leN_length, maxRec]
        omega
      have hread : readBound (leN 4 (pos b.2) ++ (leN 2 0 ++ strBytes b.1.name .len1)) = some ⟨pos b.2, 0, b.1.name⟩ := by
        have h32 := hp b (by simp)
        have hs := c04_len1_roundtrip b.1.name [] h256
        rw [List.append_nil] at hs
        simp [readBound, hs, Nat.mod_eq_of_lt h32]
      have ih' := ih (fun x hx => hl x (by simp [hx])) (fun x hx => hp x (by simp [hx]))
      unfold boundRecs at ih' ⊢
      simp only [List.flatMap_cons, hshort, List.filter_append, List.map_append, List.map_cons]
      simp [List.filter_cons, hread, ih']
  have hmem : ∀ b ∈ D.bounds.zipIdx, b.1.name.length < 256 := by
    intro b hb
    obtain ⟨x, i⟩ := b
    exact hname x (List.fst_mem_of_mem_zipIdx hb)
  have hT := htab D.bounds.zipIdx (fun i => offs.getD i 0 % 2 ^ 32) hmem (fun b _ => Nat.mod_lt _ (by decide))
  refine ⟨bs, _, G, Rs, D.bounds.zipIdx.map (fun b => ⟨offs.getD b.2 0 % 2 ^ 32, 0, b.1.name⟩), P.strm, P.recs, P.subs, ?_, ?_, ?_, P.len.1, ?_⟩
  · unfold sheetTable
    rw [P.headG, bounds_of_globals P.plain.1 P.plain.2]
    exact hT
  · rw [List.map_map]
    have : (SheetEntry.name ∘ fun b : Globals.Bound × Nat => (⟨offs.getD b.2 0 % 2 ^ 32, 0, b.1.name⟩ : SheetEntry)) = (·.name) ∘ Prod.fst := rfl
    rw [this, ← List.map_map, List.zipIdx_map_fst]
  · intro e he
    obtain ⟨b, _, rfl⟩ := List.mem_map.mp he
    rfl
  · intro i sh hi
    have hlt : i < sheets.length := (List.getElem?_eq_some_iff.mp hi).1
    have hiu : i < uss.length := by rw [hu]; exact hlt
    obtain ⟨sh1, sh', o, wl, a, b, c, d⟩ := hst i uss[i] (by simp [hiu])
    rw [hi] at a
    obtain rfl := Option.some.inj a
    obtain ⟨f, hd⟩ := d.drain
    obtain ⟨r1, r2, r3⟩ := hok.ready sh (List.mem_of_getElem? hi)
    obtain ⟨R, hR, hsh⟩ := P.showsR i uss[i] (by simp [hiu])
    refine ⟨R, uss[i], f, o, sh', hR, hd, hsh.untag ?_⟩
    obtain ⟨bs, _, e, _⟩ := Sheet.drain_done r1 r2 r3 hd
    rw [e]
    intro u hu
    obtain ⟨e, _, rfl⟩ := List.mem_map.mp hu
    rfl

theorem readChars_length (w : Bool) : ∀ (n : Nat) (bs : Bytes) (cs : List UInt16) (r : Bytes), Spec.readChars w n bs = some (cs, r) → cs.length = n := by
  intro n
  induction n with
  | zero => intro bs cs r h; simp [Spec.readChars] at h; simp [h.1.symm]
  | succ n ih =>
    intro bs cs r h
    cases w with
    | false =>
      cases bs with
      | nil => simp [Spec.readChars] at h
      | cons b t =>
        simp only [Spec.readChars, Option.map_eq_some_iff] at h
        obtain ⟨⟨cs', r'⟩, h1, h2⟩ := h
        cases h2
        simp [ih _ _ _ h1]
    | true =>
      match bs with
      | [] => simp [Spec.readChars] at h
      | [_] => simp [Spec.readChars] at h
      | b :: b' :: t =>
        simp only [Spec.readChars, Option.map_eq_some_iff] at h
        obtain ⟨⟨cs', r'⟩, h1, h2⟩ := h
        cases h2
        simp [ih _ _ _ h1]

/-- The negation of C44 for longer names: whatever a reader gets from the BOUNDSHEET record, it is not the name. -/
theorem c44_long_name_lost (b : Globals.Bound) (h : 256 ≤ b.name.length) (e : SheetEntry) (he : readBound (Globals.boundPayload b) = some e) :
    e.name ≠ b.name := by
  have hs : strBytes b.name .len1 = leN 1 b.name.length ++ (strBytes b.name .len1).drop 1 := by
    simp [strBytes, strHeader, leN, byteK]
  unfold Globals.boundPayload at he
  rw [hs] at he
  simp only [readBound, List.append_assoc, takeLE_leN_append, Spec.readStr1, Option.bind_some] at he
  split at he
  · rename_i s hr
    cases he
    intro hn
    simp only [Spec.readFlagged] at hr
    have hlen : s.length = b.name.length % 256 := by
      split at hr
      · exact readChars_length _ _ _ _ _ hr
      · exact readChars_length _ _ _ _ _ hr
      · simp at hr
    simp only at hn
    rw [hn] at hlen
    omega
  · simp at he

/-! ### C22 -/

/-- The positions in the sheet table. -/
def positions (G : List Rec) : List (Option Nat) := (G.filter fun r => r.1 == 0x85).map fun r => rdLE 4 r.2 0

theorem split_bound (x : Nat) (q : Bytes) : ((splitRec 0x85 (leN 4 x ++ q)).filter fun r => r.1 == 0x85).map (fun r => rdLE 4 r.2 0) = [some (x % 2 ^ 32)] := by
  unfold splitRec
  have hr : ∀ q : Bytes, rdLE 4 (leN 4 x ++ q) 0 = some (x % 2 ^ 32) := by
    intro q
    have := rdLE_at 4 x [] q
    simpa using this
  split
  · simp [hr]
  · have htk : (leN 4 x ++ q).take maxRec = leN 4 x ++ q.take (maxRec - 4) := by
      rw [List.take_append]; simp [List.take_of_length_le, maxRec]
    have hno : (((chunks maxRec ((leN 4 x ++ q).drop maxRec)).map fun c => ((0x3C, c) : Rec)).filter fun r => r.1 == 0x85) = [] := by
      rw [List.filter_eq_nil_iff]
      intro r hr
      obtain ⟨c, _, rfl⟩ := List.mem_map.mp hr
      simp
    rw [List.filter_cons, hno, htk]
    simp [hr]

theorem positions_bounds (pos : Nat → Nat) (l : List (Globals.Bound × Nat)) :
    ((boundRecs pos l).filter fun r => r.1 == 0x85).map (fun r => rdLE 4 r.2 0) = l.map fun b => some (pos b.2 % 2 ^ 32) := by
  induction l with
  | nil => rfl
  | cons b t ih =>
    unfold boundRecs at ih ⊢
    rw [List.flatMap_cons, List.filter_append, List.map_append, ih, split_bound]
    rfl

/-- What the positions leave out for sheet number `i`: the headers of all CONTINUE records made for the globals, and for each
    earlier sheet the header of the last CONTINUE record of every record whose length is not a multiple of 8224. -/
def leftOut (gus : List U) (uss : List (List U)) (i : Nat) : Nat :=
  (gus.map contHeaders).sum + ((uss.take i).map fun us => (us.map tailHeader).sum).sum

/-- Where sheet number `i` begins in a stream with the substreams `G` and `Rs`. -/
def startOf (G : List Rec) (Rs : List (List Rec)) (i : Nat) : Nat := ((G ++ (Rs.take i).flatten).flatMap enc).length

theorem startOf_eq {pos : Nat → Option Nat} {G : List Rec} {gus : List U} {Rs : List (List Rec)} {uss : List (List U)} (hG : ShowsL pos gus G)
    (hR : ∀ (i : Nat) us, uss[i]? = some us → ∃ R, Rs[i]? = some R ∧ ShowsL pos us R) (i : Nat) (hi : i ≤ uss.length) :
    startOf G Rs i = (gus.map (·.data.length)).sum + ((uss.take i).map fun us => (us.map cost).sum).sum + leftOut gus uss i := by
  have h1 := showsL_length hG
  have h2 : ∀ j, j ≤ uss.length → (((Rs.take j).flatten).flatMap enc).length =
      ((uss.take j).map fun us => (us.map cost).sum).sum + ((uss.take j).map fun us => (us.map tailHeader).sum).sum := by
    intro j
    induction j with
    | zero => intro _; simp
    | succ j ih =>
      intro hj
      have hj' : j < uss.length := by omega
      have hu : uss[j]? = some uss[j] := by simp [hj']
      obtain ⟨R, hRj, hs⟩ := hR j _ hu
      have hl := showsL_length hs
      have hc := sum_cost uss[j]
      rw [List.take_add_one, List.take_add_one, hRj, hu]
      simp only [Option.toList, List.flatten_append, List.flatMap_append, List.length_append, List.map_append, List.sum_append, ih (by omega),
        List.flatten_cons, List.flatten_nil, List.append_nil, List.map_cons, List.map_nil, List.sum_cons, List.sum_nil]
      omega
  unfold startOf leftOut
  rw [List.flatMap_append, List.length_append, h1, h2 i hi]
  omega

/-- C22, what the positions are, for every saved workbook: the position of sheet number `i` falls short of the place where
    its substream begins by exactly `leftOut` bytes (modulo 2³²); `gus` and `uss` are the records handed out by
    the globals and the sheets.  Missing for the full claim: `leftOut` is not always 0, see `c22_many_sheets`. -/
theorem c22_positions_partial (cd : Cell α → Bytes) (cs : Cell α → Nat) (D : Globals.Data) (gs : Globals.St)
    (sheets : List (Sheet.Data α Note.Note × Sheet.St α)) (s s' : Book.St (Globals.Data × Globals.St) (Sheet.Data α Note.Note × Sheet.St α))
    (us : List U) (fuel : Nat) (hok : Saveable cd D gs sheets) (hs : start (D, gs) sheets s)
    (h : Book.run Globals.next (Sheet.next (Note.env cd cs)) fuel s = .done us s') :
    ∃ bs rs G Rs gus g' uss offs, stream us s'.bpos = some bs ∧ records bs = some rs ∧ substreams rs = some (G :: Rs) ∧
      GTrace Globals.next (D, gs) gus g' ∧ SheetsTrace (Sheet.next (Note.env cd cs)) (gus.map (·.data.length)).sum sheets uss s'.sheets offs ∧
      (positions G).length = sheets.length ∧
      ∀ i < sheets.length, leftOut gus uss i ≤ startOf G Rs i ∧
        (positions G)[i]? = some (some ((startOf G Rs i - leftOut gus uss i) % 2 ^ 32)) ∧
        (leftOut gus uss i = 0 → startOf G Rs i < 2 ^ 32 →
          (positions G)[i]? = some (some (startOf G Rs i)) ∧ records (bs.drop (startOf G Rs i)) = some (Rs.drop i).flatten) := by
  obtain ⟨bs, G, Rs, gus, uss, offs, A, B, P, hp, gs', hg, hgi⟩ := saved_parts hok hs h
  obtain ⟨hu, hv, ho, hst, hoff⟩ := sheetsTrace_parts P.sheetsTrace
  obtain ⟨g', htr⟩ := P.trace
  have hpos : positions G = D.bounds.zipIdx.map fun b => some (offs.getD b.2 0 % 2 ^ 32) := by
    unfold positions
    rw [P.headG, bounds_of_globals P.plain.1 P.plain.2, positions_bounds]
    simp
  have hget : ∀ i < sheets.length, (positions G)[i]? = some (some ((startOf G Rs i - leftOut gus uss i) % 2 ^ 32)) := by
    intro i hi
    have hi2 : i < offs.length := by rw [ho]; exact hi
    have hi3 : i < D.bounds.length := by rw [hok.count]; exact hi
    have hst := startOf_eq P.showsG P.showsR i (by rw [hu]; omega)
    have ho := hoff i offs[i] (by simp [hi2])
    rw [hpos]
    simp only [List.getElem?_map, List.getElem?_zipIdx, Option.map_map]
    rw [List.getElem?_eq_getElem hi3]
    simp only [Option.map_some, Function.comp, Nat.zero_add, List.getD, List.getElem?_eq_getElem hi2, Option.getD_some]
    rw [ho, hst]
    congr 3
    omega
  refine ⟨bs, _, G, Rs, gus, g', uss, offs, P.strm, P.recs, P.subs, htr, P.sheetsTrace, by rw [hpos]; simp [hok.count], ?_⟩
  intro i hi
  have hst := startOf_eq P.showsG P.showsR i (by rw [hu]; omega)
  refine ⟨by omega, hget i hi, fun h0 h32 => ⟨by rw [hget i hi, h0, Nat.sub_zero, Nat.mod_eq_of_lt h32], ?_⟩⟩
  have hsplit : G ++ Rs.flatten = (G ++ (Rs.take i).flatten) ++ (Rs.drop i).flatten := by
    rw [List.append_assoc, ← List.flatten_append, List.take_append_drop]
  have hb : bs = (G ++ (Rs.take i).flatten).flatMap enc ++ (Rs.drop i).flatten.flatMap enc := by
    rw [P.bytes, hsplit, List.flatMap_append]
  rw [hb, show startOf G Rs i = ((G ++ (Rs.take i).flatten).flatMap enc).length from rfl, List.drop_left]
  refine records_all _ ?_
  intro r hr
  obtain ⟨_, hf⟩ := records_some P.recs
  exact hf r (by rw [hsplit]; exact List.mem_append_right _ hr)

theorem externFrom_length (n : Nat) : ∀ i, (Globals.externFrom i n).length = 6 * n := by
  induction n with
  | zero => intro i; rfl
  | succ n ih => intro i; simp only [Globals.externFrom, List.length_append, leN_length, ih]; omega

theorem sum_ge {β : Type} (f : β → Nat) (l : List β) (x : β) (h : x ∈ l) : f x ≤ (l.map f).sum := by
  induction l with
  | nil => simp at h
  | cons a r ih =>
    simp only [List.map_cons, List.sum_cons]
    rcases List.mem_cons.mp h with rfl | h
    · omega
    · have := ih h; omega

/-- The negation of C22: in every saved workbook with 1371 sheets or more, the sheet table is wrong about every sheet: its EXTERNSHEET
    record needs a CONTINUE record. -/
theorem c22_many_sheets (cd : Cell α → Bytes) (cs : Cell α → Nat) (D : Globals.Data) (gs : Globals.St)
    (sheets : List (Sheet.Data α Note.Note × Sheet.St α)) (s s' : Book.St (Globals.Data × Globals.St) (Sheet.Data α Note.Note × Sheet.St α))
    (us : List U) (fuel : Nat) (hok : Saveable cd D gs sheets) (hs : start (D, gs) sheets s)
    (h : Book.run Globals.next (Sheet.next (Note.env cd cs)) fuel s = .done us s') (hmany : 1371 ≤ sheets.length) :
    ∃ bs rs G Rs, stream us s'.bpos = some bs ∧ records bs = some rs ∧ substreams rs = some (G :: Rs) ∧
      ∀ i < sheets.length, ∃ x, (positions G)[i]? = some (some x) ∧ x ≠ startOf G Rs i := by
  obtain ⟨bs, rs, G, Rs, gus, g', uss, offs, h1, h2, h3, h4, h5, h6, h7⟩ := c22_positions_partial cd cs D gs sheets s s' us fuel hok hs h
  refine ⟨bs, rs, G, Rs, h1, h2, h3, ?_⟩
  intro i hi
  obtain ⟨ha, hb, _⟩ := h7 i hi
  refine ⟨_, hb, ?_⟩
  obtain ⟨g, hg, _⟩ := group_some D
  obtain ⟨t, ht⟩ := Globals.sst_some D
  obtain ⟨_, htr, _⟩ := Globals.trace_units hg ht hok.fonts hok.xfs hok.phase
  obtain ⟨e1, _⟩ := h4.det htr
  have hmem : Globals.unit 0x17 (Globals.externPayload D.bounds.length) ∈ gus := by
    rw [e1]; simp [Globals.units]
  have hlen : (Globals.externPayload D.bounds.length).length = 2 + 6 * sheets.length := by
    simp [Globals.externPayload, externFrom_length, hok.count]
  have hc : 4 ≤ contHeaders (Globals.unit 0x17 (Globals.externPayload D.bounds.length)) := by
    have hp : (Globals.unit 0x17 (Globals.externPayload D.bounds.length)).paySize = 2 + 6 * sheets.length := by
      simp only [U.paySize, Globals.unit, enc_length, hlen]; omega
    have ho : (Globals.unit 0x17 (Globals.externPayload D.bounds.length)).oversize = true := by
      rw [U.oversize, hp, show (Globals.unit 0x17 (Globals.externPayload D.bounds.length)).cont = false from rfl]
      exact decide_eq_true (show 2 + 6 * sheets.length > 8224 by omega)
    rw [contHeaders, if_pos ho, hp]
    simp only [maxRec]
    omega
  have hl : 4 ≤ leftOut gus uss i := by
    have := sum_ge contHeaders gus _ hmem
    unfold leftOut
    omega
  have := Nat.mod_le (startOf G Rs i - leftOut gus uss i) (2 ^ 32)
  omega

end Xls.Save
