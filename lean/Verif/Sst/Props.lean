import Verif.Sst.Model
import Verif.Sst.Spec
import Verif.Cells.Props
/-
C05, C06: the shared string table.
-/
namespace Xls.Sst
open Xls.Unit Xls.Biff Xls.Cells

theorem strBytes_ne_nil (s : List UInt16) : strBytes s .len2 ≠ [] := by simp [strBytes, strHeader]

theorem readAll_strs (ss : List (List UInt16)) (h : ∀ s ∈ ss, s.length < 65536) (f : Nat) (hf : ss.length ≤ f) :
    readAll f (ss.flatMap (fun s => strBytes s .len2)) = some ss := by
  induction ss generalizing f with
  | nil => cases f <;> rfl
  | cons s r ih =>
    obtain ⟨f, rfl⟩ : ∃ g, f = g + 1 := ⟨f - 1, by simp at hf; omega⟩
    rw [List.flatMap_cons]
    have hrt := c04_len2_roundtrip s (r.flatMap (fun s => strBytes s .len2)) (h s (by simp))
    cases hb : strBytes s .len2 ++ r.flatMap (fun s => strBytes s .len2) with
    | nil => exact absurd (List.append_eq_nil_iff.mp hb).1 (strBytes_ne_nil s)
    | cons b bs =>
      rw [hb] at hrt
      simp only [readAll, hrt, Option.bind_some]
      rw [ih (fun x hx => h x (by simp [hx])) f (by simp at hf; omega)]
      rfl

/-- The pieces written so far: closed records, and the strings of the record being filled. -/
structure Inv (n : Nat) (done : List (List (List UInt16))) (cur : List (List UInt16)) (st : St) : Prop where
  buf : ∃ closed tag pre, st.buf = closed.flatMap enc ++ (leN 2 tag ++ [0, 0] ++ (pre ++ cur.flatMap (fun s => strBytes s .len2))) ∧
    st.offset = (closed.flatMap enc).length ∧
    (∀ r ∈ closed, r.2.length ≤ 8224) ∧
    (pre ++ cur.flatMap (fun s => strBytes s .len2)).length ≤ 8224 ∧
    (match done with
     | [] => closed = [] ∧ tag = 0xFC ∧ pre = leN 4 n ++ leN 4 n
     | d :: ds => tag = 0x3C ∧ pre = [] ∧
        closed = (0xFC, leN 4 n ++ leN 4 n ++ d.flatMap (fun s => strBytes s .len2)) ::
          ds.map (fun d => (0x3C, d.flatMap (fun s => strBytes s .len2))))
  size : st.currSize = st.buf.length - st.offset

theorem chosen_size (l : List UInt16) : unicodeStringLength (chosen l) .len2 ≤ 8224 := by
  unfold chosen maxRecordSize
  split
  · decide
  · omega

theorem chosen_length (l : List UInt16) : (chosen l).length < 65536 := by
  have := chosen_size l
  simp only [unicodeStringLength] at this
  omega

theorem setAt16_hdr (A B : Bytes) (t v : Nat) :
    setAt16 (A ++ (leN 2 t ++ [0, 0] ++ B)) v (A.length + 2) = some (A ++ (leN 2 t ++ leN 2 v ++ B)) := by
  unfold setAt16
  rw [if_pos (by simp; omega)]
  have h1 : A ++ (leN 2 t ++ [0, 0] ++ B) = (A ++ leN 2 t) ++ ([0, 0] ++ B) := by simp
  rw [h1, List.take_left' (by simp)]
  have h2 : (A ++ leN 2 t) ++ ([0, 0] ++ B) = (A ++ leN 2 t ++ [0, 0]) ++ B := by simp
  rw [h2, List.drop_left' (by simp)]
  simp

theorem step_inv {n : Nat} {done : List (List (List UInt16))} {cur : List (List UInt16)} {st : St}
    (h : Inv n done cur st) (l : List UInt16) :
    ∃ st' done' cur', step st l = some st' ∧ Inv n done' cur' st' ∧
      done'.flatten ++ cur' = done.flatten ++ cur ++ [chosen l] := by
  obtain ⟨⟨closed, tag, pre, hbuf, hoff, hle, hcur, hm⟩, hsz⟩ := h
  have hs := chosen_size l
  have hsl := c04_string_size (chosen l) .len2
  have hcs : st.currSize = 4 + (pre ++ cur.flatMap (fun s => strBytes s .len2)).length := by
    rw [hsz, hbuf, hoff]; simp; omega
  by_cases hc : st.currSize + unicodeStringLength (chosen l) .len2 > maxRecordSize + 4
  · -- a new CONTINUE record
    have hstep1 : setAt16 st.buf (st.currSize - 4) (st.offset + 2) =
        some ((closed ++ [(tag, pre ++ cur.flatMap (fun s => strBytes s .len2))]).flatMap enc) := by
      rw [hbuf, hoff, setAt16_hdr, hcs, Nat.add_sub_cancel_left]
      simp [enc]
    generalize hB : (closed ++ [(tag, pre ++ cur.flatMap (fun s => strBytes s .len2))]).flatMap enc = B at hstep1
    have hstep2 : setAt16 (B ++ List.replicate 4 0) 0x3C B.length = some (B ++ (leN 2 0x3C ++ [0, 0])) := by
      unfold setAt16
      rw [if_pos (by simp), List.take_left, List.drop_append]
      simp
    refine ⟨{ buf := B ++ (leN 2 0x3C ++ [0, 0]) ++ strBytes (chosen l) .len2, offset := B.length,
              currSize := (B ++ (leN 2 0x3C ++ [0, 0]) ++ strBytes (chosen l) .len2).length - B.length },
      done ++ [cur], [chosen l], ?_, ⟨⟨closed ++ [(tag, pre ++ cur.flatMap (fun s => strBytes s .len2))],
        0x3C, [], ?_, ?_, ?_, ?_, ?_⟩, rfl⟩, by simp⟩
    · simp only [step]
      rw [if_pos hc, hstep1]
      simp only [Option.bind_some, hstep2, Option.map_some]
    · rw [hB]; simp
    · rw [hB]
    · intro r hr
      rcases List.mem_append.mp hr with hr | hr
      · exact hle r hr
      · rw [List.mem_singleton.mp hr]; exact hcur
    · simp only [List.nil_append, List.flatMap_cons, List.flatMap_nil, List.append_nil]; omega
    · cases done with
      | nil =>
        obtain ⟨h1, h2, h3⟩ := hm
        simp [h1, h2, h3]
      | cons d ds =>
        obtain ⟨h1, h2, h3⟩ := hm
        simp [h1, h2, h3]
  · refine ⟨{ buf := st.buf ++ strBytes (chosen l) .len2, offset := st.offset,
              currSize := (st.buf ++ strBytes (chosen l) .len2).length - st.offset },
      done, cur ++ [chosen l], ?_, ⟨⟨closed, tag, pre, ?_, hoff, hle, ?_, hm⟩, rfl⟩, by simp⟩
    · simp only [step]
      rw [if_neg hc]
      rfl
    · rw [hbuf]; simp
    · have : maxRecordSize = 8224 := rfl
      simp only [List.flatMap_append, List.flatMap_cons, List.flatMap_nil, List.append_nil, List.length_append] at hcs ⊢
      omega

theorem loop_inv (labels : List (List UInt16)) {n : Nat} {done : List (List (List UInt16))}
    {cur : List (List UInt16)} {st : St} (h : Inv n done cur st) :
    ∃ st' done' cur', labels.foldlM step st = some st' ∧ Inv n done' cur' st' ∧
      done'.flatten ++ cur' = done.flatten ++ cur ++ labels.map chosen := by
  induction labels generalizing done cur st with
  | nil => exact ⟨st, done, cur, rfl, h, by simp⟩
  | cons l r ih =>
    obtain ⟨st1, d1, c1, e1, h1, f1⟩ := step_inv h l
    obtain ⟨st2, d2, c2, e2, h2, f2⟩ := ih h1
    exact ⟨st2, d2, c2, by simp [e1, e2], h2, by rw [f2, f1]; simp⟩

/-- Specification: what becomes of a label's text — itself, unless its encoding does not fit into one
    record; then the fixed notice. -/
def stored (l : List UInt16) : List UInt16 :=
  if l.length + 3 + (if ∀ c ∈ l, c ≤ 0x7F then 0 else l.length) ≤ 8224 then l
  else "Length too long!".toList.map (fun c => UInt16.ofNat c.toNat)

theorem chosen_stored (l : List UInt16) : chosen l = stored l := by
  have hu : unicodeStringLength l .len2 = l.length + 3 + (if ∀ c ∈ l, c ≤ 0x7F then 0 else l.length) := by
    have := isASCII_iff l
    simp only [unicodeStringLength]
    by_cases hA : isASCII l = true
    · rw [if_pos hA, if_pos (this.mp hA)]
    · rw [if_neg hA, if_neg (fun h => hA (this.mpr h))]
  unfold chosen stored
  rw [hu]
  have hm : maxRecordSize = 8224 := rfl
  by_cases h : l.length + 3 + (if ∀ c ∈ l, c ≤ 0x7F then 0 else l.length) ≤ 8224
  · rw [if_pos h, if_neg (by omega)]
  · rw [if_neg h, if_pos (by omega)]
    decide

/-- C05: the table record parses into an SST record followed by CONTINUE records, none with a payload
    above 8224 bytes, and a reader that never reads across a record boundary recovers both counts and
    every text in order. -/
theorem c05_sst_reads_back (labels : List (List UInt16)) :
    ∃ bs rs, makeSST labels = some bs ∧ records bs = some rs ∧ (∀ r ∈ rs, r.2.length ≤ 8224) ∧
      readSST rs = some (labels.length % 2 ^ 32, labels.length % 2 ^ 32, labels.map stored) := by
  have h0 : setAt16 [0, 0, 0, 0] 0xFC 0 = some (leN 2 0xFC ++ [0, 0]) := by decide
  have hinit : Inv labels.length [] []
      { buf := leN 2 0xFC ++ [0, 0] ++ leN 4 labels.length ++ leN 4 labels.length, offset := 0
        currSize := (leN 2 0xFC ++ [0, 0] ++ leN 4 labels.length ++ leN 4 labels.length).length } :=
    ⟨⟨[], 0xFC, leN 4 labels.length ++ leN 4 labels.length, by simp, rfl, by simp, by simp, rfl, rfl, rfl⟩, rfl⟩
  obtain ⟨st, done, cur, e, ⟨⟨closed, tag, pre, hbuf, hoff, hle, hcur, hm⟩, hsz⟩, hall⟩ := loop_inv labels hinit
  have hcs : st.currSize - 4 = (pre ++ cur.flatMap (fun s => strBytes s .len2)).length := by
    rw [hsz, hbuf, hoff]; simp; omega
  have hfin : setAt16 st.buf (st.currSize - 4) (st.offset + 2) =
      some ((closed ++ [(tag, pre ++ cur.flatMap (fun s => strBytes s .len2))]).flatMap enc) := by
    rw [hbuf, hoff, setAt16_hdr, hcs]
    simp [enc]
  have hlen : ∀ r ∈ closed ++ [(tag, pre ++ cur.flatMap (fun s => strBytes s .len2))], r.2.length ≤ 8224 := by
    intro r hr
    rcases List.mem_append.mp hr with hr | hr
    · exact hle r hr
    · rw [List.mem_singleton.mp hr]; exact hcur
  have htag : ∀ r ∈ closed ++ [(tag, pre ++ cur.flatMap (fun s => strBytes s .len2))], r.1 < 65536 := by
    intro r hr
    cases done with
    | nil =>
      obtain ⟨h1, h2, h3⟩ := hm
      subst h1 h2
      rw [List.nil_append] at hr
      rw [List.mem_singleton.mp hr]; show _ < _; simp
    | cons d ds =>
      obtain ⟨h1, h2, h3⟩ := hm
      subst h1 h3
      rcases List.mem_append.mp hr with hr | hr
      · rcases List.mem_cons.mp hr with rfl | hr
        · show _ < _; simp
        · obtain ⟨_, _, rfl⟩ := List.mem_map.mp hr; show _ < _; simp
      · rw [List.mem_singleton.mp hr]; show _ < _; simp
  refine ⟨_, closed ++ [(tag, pre ++ cur.flatMap (fun s => strBytes s .len2))], ?_, records_all _ ?_, hlen, ?_⟩
  · simp only [makeSST, h0, Option.bind_some, e]
    exact hfin
  · intro r hr
    exact ⟨htag r hr, by have := hlen r hr; omega⟩
  · have hshort : ∀ s ∈ done.flatten ++ cur, s.length < 65536 := by
      intro s hs
      rw [hall] at hs
      simp only [List.flatten_nil, List.nil_append] at hs
      obtain ⟨l, _, rfl⟩ := List.mem_map.mp hs
      exact chosen_length l
    have hread : ∀ g : List (List UInt16), (∀ s ∈ g, s.length < 65536) →
        readAll (g.flatMap (fun s => strBytes s .len2)).length (g.flatMap (fun s => strBytes s .len2)) = some g := by
      intro g hg
      apply readAll_strs g hg
      clear hg
      induction g with
      | nil => simp
      | cons s r ih =>
        have := List.length_pos_iff.mpr (strBytes_ne_nil s)
        simp only [List.flatMap_cons, List.length_append, List.length_cons]
        omega
    have hmap : ∀ gs : List (List (List UInt16)), (∀ g ∈ gs, ∀ s ∈ g, s.length < 65536) →
        (gs.map (fun g => g.flatMap (fun s => strBytes s .len2))).mapM (fun q => readAll q.length q) = some gs := by
      intro gs
      induction gs with
      | nil => intro _; rfl
      | cons g r ih =>
        intro hg
        rw [List.map_cons, List.mapM_cons, hread g (hg g (by simp)), ih (fun x hx => hg x (by simp [hx]))]
        rfl
    have hst : labels.map stored = (done ++ [cur]).flatten := by
      have : labels.map stored = labels.map chosen := by
        apply List.map_congr_left
        intro l _
        rw [chosen_stored]
      rw [this]
      simpa using hall.symm
    have hgs : ∀ g ∈ done ++ [cur], ∀ s ∈ g, s.length < 65536 := by
      intro g hg s hs
      apply hshort
      rcases List.mem_append.mp hg with hg | hg
      · exact List.mem_append_left _ (List.mem_flatten.mpr ⟨g, hg, hs⟩)
      · rw [List.mem_singleton.mp hg] at hs
        exact List.mem_append_right _ hs
    rw [hst]
    cases done with
    | nil =>
      obtain ⟨h1, h2, h3⟩ := hm
      subst h1 h2 h3
      have := hmap ([] ++ [cur]) hgs
      simp only [List.nil_append, List.map_cons, List.map_nil] at this
      simp only [List.nil_append, readSST, List.all_nil, and_self, if_true, List.append_assoc,
        takeLE_leN_append, Option.bind_some, List.map_nil, this, Option.map_some]
    | cons d ds =>
      obtain ⟨h1, h2, h3⟩ := hm
      subst h1 h2 h3
      have := hmap (d :: ds ++ [cur]) hgs
      simp only [List.cons_append, List.map_cons, List.map_append, List.map_nil] at this
      have hty : ((ds.map (fun (d : List (List UInt16)) => ((0x3C : Nat), d.flatMap (fun s => strBytes s .len2)))) ++
          [(0x3C, [] ++ cur.flatMap (fun s => strBytes s .len2))]).all (fun r => r.1 == 0x3C) = true := by
        simp
      have hsnd : ((ds.map (fun (d : List (List UInt16)) => ((0x3C : Nat), d.flatMap (fun s => strBytes s .len2)))) ++
          [(0x3C, [] ++ cur.flatMap (fun s => strBytes s .len2))]).map Prod.snd =
          ds.map (fun g => g.flatMap (fun s => strBytes s .len2)) ++ [cur.flatMap (fun s => strBytes s .len2)] := by
        simp [List.map_map, Function.comp_def]
      simp only [List.cons_append, readSST, hty, and_self, if_true, List.append_assoc, takeLE_leN_append,
        Option.bind_some, hsnd, this, Option.map_some]

-- two texts, one of them not ASCII
example : ∃ bs rs, makeSST [[0x61, 0x62], [0x3B1]] = some bs ∧ records bs = some rs ∧
    readSST rs = some (2, 2, [[0x61, 0x62], [0x3B1]]) :=
  ⟨leN 2 0xFC ++ leN 2 18 ++ leN 4 2 ++ leN 4 2 ++ strBytes [0x61, 0x62] .len2 ++ strBytes [0x3B1] .len2,
    [(0xFC, leN 4 2 ++ leN 4 2 ++ strBytes [0x61, 0x62] .len2 ++ strBytes [0x3B1] .len2)],
    by decide, by decide, by decide⟩

/-! ### C06 -/

/-- Specification: the calls made on sheet `i`. -/
def onSheet (i : Nat) (h : List (Nat × LCell)) : List (GridOp (Option (List UInt16))) :=
  (h.filter (fun p => p.1 == i)).map (fun p => .cell p.2)

/-- Specification: the cell survives — it was the last one written at its place. -/
def Survives (h : List (Nat × LCell)) (i : Nat) (c : LCell) : Prop :=
  lastCell c.row c.col (onSheet i h) = some c

/-- What holds of every reachable book. -/
structure BInv (h : List (Nat × LCell)) (b : Book) : Prop where
  sheets : ∀ i, Good (onSheet i h) (b.sheets i)
  ids : ∀ i j c d, c ∈ (b.sheets i).cells → d ∈ (b.sheets j).cells → c.id = d.id → c = d ∧ i = j
  labels : ∀ c, c ∈ b.labels ↔ inSST c = true ∧ ∃ i, c ∈ (b.sheets i).cells
  nodup : b.labels.Pairwise (fun c d => c.id ≠ d.id)

theorem eraseP_of_mem {l : List LCell} (hl : l.Pairwise (fun c d => c.id ≠ d.id)) (c : LCell) (hc : c ∈ l) (x : LCell) :
    x ∈ l.eraseP (fun y => y.id == c.id) ↔ x ∈ l ∧ x ≠ c := by
  induction l with
  | nil => simp at hc
  | cons y r ih =>
    obtain ⟨h1, h2⟩ := List.pairwise_cons.mp hl
    by_cases hy : y = c
    · subst hy
      rw [List.eraseP_cons_of_pos (by simp)]
      constructor
      · intro hx
        exact ⟨List.mem_cons_of_mem _ hx, fun e => h1 x hx (by rw [e])⟩
      · rintro ⟨hx, hn⟩
        exact (List.mem_cons.mp hx).resolve_left hn
    · have hc' : c ∈ r := (List.mem_cons.mp hc).resolve_left (fun e => hy e.symm)
      have hid : y.id ≠ c.id := h1 c hc'
      rw [List.eraseP_cons_of_neg (by simpa using hid), List.mem_cons, ih h2 hc', List.mem_cons]
      constructor
      · rintro (rfl | ⟨ha, hb⟩)
        · exact ⟨Or.inl rfl, hy⟩
        · exact ⟨Or.inr ha, hb⟩
      · rintro ⟨rfl | ha, hb⟩
        · exact Or.inl rfl
        · exact Or.inr ⟨ha, hb⟩

theorem eraseP_pairwise {l : List LCell} (hl : l.Pairwise (fun c d => c.id ≠ d.id)) (p : LCell → Bool) :
    (l.eraseP p).Pairwise (fun c d => c.id ≠ d.id) := hl.sublist List.eraseP_sublist

theorem reach_inv {h : List (Nat × LCell)} {b : Book} (r : Reach h b) : BInv h b := by
  induction r with
  | start =>
    have g : ∀ i, Good (onSheet i []) (({} : Book).sheets i) := fun i => by
      obtain ⟨s, e, g⟩ := run_good (α := Option (List UInt16)) []
      simp only [Sheet.run, List.foldlM_nil, pure, Option.some.injEq] at e
      subst e
      exact g
    exact ⟨g, fun i j c d hc => by simp at hc, fun c => by simp, List.Pairwise.nil⟩
  | @put h b b' i c _ hfresh hput ih =>
    obtain ⟨l, d, e, ho, hm, hd, hlen⟩ := addLoop_spec c (ih.sheets i).ordered (b.sheets i).cells.length
    have hon : ∀ j, onSheet j (h ++ [(i, c)]) = onSheet j h ++ (if j = i then [.cell c] else []) := by
      intro j
      by_cases hj : j = i
      · subst hj; simp [onSheet]
      · have : (i == j) = false := by simpa using fun e => hj e.symm
        simp [onSheet, List.filter_append, hj, this]
    have hadd : (b.sheets i).addCell c = some ({ (b.sheets i).extend c.row c.col with cells := l }, d) := by
      simp [Sheet.addCell, e]
    obtain ⟨s', es', gs'⟩ := apply_good (ih.sheets i) (.cell c)
    have hs' : s' = { (b.sheets i).extend c.row c.col with cells := l } := by
      simp [Sheet.apply, hadd] at es'
      exact es'.symm
    simp only [Book.put, hadd, Option.map_some, Option.some.injEq] at hput
    subst hput
    have hold : ∀ j x, x ∈ (b.sheets j).cells → x.id ≠ c.id := fun j x hx he => hfresh ⟨j, x, hx, he⟩
    -- the new contents of the sheets
    have hcells : ∀ j x, x ∈ ((if j = i then { (b.sheets i).extend c.row c.col with cells := l } else b.sheets j) :
        Sheet (Option (List UInt16))).cells ↔ (j = i ∧ x = c) ∨ (x ∈ (b.sheets j).cells ∧ ¬ (j = i ∧ x.key = c.key)) := by
      intro j x
      by_cases hj : j = i
      · subst hj
        rw [if_pos rfl]
        simp only [hm, true_and]
      · rw [if_neg hj]; simp [hj]
    have hadl : ∀ x, x ∈ addLabel b.labels c ↔ inSST x = true ∧ (x = c ∨ ∃ j, x ∈ (b.sheets j).cells) := by
      intro x
      unfold addLabel
      by_cases hc : inSST c = true
      · rw [if_pos hc, List.mem_append, ih.labels, List.mem_singleton]
        constructor
        · rintro (⟨h1, h2⟩ | rfl)
          · exact ⟨h1, Or.inr h2⟩
          · exact ⟨hc, Or.inl rfl⟩
        · rintro ⟨h1, rfl | h2⟩
          · exact Or.inr rfl
          · exact Or.inl ⟨h1, h2⟩
      · rw [if_neg hc, ih.labels]
        constructor
        · rintro ⟨h1, h2⟩; exact ⟨h1, Or.inr h2⟩
        · rintro ⟨h1, rfl | h2⟩
          · exact absurd h1 hc
          · exact ⟨h1, h2⟩
    have hapw : (addLabel b.labels c).Pairwise (fun c d => c.id ≠ d.id) := by
      unfold addLabel
      by_cases hc : inSST c = true
      · rw [if_pos hc, List.pairwise_append]
        refine ⟨ih.nodup, List.pairwise_singleton _ _, fun x hx y hy => ?_⟩
        rw [List.mem_singleton.mp hy]
        obtain ⟨_, j, hj⟩ := (ih.labels x).mp hx
        exact hold j x hj
      · rw [if_neg hc]; exact ih.nodup
    have hlab : (∀ x, x ∈ d.foldl deleteLabel (addLabel b.labels c) ↔ x ∈ addLabel b.labels c ∧ x ∉ d) ∧
        (d.foldl deleteLabel (addLabel b.labels c)).Pairwise (fun c d => c.id ≠ d.id) := by
      match d, hlen, hd with
      | [], _, _ => simpa using hapw
      | [y], _, hd =>
        obtain ⟨hy, hyk⟩ := (hd y).mp (by simp)
        simp only [List.foldl_cons, List.foldl_nil, deleteLabel]
        by_cases hyl : inSST y = true
        · rw [if_pos hyl]
          refine ⟨fun x => ?_, eraseP_pairwise hapw _⟩
          rw [eraseP_of_mem hapw y ((hadl y).mpr ⟨hyl, Or.inr ⟨i, hy⟩⟩) x]
          simp
        · rw [if_neg hyl]
          refine ⟨fun x => ?_, hapw⟩
          constructor
          · intro hx
            refine ⟨hx, fun hxy => ?_⟩
            rw [List.mem_singleton.mp hxy] at hx
            exact hyl ((hadl y).mp hx).1
          · exact fun hx => hx.1
    refine ⟨fun j => ?_, fun j k x y hx hy hid => ?_, fun x => ?_, hlab.2⟩
    · rw [hon]
      simp only
      by_cases hj : j = i
      · subst hj
        rw [if_pos rfl, if_pos rfl, ← hs']
        exact gs'
      · rw [if_neg hj, if_neg hj, List.append_nil]
        exact ih.sheets j
    · rcases (hcells j x).mp hx with ⟨rfl, rfl⟩ | ⟨hx1, hx2⟩
      · rcases (hcells k y).mp hy with ⟨rfl, rfl⟩ | ⟨hy1, hy2⟩
        · exact ⟨rfl, rfl⟩
        · exact absurd hid.symm (hold k y hy1)
      · rcases (hcells k y).mp hy with ⟨rfl, rfl⟩ | ⟨hy1, hy2⟩
        · exact absurd hid (hold j x hx1)
        · exact ih.ids j k x y hx1 hy1 hid
    · rw [hlab.1, hadl]
      constructor
      · rintro ⟨⟨h1, h2⟩, h3⟩
        refine ⟨h1, ?_⟩
        rcases h2 with rfl | ⟨j, hj⟩
        · exact ⟨i, (hcells i x).mpr (Or.inl ⟨rfl, rfl⟩)⟩
        · refine ⟨j, (hcells j x).mpr (Or.inr ⟨hj, ?_⟩)⟩
          rintro ⟨rfl, hk⟩
          exact h3 ((hd x).mpr ⟨hj, hk⟩)
      · rintro ⟨h1, j, hj⟩
        rcases (hcells j x).mp hj with ⟨rfl, rfl⟩ | ⟨hx1, hx2⟩
        · exact ⟨⟨h1, Or.inl rfl⟩, fun hxd => hold j x ((hd x).mp hxd).1 rfl⟩
        · refine ⟨⟨h1, Or.inr ⟨j, hx1⟩⟩, fun hxd => ?_⟩
          obtain ⟨ha, hb⟩ := (hd x).mp hxd
          obtain ⟨_, rfl⟩ := ih.ids j i x x hx1 ha rfl
          exact hx2 ⟨rfl, hb⟩

/-- Reader of a label record: row, column, format, and the text — directly, or by its place in the table. -/
def readLabel (table : List (List UInt16)) (r : Rec) : Option (Nat × Nat × Nat × List UInt16) :=
  (takeLE 2 r.2).bind fun (row, p) => (takeLE 2 p).bind fun (col, p) => (takeLE 2 p).bind fun (xf, p) =>
    if r.1 = 0xFD then (takeLE 4 p).bind fun (k, p) => if p = [] then (table[k]?).map (row, col, xf, ·) else none
    else if r.1 = 0x204 then (Spec.readStr2 p).bind fun (s, p) => if p = [] then some (row, col, xf, s) else none
    else none

/-- C06: after any history of cell writes on any sheets, the string table lists exactly the surviving labels
    of more than 255 characters, each once. -/
theorem c06_table (h : List (Nat × LCell)) (b : Book) (r : Reach h b) :
    b.labels.Nodup ∧
    ∀ c, c ∈ b.labels ↔ (∃ i, Survives h i c) ∧ ∃ t, c.val = some t ∧ 255 < t.length := by
  have hi := reach_inv r
  refine ⟨hi.nodup.imp (fun hne e => hne (by rw [e])), fun c => ?_⟩
  have hs : inSST c = true ↔ ∃ t, c.val = some t ∧ 255 < t.length := by
    unfold inSST
    cases c.val with
    | none => simp
    | some t => simp
  have hl : ∀ i, c ∈ (b.sheets i).cells ↔ Survives h i c := fun i => by
    unfold Survives
    rw [← (hi.sheets i).find, findCell_mem (hi.sheets i).ordered]
    simp
  rw [hi.labels, hs, and_comm]
  simp only [hl]

theorem mapM_val (l : List LCell) (h : ∀ c ∈ l, ∃ t, c.val = some t) :
    ∃ table, l.mapM Cell.val = some table ∧ ∀ k : Nat, table[k]? = (l[k]?).bind Cell.val := by
  induction l with
  | nil => exact ⟨[], rfl, fun k => by simp⟩
  | cons c r ih =>
    obtain ⟨t, ht⟩ := h c (by simp)
    obtain ⟨table, e, g⟩ := ih (fun x hx => h x (by simp [hx]))
    refine ⟨t :: table, by rw [List.mapM_cons, ht, e]; rfl, fun k => ?_⟩
    cases k with
    | zero => simp [ht]
    | succ k => simpa using g k

/-- C06: the record written for a surviving label reads back, through the string table, as its text. -/
theorem c06_label_reads_back (h : List (Nat × LCell)) (b : Book) (r : Reach h b) (i : Nat) (c : LCell)
    (t : List UInt16) (xf : Nat) (hc : Survives h i c) (ht : c.val = some t)
    (hrow : c.row < 65536) (hcol : c.col < 65536) (hxf : xf < 65536) (hn : b.labels.length ≤ 2 ^ 32) :
    ∃ table, b.labels.mapM Cell.val = some table ∧
      readLabel table (labelRec b.labels c t xf) = some (c.row, c.col, xf, t) := by
  have hi := reach_inv r
  obtain ⟨table, htab, htget⟩ := mapM_val b.labels (fun x hx => by
    obtain ⟨_, t, h1, _⟩ := ((c06_table h b r).2 x).mp hx
    exact ⟨t, h1⟩)
  refine ⟨table, htab, ?_⟩
  by_cases hlong : inSST c = true
  · have hmem : c ∈ b.labels := by
      rw [(c06_table h b r).2]
      refine ⟨⟨i, hc⟩, t, ht, ?_⟩
      simpa [inSST, ht] using hlong
    obtain ⟨k, hk, hkc⟩ := List.getElem_of_mem hmem
    have hidx : b.labels.findIdx? (fun x => x.id == c.id) = some k := by
      rw [List.findIdx?_eq_some_iff_getElem]
      refine ⟨hk, by simp [hkc], fun j hj => ?_⟩
      have := List.pairwise_iff_getElem.mp hi.nodup j k (by omega) hk hj
      rw [hkc] at this
      simpa using this
    have hs : sstIndex b.labels c = k := by
      simp only [sstIndex, hidx]
      exact Nat.mod_eq_of_lt (by omega)
    have hget : table[k]? = some t := by
      rw [htget, List.getElem?_eq_getElem hk, hkc]
      exact ht
    have h4 : takeLE 4 (leN 4 k) = some (k % 256 ^ 4, []) := by
      have := takeLE_leN_append 4 k []
      rwa [List.append_nil] at this
    simp only [readLabel, labelRec, hlong, if_true, hs, List.append_assoc, takeLE_leN_append, Option.bind_some, h4]
    rw [Nat.mod_eq_of_lt (a := k) (by omega), hget, Nat.mod_eq_of_lt (by omega), Nat.mod_eq_of_lt (by omega),
      Nat.mod_eq_of_lt (by omega)]
    rfl
  · have hlen : t.length < 65536 := by
      simp only [inSST, ht, decide_eq_true_eq] at hlong
      omega
    have hr := c04_len2_roundtrip t [] hlen
    rw [List.append_nil] at hr
    simp only [readLabel, labelRec, hlong, if_false, List.append_assoc, takeLE_leN_append, Option.bind_some,
      hr, Bool.false_eq_true]
    rw [Nat.mod_eq_of_lt (by omega), Nat.mod_eq_of_lt (by omega), Nat.mod_eq_of_lt (by omega)]
    rfl

-- a long label, replaced by another, and a short one on a second sheet (an address may be used again)
example (t u : List UInt16) (ht : t.length = 300) (hu : u.length = 400) :
    ∃ b, Reach [(0, ⟨1, 3, 4, some t⟩), (0, ⟨2, 3, 4, some u⟩), (1, ⟨1, 0, 0, some [65]⟩)] b ∧
      b.labels.map Cell.id = [2] := by
  refine ⟨_, Reach.put (h := [_, _]) (Reach.put (h := [_]) (Reach.put (h := []) Reach.start ?_ rfl) ?_ rfl) ?_ rfl, ?_⟩
  · rintro ⟨i, c, hc, _⟩; simp at hc
  · rintro ⟨i, c, hc, hid⟩
    by_cases hi : i = 0 <;> simp [hi, Sheet.extend] at hc
    subst hc; simp at hid
  · rintro ⟨i, c, hc, hid⟩
    by_cases hi : i = 0 <;> simp [hi, Sheet.extend] at hc
    subst hc; simp at hid
  · simp [addLabel, deleteLabel, inSST, ht, hu]

end Xls.Sst
