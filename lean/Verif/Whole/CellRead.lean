import Verif.Whole.Lemmas
import Verif.Whole.Read
import Verif.Num.Props
import Verif.Formula.CellProps
/-
Reading the records of one cell.
-/
namespace Xls.Whole
open Xls.Biff Xls.Cells Xls.Unit Xls.Save

/-- What it means that a cell on sheet `i` holds what the user wrote.  `ar` is the reader's knowledge of function arities. -/
def Holds (ar : Nat → Option Nat) (i : Nat) : Val → Content → Prop
  | .blank, c => c = .simple .blank
  | .text t, c => c = .text t
  | .double b, c => c = .simple (.number (.dbl b))
  | .signed z, c => ∃ v, c = .simple (.number v) ∧ v.Is z
  | .unsigned n, c => ∃ v, c = .simple (.number v) ∧ v.Is n
  | .bool b, c => c = .simple (.bool b)
  | .error code, c => c = .simple (.error code)
  | .expr array e, c => ∃ bs t, c = .formula array bs ∧ Formula.parse ar bs = some t ∧ Formula.Means (some i) e t
  | .tokens array tok, c => c = .formula array tok

/-- The values that the format and the library can take: texts whose encoding fits one record, 32-bit signed integers, unsigned
    integers below 0xE0000000 (`c23_unsigned_negative`), error codes of one byte, formulas within the limits of C24 that fit one
    record together with their result. -/
def Fine (i : Nat) : Val → Prop
  | .blank => True
  | .text t => t.length + 3 + (if ∀ c ∈ t, c ≤ 0x7F then 0 else t.length) ≤ 8224
  | .double b => b < 2 ^ 64
  | .signed z => -2147483648 ≤ z ∧ z < 2147483648
  | .unsigned n => n < 0xE0000000
  | .bool _ => True
  | .error code => code < 256
  | .expr _ e => Formula.Proper e ∧ Formula.Plain e ∧
      ∀ p, Formula.dump (some i) e = some p → p.1.length + Formula.strWritten (Formula.estimate e).val ≤ 8179
  | .tokens _ tok => tok.length ≤ 8179

/-- What is found in a cell, faults included: a text whose encoding does not fit one record is replaced by a notice (C05), and an unsigned
    integer from 0xE0000000 up becomes negative (C23). -/
def Found (ar : Nat → Option Nat) (i : Nat) : Val → Content → Prop
  | .text t, c => c = .text (Sst.stored t)
  | .unsigned n, c => ∃ v, c = .simple (.number v) ∧ v.Is (if n < 0xE0000000 then (n : Int) else n - 2 ^ 32)
  | v, c => Holds ar i v c

/-- The values that can be passed to the library (64-bit doubles, 32-bit integers, error codes of one byte, any text), and formulas
    within the limits of C24 that fit one record together with their result. -/
def Sound (i : Nat) : Val → Prop
  | .text _ => True
  | .unsigned n => n < 2 ^ 32
  | v => Fine i v

theorem Fine.sound {i : Nat} {v : Val} (h : Fine i v) : Sound i v := by
  cases v with
  | text t => trivial
  | unsigned n => have : n < 0xE0000000 := h; show n < 2 ^ 32; omega
  | _ => exact h

theorem Found.holds {ar : Nat → Option Nat} {i : Nat} {v : Val} {c : Content} (h : Found ar i v c) (hf : Fine i v) : Holds ar i v c := by
  cases v with
  | text t => have e : Sst.stored t = t := if_pos hf; rw [Found, e] at h; exact h
  | unsigned n =>
    obtain ⟨x, h1, h2⟩ := h
    have hn : n < 0xE0000000 := hf
    rw [if_pos hn] at h2
    exact ⟨x, h1, h2⟩
  | _ => exact h

theorem readCells_array (table : List (List UInt16)) (p q : Bytes) (rest : List Rec) :
    readCells table ((0x06, p) :: (0x221, q) :: rest) =
      (Formula.readFormula p).bind fun f => (Formula.readArray q).bind fun (r1, r2, c1, c2, e, x) =>
        if r1 = f.row ∧ r2 = f.row ∧ c1 = f.col ∧ c2 = f.col ∧ x = [] then
          (readCells table rest).map (⟨f.row, f.col, f.xf, .formula true e⟩ :: ·)
        else none := by
  rw [readCells]

theorem readCells_cons (table : List (List UInt16)) (t : Nat) (p : Bytes) (rest : List Rec)
    (h : t = 0x06 → ∀ r ∈ rest.head?, r.1 ≠ 0x221) :
    readCells table ((t, p) :: rest) =
      (if t = 0x06 then (Formula.readFormula p).bind fun f =>
        if f.rest = [] then some ⟨f.row, f.col, f.xf, .formula false f.rgce⟩ else none
       else if t = 0xFD ∨ t = 0x204 then readText table (t, p)
       else (Num.readCell t p).map fun c => ⟨c.row, c.col, c.xf, .simple c.content⟩).bind fun c =>
        (readCells table rest).map (c :: ·) := by
  rw [readCells]
  intro q r' ht hr
  first
    | (subst hr; exact h ht _ rfl rfl)
    | (subst ht; exact h hr _ rfl rfl)

/-- A cell's records (those of the cell table) read back, whatever cell records follow. -/
structure Reads (table : List (List UInt16)) (rs : List Rec) (x : ReadCell) : Prop where
  head : ∀ r ∈ (rs.filter isCell).head?, r.1 ≠ 0x221
  ne : rs.filter isCell ≠ []
  read : ∀ rest : List Rec, (∀ r ∈ rest.head?, r.1 ≠ 0x221) → readCells table (rs.filter isCell ++ rest) = (readCells table rest).map (x :: ·)

theorem reads_simple {table : List (List UInt16)} {t : Nat} {p : Bytes} {c : Num.ReadCell} (ht : t = 0x201 ∨ t = 0x203 ∨ t = 0x205 ∨ t = 0x27E)
    (h : Num.readCell t p = some c) : Reads table [(t, p)] ⟨c.row, c.col, c.xf, .simple c.content⟩ := by
  have hf : [(t, p)].filter isCell = [(t, p)] := by
    rcases ht with rfl | rfl | rfl | rfl <;> rfl
  refine ⟨?_, by rw [hf]; simp, ?_⟩
  · rw [hf]
    intro r hr
    simp only [List.head?_cons, Option.mem_def, Option.some.injEq] at hr
    subst hr
    rcases ht with rfl | rfl | rfl | rfl <;> simp
  · intro rest _
    rw [hf, List.cons_append, List.nil_append, readCells_cons _ _ _ _ (by intro e; rcases ht with h | h | h | h <;> omega),
      if_neg (by rcases ht with h | h | h | h <;> omega), if_neg (by rcases ht with h | h | h | h <;> omega), h]
    rfl

theorem reads_text {table : List (List UInt16)} {t : Nat} {p : Bytes} {x : ReadCell} (ht : t = 0xFD ∨ t = 0x204)
    (h : readText table (t, p) = some x) : Reads table [(t, p)] x := by
  have hf : [(t, p)].filter isCell = [(t, p)] := by
    rcases ht with rfl | rfl <;> rfl
  refine ⟨?_, by rw [hf]; simp, ?_⟩
  · rw [hf]
    intro r hr
    simp only [List.head?_cons, Option.mem_def, Option.some.injEq] at hr
    subst hr
    rcases ht with rfl | rfl <;> simp
  · intro rest _
    rw [hf, List.cons_append, List.nil_append, readCells_cons _ _ _ _ (by intro e; rcases ht with h | h <;> omega),
      if_neg (by rcases ht with h | h <;> omega), if_pos ht, h]
    rfl

theorem str_filter (e : Formula.Est) : (Formula.strRecords e).filter isCell = [] := by cases e <;> rfl

theorem reads_formula {table : List (List UInt16)} {row col xf : Nat} (hr : row < 65536) (hc : col < 256) (hx : xf < 65536) (array : Bool)
    (e : Formula.Estimate) (tok : Bytes) (ht : tok.length < 65536) :
    Reads table (Formula.formulaRecords row col xf array e tok) ⟨row, col, xf, .formula array tok⟩ := by
  cases array with
  | false =>
    have hf : (Formula.formulaRecords row col xf false e tok).filter isCell = [(0x06, Formula.formulaHead row col xf e ++ Formula.rgce tok)] := by
      unfold Formula.formulaRecords
      rw [List.filter_append, str_filter]
      rfl
    refine ⟨by rw [hf]; simp, by rw [hf]; simp, fun rest hrest => ?_⟩
    rw [hf, List.cons_append, List.nil_append, readCells_cons _ _ _ _ (fun _ => hrest), if_pos rfl,
      Formula.readFormula_head hr (by omega) hx e tok ht]
    simp
  | true =>
    have hf : (Formula.formulaRecords row col xf true e tok).filter isCell =
        [(0x06, Formula.formulaHead row col xf e ++ Formula.rgce (leN 1 1 ++ leN 2 row ++ leN 2 col)),
         (0x221, leN 2 row ++ leN 2 row ++ leN 1 col ++ leN 1 col ++ leN 2 e.flags ++ leN 4 0 ++ Formula.rgce tok)] := by
      unfold Formula.formulaRecords
      rw [List.filter_append, str_filter]
      rfl
    refine ⟨by rw [hf]; simp, by rw [hf]; simp, fun rest hrest => ?_⟩
    rw [hf, List.cons_append, List.cons_append, List.nil_append, readCells_array,
      Formula.readFormula_head hr (by omega) hx e _ (by simp)]
    have ha : Formula.readArray (leN 2 row ++ leN 2 row ++ leN 1 col ++ leN 1 col ++ leN 2 e.flags ++ leN 4 0 ++ Formula.rgce tok) =
        some (row, row, col, col, tok, []) := by
      unfold Formula.readArray Formula.rgce
      simp only [List.append_assoc, Formula.takeLE_two _ hr, Formula.takeLE_two _ ht, takeLE_leN_append, Option.bind_some, Formula.takeN_all, Option.map_some]
      rw [Nat.mod_eq_of_lt (by omega : col < 256 ^ 1)]
    rw [ha]
    simp

theorem stored_short {t : List UInt16} (h : t.length ≤ 255) : Sst.stored t = t := if_pos (by split <;> omega)

theorem readText_of_label {table : List (List UInt16)} {r : Rec} {row col xf : Nat} {t : List UInt16} (ht : r.1 = 0x204 → Sst.stored t = t)
    (h : Sst.readLabel table r = some (row, col, xf, t)) : (r.1 = 0xFD ∨ r.1 = 0x204) ∧
      readText (table.map Sst.stored) r = some ⟨row, col, xf, .text (Sst.stored t)⟩ := by
  unfold Sst.readLabel at h
  unfold readText
  cases h1 : takeLE 2 r.2 with
  | none => rw [h1] at h; simp at h
  | some a =>
    rw [h1] at h
    simp only [Option.bind_some] at h ⊢
    cases h2 : takeLE 2 a.2 with
    | none => rw [h2] at h; simp at h
    | some b =>
      rw [h2] at h
      simp only [Option.bind_some] at h ⊢
      cases h3 : takeLE 2 b.2 with
      | none => rw [h3] at h; simp at h
      | some c =>
        rw [h3] at h
        simp only [Option.bind_some] at h ⊢
        by_cases hr : r.1 = 0xFD
        · rw [if_pos hr] at h ⊢
          refine ⟨.inl hr, ?_⟩
          cases h4 : takeLE 4 c.2 with
          | none => rw [h4] at h; simp at h
          | some d =>
            rw [h4] at h
            simp only [Option.bind_some] at h ⊢
            by_cases hd : d.2 = []
            · rw [if_pos hd] at h ⊢
              cases h5 : table[d.1]? with
              | none => rw [h5] at h; simp at h
              | some u =>
                rw [h5] at h
                simp only [Option.map_some, Option.some.injEq, Prod.mk.injEq] at h
                obtain ⟨rfl, rfl, rfl, rfl⟩ := h
                simp [List.getElem?_map, h5]
            · rw [if_neg hd] at h; simp at h
        · rw [if_neg hr] at h ⊢
          by_cases hr' : r.1 = 0x204
          · rw [if_pos hr'] at h
            refine ⟨.inr hr', ?_⟩
            cases h4 : Spec.readStr2 c.2 with
            | none => rw [h4] at h; simp at h
            | some d =>
              rw [h4] at h
              simp only [Option.bind_some] at h ⊢
              by_cases hd : d.2 = []
              · rw [if_pos hd] at h ⊢
                simp only [Option.some.injEq, Prod.mk.injEq] at h
                obtain ⟨rfl, rfl, rfl, rfl⟩ := h
                rw [ht hr']
              · rw [if_neg hd] at h; simp at h
          · rw [if_neg hr'] at h; simp at h

theorem small_one {t : Nat} {p : Bytes} (ht : t < 65536) (h1 : t ≠ 0x0A) (h2 : t ≠ 0x809) (hp : p.length ≤ 8224) :
    (∀ r ∈ [((t, p) : Rec)], r.1 < 65536 ∧ r.2.length ≤ 8224 ∧ Inner r) ∧ (([((t, p) : Rec)]).flatMap enc).length ≤ 8228 := by
  refine ⟨?_, ?_⟩
  · intro r hr
    simp only [List.mem_singleton] at hr
    subst hr
    exact ⟨ht, hp, h1, h2⟩
  · simp only [List.flatMap_cons, List.flatMap_nil, List.append_nil, Save.enc_length]
    omega

theorem num_small (row col xf : Nat) (n : Num.Number) :
    (∀ r ∈ [Num.numberRecord row col xf n], r.1 < 65536 ∧ r.2.length ≤ 8224 ∧ Inner r) ∧ ([Num.numberRecord row col xf n].flatMap enc).length ≤ 8228 := by
  cases n with
  | dbl b => exact small_one (by decide) (by decide) (by decide) (by simp [Num.cellHead])
  | int z => exact small_one (by decide) (by decide) (by decide) (by simp [Num.cellHead])

theorem num_type (row col xf : Nat) (n : Num.Number) : (Num.numberRecord row col xf n).1 = 0x203 ∨ (Num.numberRecord row col xf n).1 = 0x27E := by
  cases n with
  | dbl b => exact .inl rfl
  | int z => exact .inr rfl

theorem num_kind (row col xf : Nat) (n : Num.Number) : (Num.numberRecord row col xf n).1 = 0x201 ∨ (Num.numberRecord row col xf n).1 = 0x203 ∨
    (Num.numberRecord row col xf n).1 = 0x205 ∨ (Num.numberRecord row col xf n).1 = 0x27E := by
  rcases num_type row col xf n with h | h <;> simp [h]

theorem formula_small {row col xf : Nat} (array : Bool) (e : Formula.Estimate) (tok : Bytes) (h : tok.length + Formula.strWritten e.val ≤ 8179) :
    (∀ r ∈ Formula.formulaRecords row col xf array e tok, r.1 < 65536 ∧ r.2.length ≤ 8224 ∧ Inner r) ∧
      ((Formula.formulaRecords row col xf array e tok).flatMap enc).length ≤ 8228 := by
  have hl := Formula.unit_length row col xf array e tok
  have hle : (Formula.formulaUnit row col xf array e tok).length ≤ 8228 := by
    rw [hl]; split <;> omega
  refine ⟨?_, hle⟩
  intro r hr
  have hlen : r.2.length ≤ 8224 := by
    have h1 : (enc r).Sublist ((Formula.formulaRecords row col xf array e tok).flatMap enc) := Rows.sublist_flatMap enc hr
    have h2 := h1.length_le
    have h3 : ((Formula.formulaRecords row col xf array e tok).flatMap enc).length ≤ 8228 := hle
    have : (enc r).length = r.2.length + 4 := Save.enc_length r.1 r.2
    omega
  have ht : r.1 = 0x06 ∨ r.1 = 0x221 ∨ r.1 = 0x207 := by
    unfold Formula.formulaRecords at hr
    rcases List.mem_append.mp hr with hr | hr
    · cases array
      · simp only [Bool.false_eq_true, if_false, List.mem_singleton] at hr; subst hr; exact .inl rfl
      · simp only [if_true, List.mem_cons, List.not_mem_nil, or_false] at hr
        rcases hr with rfl | rfl
        · exact .inl rfl
        · exact .inr (.inl rfl)
    · cases hv : e.val <;> rw [hv] at hr <;> simp only [Formula.strRecords, List.not_mem_nil, List.mem_singleton] at hr
      subst hr
      exact .inr (.inr rfl)
  exact ⟨by omega, hlen, by unfold Inner; omega⟩

/-- The records of a cell that a workbook holds: they fit one unit and read back. -/
theorem cell_reads {ar : Nat → Option Nat} (hA : Formula.KnowsArity ar) {h : List (Nat × Cell Val)} {b : Book} (r : Reach h b)
    (hn : b.labels.length ≤ 2 ^ 32) {table : List (List UInt16)} (ht : b.labels.mapM Cell.val = some table) {i : Nat} {c : WCell}
    (hc : c ∈ (b.sheets i).cells) (hi : c.val.1 = i) (hrow : c.row < 65536) (hcol : c.col < 256) (hf : Sound i c.val.2) {xf : Nat} (hx : xf < 65536) :
    ∃ rs, cellRecords b.labels xf c = some rs ∧ (∀ r ∈ rs, r.1 < 65536 ∧ r.2.length ≤ 8224 ∧ Inner r) ∧ (rs.flatMap enc).length ≤ 8228 ∧
      ∃ x, Reads (table.map Sst.stored) rs x ∧ x.row = c.row ∧ x.col = c.col ∧ x.xf = xf ∧ Found ar i c.val.2 x.content := by
  have hcol' : c.col < 65536 := by omega
  obtain ⟨o1, o2, o3⟩ := Num.c23_others hrow hcol' hx
  unfold cellRecords
  cases hv : c.val.2 with
  | blank =>
    obtain ⟨s1, s2⟩ := small_one (t := 0x201) (p := Num.cellHead c.row c.col xf) (by decide) (by decide) (by decide) (by simp [Num.cellHead])
    exact ⟨_, rfl, s1, s2, _, reads_simple (.inl rfl) o3, rfl, rfl, rfl, rfl⟩
  | text t =>
    obtain ⟨table', e, hread⟩ := label_read r hn
    rw [ht] at e
    obtain rfl := Option.some.inj e
    have hl := hread i c hc t xf hv hrow hcol' hx
    have hshort : (Sst.labelRec b.labels (toL c) t xf).1 = 0x204 → t.length ≤ 255 := by
      intro hty
      unfold Sst.labelRec at hty
      simp only at hty
      split at hty
      · omega
      · rename_i hs
        simp only [Sst.inSST, toL, hv, Val.label] at hs
        simpa using hs
    obtain ⟨h1, h2⟩ := readText_of_label (fun e => stored_short (hshort e)) hl
    have hsz : (Sst.labelRec b.labels (toL c) t xf).2.length ≤ 8224 := by
      unfold Sst.labelRec
      simp only [List.length_append, leN_length]
      split
      · simp
      · rename_i hs
        have hlen : t.length ≤ 255 := by
          simp only [Sst.inSST, toL, hv, Val.label] at hs
          simpa using hs
        rw [c04_string_size]
        simp only [unicodeStringLength]
        split <;> omega
    obtain ⟨s1, s2⟩ := small_one (t := (Sst.labelRec b.labels (toL c) t xf).1) (p := (Sst.labelRec b.labels (toL c) t xf).2)
      (by omega) (by omega) (by omega) hsz
    exact ⟨_, rfl, s1, s2, _, reads_text h1 h2, rfl, rfl, rfl, rfl⟩
  | double bits =>
    rw [hv] at hf
    obtain ⟨s1, s2⟩ := num_small c.row c.col xf (Num.ofDouble bits)
    exact ⟨_, rfl, s1, s2, _, reads_simple (num_kind c.row c.col xf (Num.ofDouble bits))
      (Num.c23_double hrow hcol' hx hf), rfl, rfl, rfl, rfl⟩
  | signed z =>
    rw [hv] at hf
    obtain ⟨s1, s2⟩ := num_small c.row c.col xf (Num.ofSigned z)
    obtain ⟨v, h1, h2⟩ := Num.c23_signed hrow hcol' hx hf.1 hf.2
    exact ⟨_, rfl, s1, s2, _, reads_simple (num_kind c.row c.col xf (Num.ofSigned z)) h1, rfl, rfl, rfl, v, rfl, h2⟩
  | unsigned n =>
    rw [hv] at hf
    obtain ⟨s1, s2⟩ := num_small c.row c.col xf (Num.ofUnsigned n)
    by_cases hlt : n < 0xE0000000
    · obtain ⟨v, h1, h2⟩ := Num.c23_unsigned_partial hrow hcol' hx hlt
      exact ⟨_, rfl, s1, s2, _, reads_simple (num_kind c.row c.col xf (Num.ofUnsigned n)) h1, rfl, rfl, rfl, v, rfl, by rw [if_pos hlt]; exact h2⟩
    · obtain ⟨v, h1, h2, -⟩ := Num.c23_unsigned_negative hrow hcol' hx (Nat.le_of_not_lt hlt) hf
      exact ⟨_, rfl, s1, s2, _, reads_simple (num_kind c.row c.col xf (Num.ofUnsigned n)) h1, rfl, rfl, rfl, v, rfl, by rw [if_neg hlt]; exact h2⟩
  | bool v =>
    obtain ⟨s1, s2⟩ := small_one (t := 0x205) (p := Num.cellHead c.row c.col xf ++ [if v then 1 else 0, 0]) (by decide) (by decide) (by decide)
      (by simp [Num.cellHead])
    exact ⟨_, rfl, s1, s2, _, reads_simple (.inr (.inr (.inl rfl))) (o1 v), rfl, rfl, rfl, rfl⟩
  | error code =>
    rw [hv] at hf
    obtain ⟨s1, s2⟩ := small_one (t := 0x205) (p := Num.cellHead c.row c.col xf ++ [UInt8.ofNat code, 1]) (by decide) (by decide) (by decide)
      (by simp [Num.cellHead])
    exact ⟨_, rfl, s1, s2, _, reads_simple (.inr (.inr (.inl rfl))) (o2 code hf), rfl, rfl, rfl, rfl⟩
  | expr array e =>
    rw [hv] at hf
    obtain ⟨h1, h2, h3⟩ := hf
    obtain ⟨bs, t, hd, hp, hm⟩ := Formula.c24_parse_partial hA (some i) h1 h2
    have hlen := h3 _ hd
    simp only at hlen
    simp only [hi, hd, Option.map_some]
    obtain ⟨s1, s2⟩ := formula_small (row := c.row) (col := c.col) (xf := xf) array (Formula.estimate e) bs hlen
    exact ⟨_, rfl, s1, s2, _, reads_formula hrow hcol hx array _ bs (by omega), rfl, rfl, rfl, bs, t, rfl, hp, hm⟩
  | tokens array tok =>
    rw [hv] at hf
    have hf : tok.length ≤ 8179 := hf
    obtain ⟨s1, s2⟩ := formula_small (row := c.row) (col := c.col) (xf := xf) array Formula.stackEstimate tok (by simpa [Formula.stackEstimate, Formula.strWritten] using hf)
    exact ⟨_, rfl, s1, s2, _, reads_formula hrow hcol hx array _ tok (by omega), rfl, rfl, rfl, rfl⟩

end Xls.Whole
