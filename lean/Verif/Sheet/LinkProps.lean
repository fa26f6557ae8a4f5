import Verif.Sheet.Props
import Verif.Unit.Props
/-
C45 and C46: hyperlinks and data validations read back.
-/
namespace Xls.Sheet
open Xls.Cells Xls.Biff Xls.Rows Xls.Unit

variable {α ν : Type}

/-! ### Specification -/

/-- Read `n` 16-bit characters. -/
def readU16s : Nat → Bytes → Option (List UInt16 × Bytes)
  | 0, bs => some ([], bs)
  | n + 1, bs =>
    match takeLE 2 bs with
    | none => none
    | some (c, r) => (readU16s n r).map fun (l, r') => (UInt16.ofNat c :: l, r')

/-- Read a zero-terminated string of `n` characters, the terminator included. -/
def readZ (n : Nat) (bs : Bytes) : Option (List UInt16 × Bytes) :=
  if n = 0 then none
  else match readU16s (n - 1) bs with
    | none => none
    | some (l, r) => match takeLE 2 r with
      | some (0, r') => some (l, r')
      | _ => none

/-- Read an HLINK payload: first row, last row, first column, last column; the class id of standard hyperlinks; the
    number 2; the flags (1: a moniker follows, 2: it is absolute, 8: a location follows); the class id of URL monikers, the
    length of the URL in bytes and the URL; the number of characters of the location and the location.  A hyperlink
    of one cell is accepted only. -/
def readLink (bs : Bytes) : Option Link :=
  match takeLE 2 bs with
  | none => none
  | some (r1, bs) =>
  match takeLE 2 bs with
  | none => none
  | some (r2, bs) =>
  match takeLE 2 bs with
  | none => none
  | some (c1, bs) =>
  match takeLE 2 bs with
  | none => none
  | some (c2, bs) =>
  match takeN 16 bs with
  | none => none
  | some (g1, bs) =>
  match takeLE 4 bs with
  | none => none
  | some (two, bs) =>
  match takeLE 4 bs with
  | none => none
  | some (flags, bs) =>
  match takeN 16 bs with
  | none => none
  | some (g2, bs) =>
  match takeLE 4 bs with
  | none => none
  | some (ulen, bs) =>
  match readZ (ulen / 2) bs with
  | none => none
  | some (url, bs) =>
    if r1 = r2 ∧ c1 = c2 ∧ two = 2 ∧ flags % 4 = 3 ∧ ulen % 2 = 0 ∧
        g1 = [0xd0, 0xc9, 0xea, 0x79, 0xf9, 0xba, 0xce, 0x11, 0x8c, 0x82, 0x00, 0xaa, 0x00, 0x4b, 0xa9, 0x0b] ∧
        g2 = [0xe0, 0xc9, 0xea, 0x79, 0xf9, 0xba, 0xce, 0x11, 0x8c, 0x82, 0x00, 0xaa, 0x00, 0x4b, 0xa9, 0x0b] then
      if flags / 8 % 2 = 1 then
        match takeLE 4 bs with
        | none => none
        | some (n, bs) => match readZ n bs with
          | some (mark, []) => some ⟨r1, c1, url, mark⟩
          | _ => none
      else if bs = [] then some ⟨r1, c1, url, []⟩ else none
    else none

/-- What a DV record says. -/
structure DVRead where
  options : Nat
  promptTitle : List UInt16
  errorTitle : List UInt16
  promptText : List UInt16
  errorText : List UInt16
  formula1 : Bytes
  formula2 : Bytes
  rects : List Rect
deriving Repr, DecidableEq

/-- Read a formula of a DV record: size, two unused bytes, the tokens. -/
def readCond (bs : Bytes) : Option (Bytes × Bytes) :=
  match takeLE 2 bs with
  | none => none
  | some (n, bs) => match takeLE 2 bs with
    | none => none
    | some (_, bs) => takeN n bs

/-- Read a DV payload: options, prompt title, error title, prompt text, error text, the two formulas, the number of
    rectangles and the rectangles. -/
def readDV (bs : Bytes) : Option DVRead :=
  match takeLE 4 bs with
  | none => none
  | some (o, bs) =>
  match Spec.readStr2 bs with
  | none => none
  | some (s1, bs) =>
  match Spec.readStr2 bs with
  | none => none
  | some (s2, bs) =>
  match Spec.readStr2 bs with
  | none => none
  | some (s3, bs) =>
  match Spec.readStr2 bs with
  | none => none
  | some (s4, bs) =>
  match readCond bs with
  | none => none
  | some (f1, bs) =>
  match readCond bs with
  | none => none
  | some (f2, bs) =>
  match takeLE 2 bs with
  | none => none
  | some (n, bs) =>
  match readRects n bs with
  | none => none
  | some rs => some ⟨o, s1, s2, s3, s4, f1, f2, rs⟩

/-! ### Helper lemmas -/

theorem readU16s_chars (l : List UInt16) (r : Bytes) :
    readU16s l.length (l.flatMap (fun c => leN 2 c.toNat) ++ r) = some (l, r) := by
  induction l with
  | nil => rfl
  | cons c t ih =>
    simp only [List.flatMap_cons, List.length_cons, readU16s, List.append_assoc, takeLE_leN_append, ih, Option.map_some]
    rw [Nat.mod_eq_of_lt (by have := c.toNat_lt; omega), UInt16.ofNat_toNat]

theorem readZ_chars (l : List UInt16) (r : Bytes) :
    readZ (l.length + 1) (l.flatMap (fun c => leN 2 c.toNat) ++ (leN 2 0 ++ r)) = some (l, r) := by
  unfold readZ
  rw [if_neg (by omega), Nat.add_sub_cancel, readU16s_chars]
  simp only [takeLE_leN_append, Nat.zero_mod]

theorem readLink_payload (l : Link) (hr : l.row < 65536) (hc : l.col < 65536) (hu : l.url.length < 2 ^ 30)
    (hm : l.mark.length < 2 ^ 30) : readLink (hlinkPayload l) = some l := by
  obtain ⟨row, col, url, mark⟩ := l
  simp only at hr hc hu hm
  have g1 : ∀ r : Bytes, takeN 16 (stdLinkGUID ++ r) = some (stdLinkGUID, r) := fun r => takeN_append' _ _ rfl
  have g2 : ∀ r : Bytes, takeN 16 (urlMonikerGUID ++ r) = some (urlMonikerGUID, r) := fun r => takeN_append' _ _ rfl
  have e1 : (url.length + 1) * 2 % 256 ^ 4 = (url.length + 1) * 2 := Nat.mod_eq_of_lt (by omega)
  have e2 : (url.length + 1) * 2 / 2 = url.length + 1 := by omega
  have e3 : ((mark.length + 1) * 2 % 2 ^ 32 / 2) % 256 ^ 4 = mark.length + 1 := by
    rw [Nat.mod_eq_of_lt (by omega)]; omega
  unfold hlinkPayload readLink
  simp only [List.append_assoc, takeLE_leN_append, g1, g2, e1, e2, readZ_chars]
  rw [if_pos (by
    refine ⟨trivial, trivial, ?_, ?_, by omega, rfl, rfl⟩
    · simp
    · by_cases h : mark = [] <;> simp [h])]
  by_cases h : mark = []
  · subst h
    simp only [ne_eq, not_true_eq_false, if_false]
    rw [Nat.mod_eq_of_lt (by omega : row < 256 ^ 2), Nat.mod_eq_of_lt (by omega : col < 256 ^ 2)]
    rfl
  · simp only [ne_eq, h, not_false_eq_true, if_true, takeLE_leN_append, e3]
    have := readZ_chars mark []
    rw [List.append_nil] at this
    rw [this, Nat.mod_eq_of_lt (by omega : row < 256 ^ 2), Nat.mod_eq_of_lt (by omega : col < 256 ^ 2)]
    rfl

theorem hlink_length (l : Link) : (hlinkPayload l).length ≤ 60 + 2 * l.url.length + 2 * l.mark.length := by
  have h : ∀ u : List UInt16, (u.flatMap (fun c => leN 2 c.toNat)).length = 2 * u.length := by
    intro u
    induction u with
    | nil => rfl
    | cons a r ih => simp only [List.flatMap_cons, List.length_append, leN_length, ih, List.length_cons]; omega
  unfold hlinkPayload
  split
  · simp only [List.length_append, leN_length, h, show stdLinkGUID.length = 16 from rfl, show urlMonikerGUID.length = 16 from rfl]
    omega
  · simp only [List.length_append, leN_length, h, show stdLinkGUID.length = 16 from rfl, show urlMonikerGUID.length = 16 from rfl,
      List.length_nil]
    omega

/-- The tokens a condition should have: those of the formula, or the integer 0 if there is none. -/
def condTokens : Option (Nat × Bytes) → Bytes
  | none => [0x1E, 0, 0]
  | some (_, bs) => bs

theorem readCond_bytes (c : Option (Nat × Bytes)) (r : Bytes)
    (h : ∀ n bs, c = some (n, bs) → n = bs.length ∧ n < 65536) : readCond (condBytes c ++ r) = some (condTokens c, r) := by
  cases c with
  | none =>
    simp only [condBytes, readCond, List.append_assoc, takeLE_leN_append]
    exact takeN_append' (n := 3) [0x1E, 0, 0] r rfl
  | some p =>
    obtain ⟨n, bs⟩ := p
    obtain ⟨h1, h2⟩ := h n bs rfl
    simp only [condBytes, readCond, List.append_assoc, takeLE_leN_append]
    rw [Nat.mod_eq_of_lt (by omega), h1]
    exact takeN_append bs r

theorem readDV_payload (v : DVal) (ho : v.options < 2 ^ 32)
    (h1 : v.promptTitle.length < 65536) (h2 : v.errorTitle.length < 65536) (h3 : v.promptText.length < 65536)
    (h4 : v.errorText.length < 65536) (c1 : ∀ n bs, v.cond1 = some (n, bs) → n = bs.length ∧ n < 65536)
    (c2 : ∀ n bs, v.cond2 = some (n, bs) → n = bs.length ∧ n < 65536)
    (hr : v.rect.firstRow < 65536 ∧ v.rect.lastRow < 65536 ∧ v.rect.firstCol < 65536 ∧ v.rect.lastCol < 65536) :
    readDV (dvPayload v) = some ⟨v.options, v.promptTitle, v.errorTitle, v.promptText, v.errorText,
      condTokens v.cond1, condTokens v.cond2, [v.rect]⟩ := by
  have hrect := readRects_payload [v.rect] (by simpa using hr)
  simp only [List.length_cons, List.length_nil, List.flatMap_cons, List.flatMap_nil, List.append_nil, List.append_assoc] at hrect
  unfold dvPayload readDV
  simp only [List.append_assoc, takeLE_leN_append, c04_len2_roundtrip _ _ h1, c04_len2_roundtrip _ _ h2,
    c04_len2_roundtrip _ _ h3, c04_len2_roundtrip _ _ h4, readCond_bytes _ _ c1, readCond_bytes _ _ c2]
  rw [show 1 % 256 ^ 2 = 0 + 1 from rfl, hrect, Nat.mod_eq_of_lt (by omega)]

/-! ### C45 -/

/-- C45: the HLINK records of a saved sheet, read as the file format says, are the hyperlinks added, in order: row,
    column, URL and text mark exactly (no mark reads as an empty one).  The texts of one link together must be shorter than
    32000 characters; rows and columns less than 65536. -/
theorem c45_links (env : Env α ν) (ht : env.Typed) (D : Data α ν) (off fuel : Nat) (s : St α) (us : List Book.U)
    (x : Data α ν × St α) (hs : Ready D s) (hlen : D.cells.length < 2 ^ 32) (h16 : D.notes.length ≤ 65535)
    (hd : drain (next env) fuel off 0 (D, s) = .done us x)
    (hl : ∀ l ∈ D.links, l.row < 65536 ∧ l.col < 65536 ∧ l.url.length + l.mark.length < 32000) :
    (inSection 12 us).map (fun b => (payloadOf b).bind readLink) = D.links.map some := by
  obtain ⟨bs, hb, rfl, -, -⟩ := drain_done hs hlen h16 hd
  rw [inSection_units ht, layout_links, List.map_map, List.map_map]
  refine List.map_congr_left fun l hm => ?_
  obtain ⟨a, b, c⟩ := hl l hm
  have := hlink_length l
  simp only [Function.comp_apply, Ev.bytes]
  rw [payloadOf_enc _ _ (by omega), Option.bind_some, readLink_payload l a b (by omega) (by omega)]

/-- What the call stores: any cell below row and column 65536. -/
theorem c45_call (D : Data α ν) (row col : UInt32) (url mark : List UInt16) (hr : row.toNat < 65536) (hc : col.toNat < 65536) :
    (D.hyperLink row col url mark).links = D.links ++ [⟨row.toNat, col.toNat, url, mark⟩] := by
  simp only [Data.hyperLink, Nat.mod_eq_of_lt hr, Nat.mod_eq_of_lt hc]

/-! ### C46 -/

/-- C46: the DV records of a saved sheet, read as the file format says, are the data validations added, in order:
    options, the four texts, the formulas' tokens and the rectangle; and the DVAL record announces their number.  The size
    that a formula announces must be right (C25), the record shorter than 65536 bytes. -/
theorem c46_validations (env : Env α ν) (ht : env.Typed) (D : Data α ν) (off fuel : Nat) (s : St α) (us : List Book.U)
    (x : Data α ν × St α) (hs : Ready D s) (hlen : D.cells.length < 2 ^ 32) (h16 : D.notes.length ≤ 65535)
    (hd : drain (next env) fuel off 0 (D, s) = .done us x)
    (hn : D.dvals.length < 2 ^ 32)
    (hv : ∀ v ∈ D.dvals, v.options < 2 ^ 32 ∧ (dvPayload v).length < 65536 ∧
      (∀ n bs, v.cond1 = some (n, bs) → n = bs.length) ∧ (∀ n bs, v.cond2 = some (n, bs) → n = bs.length) ∧
      v.rect.firstRow < 65536 ∧ v.rect.lastRow < 65536 ∧ v.rect.firstCol < 65536 ∧ v.rect.lastCol < 65536) :
    (inSection 14 us).map (fun b => (payloadOf b).bind readDV) = D.dvals.map (fun v => some
      ⟨v.options, v.promptTitle, v.errorTitle, v.promptText, v.errorText, condTokens v.cond1, condTokens v.cond2, [v.rect]⟩) ∧
    (inSection 13 us).map (fun b => (payloadOf b).bind fun p => rdLE 4 p 14) =
      if D.dvals = [] then [] else [some D.dvals.length] := by
  obtain ⟨bs, hb, rfl, -, -⟩ := drain_done hs hlen h16 hd
  constructor
  · rw [inSection_units ht, layout_dvs, List.map_map, List.map_map]
    refine List.map_congr_left fun v hm => ?_
    obtain ⟨a, b, c1, c2, r⟩ := hv v hm
    have strlen : ∀ t : List UInt16, t.length ≤ (strBytes t .len2).length := by
      intro t
      rw [c04_string_size]
      unfold unicodeStringLength
      split <;> omega
    have l1 := strlen v.promptTitle
    have l2 := strlen v.errorTitle
    have l3 := strlen v.promptText
    have l4 := strlen v.errorText
    have hb' := b
    have lc : ∀ c : Option (Nat × Bytes), ∀ n bs, c = some (n, bs) → (condBytes c).length = 4 + bs.length := by
      rintro c n bs rfl; simp [condBytes]; omega
    have lc1 := lc v.cond1
    have lc2 := lc v.cond2
    simp only [dvPayload, List.length_append, leN_length] at b
    simp only [Function.comp_apply, Ev.bytes]
    rw [payloadOf_enc _ _ hb', Option.bind_some, readDV_payload v a (by omega) (by omega) (by omega) (by omega)
      (fun n bs e => ⟨c1 n bs e, by have := lc1 n bs e; have := c1 n bs e; omega⟩)
      (fun n bs e => ⟨c2 n bs e, by have := lc2 n bs e; have := c2 n bs e; omega⟩) r]
  · have h13 : ((layout env D s.spid off bs).filter fun e => e.sec == 13) = if D.dvals = [] then [] else [.dvHeader D.dvals.length] := by
      have hdv : ((dvEvs D : List (Ev α ν)).filter fun e => e.sec == 13) =
          if D.dvals = [] then [] else [.dvHeader D.dvals.length] := by
        unfold dvEvs
        split
        · rfl
        · rw [List.filter_cons, if_pos (by simp [Ev.sec]), filter_sec_none _ 14 13 (by omega) _ (fun _ => rfl)]
      simp only [layout, List.filter_append, filter_pane (j := 13) (by omega), hdv,
        filter_draw (j := 13) (by omega), filter_note (j := 13) (by omega)]
      rw [filter_sec_none Ev.colinfo 3 13 (by omega) _ (fun _ => rfl), filter_sec_none Ev.rb 6 13 (by omega) _ (fun _ => rfl),
        filter_sec_none Ev.merged 9 13 (by omega) _ (fun _ => rfl), filter_sec_none Ev.link 12 13 (by omega) _ (fun _ => rfl)]
      simp [Ev.sec]
    rw [inSection_units ht, h13]
    split
    · rfl
    · simp only [List.map_cons, List.map_nil, Ev.bytes]
      rw [payloadOf_enc _ _ (by simp [dvalPayload]), Option.bind_some]
      have := rdLE_at' (i := 14) 4 D.dvals.length (leN 2 0 ++ leN 4 0 ++ leN 4 0 ++ leN 4 0xFFFFFFFF) [] (by simp)
      rw [List.append_nil] at this
      unfold dvalPayload
      rw [this, Nat.mod_eq_of_lt (by omega)]

/-! ### Concrete cases -/

/-- Records of the right types. -/
def demoEnv : Env Unit Unit :=
  { cellData := fun c => enc (0x201, leN 2 c.row ++ leN 2 c.col ++ leN 2 15)
    cellSize := fun _ => 10
    drawing := fun _ _ _ _ _ => enc (0xEC, [])
    noteData := fun i _ => enc (0x1C, leN 2 i) }

/-- A sheet with something in every section. -/
def demo : Data Unit Unit :=
  { cells := [⟨0, 2, 1, ()⟩, ⟨1, 2, 4, ()⟩, ⟨2, 5, 0, ()⟩], heights := [⟨2, 400, none⟩], cols := [⟨1, 1, 500, none, 0⟩],
    notes := [(), ()], merged := [⟨0, 1, 0, 1⟩, ⟨2, 3, 2, 3⟩], links := [⟨2, 1, [0x68, 0x74], [0x61]⟩, ⟨2, 4, [0x2F], []⟩],
    dvals := [⟨⟨0, 9, 0, 0⟩, 3, [0x61], [], [], [0x3B1], some (3, [0x1E, 1, 0]), none⟩],
    dimension := List.replicate 14 0, defRowHeight := 15, defColWidth := 10, rowSplit := 1, colSplit := 0, active := true, index := 0 }

/-- The state of a new sheet with two comments. -/
def demoSt : St Unit := ⟨.init, [], ⟨.init, [], [], [], 0, 0, 0, 0, []⟩, 0, 0, [0, 0], [], [], [], 0⟩

theorem demoEnv_typed : demoEnv.Typed := by
  refine ⟨fun c => ?_, fun _ _ _ i n => ?_, fun i n => ?_⟩
  · simp only [demoEnv]; rw [typeOf_enc _ _ (by omega)]; rfl
  · simp only [demoEnv]; rw [typeOf_enc _ _ (by omega)]; rfl
  · simp only [demoEnv]; rw [typeOf_enc _ _ (by omega)]; rfl

theorem demo_rows : RowList demo.cells demo.heights [2, 5] := by
  refine ⟨by decide, fun n => ?_⟩
  simp [demo]; omega

theorem demo_heights : HeightsOnCells demo.cells demo.heights := by unfold HeightsOnCells; decide

/-- The demonstration sheet can be pulled to the end: it satisfies the hypotheses of all theorems about pulled
    sheets, those of `c19_in_stream_partial` included. -/
example : (∃ n us x, ∀ fuel, drain (next demoEnv) (fuel + n) 1000 0 (demo, demoSt) = .done us x) ∧
    (∀ c ∈ demo.cells, demoEnv.cellSize c = (demoEnv.cellData c).length ∧ (demoEnv.cellData c).length ≤ 8228) ∧
    demo.dimension.length = 14 ∧ Ordered Cell.key demo.cells ∧ HtSorted demo.heights := by
  have ho : Ordered Cell.key demo.cells := by unfold Ordered; decide
  have hh : HtSorted demo.heights := by unfold HtSorted; decide
  refine ⟨?_, fun c _ => ⟨by simp [demoEnv, enc], by simp [demoEnv, enc]⟩, by decide, ho, hh⟩
  refine c21_terminates_partial demoEnv demo [2, 5] 1000 demoSt ⟨rfl, rfl, rfl⟩ ho hh (by decide) demo_rows ?_ (by decide)
  intro k n h
  have := (List.getElem?_eq_some_iff.mp h).1
  simp at this
  omega

/-- Its sections. -/
example : ((List.range 16).flatMap fun k => List.replicate (expected demo 6 k) k) =
    [0, 1, 2, 3, 4, 5, 6, 6, 6, 6, 6, 6, 7, 7, 8, 8, 9, 10, 11, 12, 12, 13, 14, 15] := by decide

/-- Its links and validations satisfy the conditions of C45 and C46. -/
example : (∀ l ∈ demo.links, l.row < 65536 ∧ l.col < 65536 ∧ l.url.length + l.mark.length < 32000) ∧
    (demo.links.map fun l => readLink (hlinkPayload l)) = demo.links.map some ∧
    (demo.dvals.map fun v => readDV (dvPayload v)) =
      [some ⟨3, [0x61], [], [], [0x3B1], [0x1E, 1, 0], [0x1E, 0, 0], [⟨0, 9, 0, 0⟩]⟩] := by
  refine ⟨by decide, by decide +kernel, by decide +kernel⟩

/-- Repeated settings: the last width of column 3 counts, and the columns are in order. -/
example : ((demo.fresh.calls [.colwidth 3 100 none, .colwidth 1 200 (some 20), .rowheight 4 9 none, .colwidth 3 300 none]).cols.map
    fun c => (c.first, c.width)) = [(1, 200), (3, 300)] ∧
    lastWidth 3 [.colwidth 3 100 none, .colwidth 1 200 (some 20), .rowheight 4 9 none, .colwidth 3 300 none] = some (300, none) := by
  decide

/-- Sixteen height settings above two cells in one row: the sheet of `c21_stalled_runs_past_end`. -/
example : RowList [(⟨0, 20, 0, ()⟩ : Cell Unit), ⟨1, 20, 1, ()⟩] ((List.range 16).map fun i => ⟨i, 400, none⟩) (List.range 16 ++ [20]) ∧
    ¬ NoStall [(⟨0, 20, 0, ()⟩ : Cell Unit), ⟨1, 20, 1, ()⟩] (List.range 16 ++ [20]) := by
  refine ⟨⟨by decide, fun n => ?_⟩, fun h => ?_⟩
  · have : (∃ h ∈ (List.range 16).map (fun i => (⟨i, 400, none⟩ : RowHeight)), h.row = n) ↔ n < 16 := by
      constructor
      · rintro ⟨h, hm, rfl⟩
        obtain ⟨i, hi, rfl⟩ := List.mem_map.mp hm
        exact List.mem_range.mp hi
      · exact fun h => ⟨_, List.mem_map.mpr ⟨n, List.mem_range.mpr h, rfl⟩, rfl⟩
    rw [this]
    simp; omega
  · rcases h 0 15 (by decide) with ⟨c, hc, hm⟩ | h
    · simp at hc
      rcases hc with rfl | rfl <;> revert hm <;> decide
    · revert h; decide

end Xls.Sheet
