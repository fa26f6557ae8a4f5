import Verif.Prog.Props
/-
C61 and C62 with nothing assumed but the program.
-/
namespace Xls.Prog
open Xls.Page (Act latest InLimits Fit Short RowFit settled settled_tame)
open Xls.Whole Xls.Cells Xls.Biff Xls.Book Xls.Save
open Xls.Styles.Spec (fontOf wantXf wantFont)

/-- The globals of a workbook with these fonts and formats can be saved. -/
theorem dress_small {t : Look.State} {B : Look.Asked} (G : Look.Good t B) (names table : List (List UInt16)) (D0 : Globals.Data)
    (hD0 : ∀ p ∈ D0.styles ++ [D0.palette], p.length ≤ 8224) :
    Look.Dressed t (Look.dress t D0 names table) ∧ (Look.dress t D0 names table).defFonts ≠ [] ∧ (Look.dress t D0 names table).defXfs ≠ [] ∧
    ∀ p ∈ (Look.dress t D0 names table).defFonts ++ (Look.dress t D0 names table).fonts ++ (Look.dress t D0 names table).formats ++
      (Look.dress t D0 names table).defXfs ++ (Look.dress t D0 names table).xfs ++ (Look.dress t D0 names table).styles ++
      [(Look.dress t D0 names table).palette], p.length ≤ 8224 := by
  obtain ⟨X, hX, hXl, hXs⟩ := Look.xf_records t.styles
  have hFs : ∀ p ∈ Styles.fontRecords t.styles, p.length ≤ 8224 := by
    intro p hp
    obtain ⟨f, hf, rfl⟩ := List.mem_map.mp hp
    exact Look.font_small _ (G.short _ (List.mem_map.mpr ⟨f, hf, rfl⟩))
  refine ⟨⟨by simp [Look.dress], rfl, by simp [Look.dress, hX]⟩, ?_, ?_, ?_⟩
  · have := G.styles.inv.fonts.five
    intro e
    have := congrArg List.length e
    simp only [Look.dress, List.length_take, Styles.fontRecords, List.length_map, List.length_nil] at this
    omega
  · have := G.styles.inv.many
    intro e
    have := congrArg List.length e
    simp only [Look.dress, hX, Option.getD_some, List.length_take, List.length_nil] at this
    omega
  · intro p hp
    simp only [Look.dress, hX, Option.getD_some, List.mem_append, List.mem_cons, List.not_mem_nil, or_false] at hp
    have hD0' : ∀ p, p ∈ D0.styles ∨ p = D0.palette → p.length ≤ 8224 := fun p h => hD0 p (by simpa using h)
    rcases hp with (((((h | h) | h) | h) | h) | h) | h
    · exact hFs p (List.mem_of_mem_take h)
    · exact hFs p (List.mem_of_mem_drop h)
    · obtain ⟨c, hc, rfl⟩ := List.mem_map.mp h
      refine Look.format_small c ?_
      rw [G.formats, NumFmt.user_index, List.mem_mapIdx] at hc
      obtain ⟨k, hk, rfl⟩ := hc
      exact G.codes _ (List.getElem_mem hk)
    · exact hXs p (List.mem_of_mem_take h)
    · exact hXs p (List.mem_of_mem_drop h)
    · exact hD0' p (.inl h)
    · exact hD0' p (.inr h)

/-- Conditions on what a program asked for beyond `Fine`: values that fit, in at most 32832 rows of a sheet; calls that fit. -/
structure Slim (A : Asked) : Prop where
  fine : All Whole.Fine A.look.writes
  few : A.look.writes.length < 2 ^ 32
  rows : FewRows A.look.writes
  fit : ∀ i, ∀ a ∈ A.acts i, Fit a ∧ Short a ∧ RowFit a
  calls : ∀ i, (A.acts i).length < 2 ^ 32
  comments : ∀ i, (A.acts i).countP Act.isComment ≤ 65535

/-- And rows that do not stall the library. -/
structure Modest (A : Asked) : Prop extends Slim A where
  heights : ∀ i, Page.Steady (Page.Written A.look.writes i) (A.acts i)

/-- The sheets of the workbook when it is saved. -/
def sheetsOf (t : State) (n : Nat) : List (Sheet.Data (Nat × Val) Note.Note × Sheet.St (Nat × Val)) :=
  (List.range n).map (settled t.look.book fun i => (t.acts i).map (numbered t.look.styles))

/-- C61, nothing assumed but the program: any calls on a new workbook that are `Fine` and `Modest` are carried out and saved without undefined
    behaviour, and a reader finds everything as asked. -/
theorem c61_plain {ar : Nat → Option Nat} (hA : Formula.KnowsArity ar) (calls : List Call) (s0 : State) (h0 : init = some s0)
    (hf : Fine s0 nothing calls) (hm : Modest (asked s0 nothing calls)) (cs : WCell → Nat)
    (names : List (List UInt16)) (hn0 : names ≠ []) (hn1 : names.length ≤ 1000) (hn2 : ∀ n ∈ names, n.length < 256)
    (D0 : Globals.Data) (hD0 : ∀ p ∈ D0.styles ++ [D0.palette], p.length ≤ 8224) :
    ∃ t, steps s0 calls = some t ∧ (t.look.styles.xfs.length ≤ 65536 → ∃ D fuel us s' bs, Look.Dressed t.look D ∧
      Book.run Globals.next (Sheet.next (Note.env (fun c => cellBytes t.look.book.labels (Look.xf t.look c) c) cs)) fuel
        (plainStart D (sheetsOf t names.length)) = .done us s' ∧
      stream us s'.bpos = some bs ∧ (bs.length < 2 ^ 32 → ∀ pad, Found ar (asked s0 nothing calls) names (bs ++ pad))) := by
  obtain ⟨s, h1, G0⟩ := init_good
  rw [h0] at h1
  cases Option.some.inj h1
  obtain ⟨t, t1, G⟩ := sim_all G0 calls hf
  refine ⟨t, t1, fun hx => ?_⟩
  obtain ⟨B, GB, ag⟩ := G.look
  have hreach : Reach (asked s0 nothing calls).look.writes t.look.book := ag.writes ▸ GB.reach
  obtain ⟨table, ht⟩ := labels_text hreach
  obtain ⟨hD, d1, d2, d3⟩ := dress_small GB names table D0 hD0
  have hacts := numbered_same G hx
  have hget : ∀ (i : Nat) sh, (sheetsOf t names.length)[i]? = some sh → sh = settled t.look.book (asked s0 nothing calls).acts i := by
    intro i sh hi
    unfold sheetsOf at hi
    rw [hacts, List.getElem?_map] at hi
    obtain ⟨j, hj, rfl⟩ := Option.map_eq_some_iff.mp hi
    have := (List.getElem?_eq_some_iff.mp hj).2
    simp only [List.getElem_range] at this
    subst this
    rfl
  obtain ⟨n, us, s', hp, hok, hrun, hsm, hsh⟩ := tame_saves hA _ t.look.book hreach hm.fine.sound hm.few hm.rows (Look.xf t.look) (Look.xf_lt GB) cs
    names hn0 hn1 hn2 (Look.dress t.look D0 names table) (by simp [Look.dress, Function.comp_def]) ht d1 d2 d3 (sheetsOf t names.length) (by simp [sheetsOf])
    (fun i sh hi => by
      rw [hget i sh hi]
      exact settled_tame hreach _ (fun i a ha => ⟨(hm.fit i a ha).1.1, (hm.fit i a ha).2.1⟩) hm.heights hm.comments i)
    demoGs rfl (plainStart (Look.dress t.look D0 names table) _) ⟨rfl, rfl, rfl, rfl⟩
  obtain ⟨bs, e1, e2⟩ := found hA G hm.fine hx (fun i a ha => ⟨(hm.fit i a ha).1, (hm.fit i a ha).2.2⟩) hm.calls cs _ demoGs (sheetsOf t names.length) _ s' us n
    hD hp hok ⟨rfl, rfl, rfl, rfl⟩ hrun hsm hsh (fun i sh hi => ⟨(plainSheet t.look.book i).1, by rw [hacts, hget i sh hi]; rfl⟩)
  refine ⟨_, n, us, s', bs, hD, hrun, e1, fun h32 pad => ?_⟩
  have := e2 h32 pad
  rwa [show (Look.dress t.look D0 names table).bounds.map (·.name) = names by simp [Look.dress, Function.comp_def]] at this

/-- C62: the file.  A program makes a workbook, works on it as in C61 and sets document properties; saving it gives a compound file, and a reader of that
    file finds the workbook stream with everything as asked, and the two property streams with the properties as asked.
    Missing for the full claim: the conditions of C61; properties that need more than 4096 bytes (C33); 2 GB. -/
theorem c62_file_partial {ar : Nat → Option Nat} (hA : Formula.KnowsArity ar) (calls : List Call) (s0 : State) (h0 : init = some s0)
    (hf : Fine s0 nothing calls) (hm : Modest (asked s0 nothing calls)) (cs : WCell → Nat)
    (names : List (List UInt16)) (hn0 : names ≠ []) (hn1 : names.length ≤ 1000) (hn2 : ∀ n ∈ names, n.length < 256)
    (D0 : Globals.Data) (hD0 : ∀ p ∈ D0.styles ++ [D0.palette], p.length ≤ 8224)
    (time : Nat) (htime : time ≤ 1000000000000) (pkg : Bytes) (props : List (Nat × Bytes)) :
    ∃ t p0 p, steps s0 calls = some t ∧ Hpsf.Props.init time pkg = some p0 ∧ p0.run props = some p ∧
      (t.look.styles.xfs.length ≤ 65536 → Hpsf.need p.summary ≤ 4096 → Hpsf.need p.doc ≤ 4096 →
        ∃ D fuel us s' wb si di bs bd, Look.Dressed t.look D ∧
          Book.run Globals.next (Sheet.next (Note.env (fun c => cellBytes t.look.book.labels (Look.xf t.look c) c) cs)) fuel
            (plainStart D (sheetsOf t names.length)) = .done us s' ∧ us.mapM (patch s'.bpos) = some wb ∧
          Hpsf.build .summary p.summary = some si ∧ Unit.contents si = some bs ∧ Hpsf.build .docSummary p.doc = some di ∧ Unit.contents di = some bd ∧
          (Ole.dataSize wb + 8192 < 2 ^ 31 - 12288 → ∃ f w ws wd S T, Ole.CompleteFile (Ole.workbookFiles wb [bs] [bd]) f ∧
            Cfb.readStream f (Ole.nameUnits Ole.workbookNames[0]) = some w ∧ Found ar (asked s0 nothing calls) names w ∧
            Cfb.readStream f (Ole.nameUnits Ole.workbookNames[1]) = some ws ∧ Spec.PropSet.read ws = some (Spec.PropSet.fmtidSummary, S) ∧
            Cfb.readStream f (Ole.nameUnits Ole.workbookNames[2]) = some wd ∧ Spec.PropSet.read wd = some (Spec.PropSet.fmtidDocSummary, T) ∧
            ∀ kind d id, Spec.PropSet.place kind = some (d, id) →
              Spec.PropSet.valueOf id (if d then T else S) = (Hpsf.expected pkg props kind).map .lpstr)) := by
  obtain ⟨t, t1, H⟩ := c61_plain hA calls s0 h0 hf hm cs names hn0 hn1 hn2 D0 hD0
  obtain ⟨p0, p, q1, q2, K⟩ := Hpsf.c32_read_back time htime pkg props
  refine ⟨t, p0, p, t1, q1, q2, fun hx hs hd => ?_⟩
  obtain ⟨D, n, us, s', bs, hD, hrun, e1, e2⟩ := H hx
  obtain ⟨si, di, bs1, bd1, S, T, a1, a2, a3, b1, b2, b3, rs, rd, -, -, hv, -⟩ := K hs hd
  unfold stream at e1
  obtain ⟨wb, hwb, rfl⟩ := Option.map_eq_some_iff.mp e1
  refine ⟨D, n, us, s', wb, si, di, bs1, bd1, hD, hrun, hwb, a1, a2, b1, b2, fun hsize => ?_⟩
  have h1 : Ole.dataSize [bs1] = 4096 := by simp [Ole.dataSize, a3]
  have h2 : Ole.dataSize [bd1] = 4096 := by simp [Ole.dataSize, b3]
  obtain ⟨f, k1, k2, k3, hcf, f1, f2, f3⟩ := Ole.c10_workbook wb [bs1] [bd1] (by omega)
  have : wb.flatten.length = Ole.dataSize wb := by rw [List.length_flatten]; rfl
  refine ⟨f, _, _, _, S, T, hcf, f1, e2 (by omega) _, f2, ?_, f3, ?_, hv⟩
  · simp only [List.flatten_cons, List.flatten_nil, List.append_nil]
    exact rs _
  · simp only [List.flatten_cons, List.flatten_nil, List.append_nil]
    exact rd _

/-! ### A program -/

/-- `Mild` and `Kept`, computed. -/
def mildB (s : State) (A : Asked) : Call → Bool
  | .look c => Look.okB s.look A.look c
  | .page i a => match slotOf i a with
    | some (_, some q) => (A.look.looks.formats q).isSome && (s.look.styles.xfs[q]?).all (!Styles.dead ·)
    | _ => true

def keptB (A : Asked) : Call → Bool
  | .look _ => true
  | .page i a => match slotOf i a with
    | some (k, _) => !k.row || (latest (gives true k.num) (A.acts i)).all (·.isNone)
    | none => true

theorem mild_of {s : State} {A : Asked} {c : Call} (h : mildB s A c = true) : Mild s A c := by
  cases c with
  | look c => exact Look.ok_of h
  | page i a =>
    intro k q hs
    simp only [mildB, hs, Bool.and_eq_true] at h
    refine ⟨Option.isSome_iff_exists.mp h.1, fun e he => ?_⟩
    have := h.2
    rw [he] at this
    simpa using this

theorem kept_of {A : Asked} {c : Call} (h : keptB A c = true) : Kept A c := by
  cases c with
  | look c => trivial
  | page i a =>
    intro k x hs hr q hq
    simp only [keptB, hs, hr, hq] at h
    cases h

def alongB (P : State → Asked → Call → Bool) (s : State) (A : Asked) : List Call → Bool
  | [] => true
  | c :: r => P s A c && decide (s.look.styles.fonts.length < 65535) && (match step s c with | none => true | some t => alongB P t (ask s A c) r)

theorem along_of {P : State → Asked → Call → Prop} {p : State → Asked → Call → Bool} (hp : ∀ s A c, p s A c = true → P s A c) {s : State} {A : Asked}
    {calls : List Call} (h : alongB p s A calls = true) : Along P s A calls := by
  induction calls generalizing s A with
  | nil => trivial
  | cons c r ih =>
    simp only [alongB, Bool.and_eq_true, decide_eq_true_eq] at h
    refine ⟨hp _ _ _ h.1.1, h.1.2, fun t ht => ih ?_⟩
    have := h.2
    rw [ht] at this
    exact this

/-- The call on sheet `i`, if it is one. -/
def onSheet (i : Nat) : Call → Option Act
  | .page j a => if j = i then some a else none
  | .look _ => none

/-- The calls asked for on a sheet are those in the program. -/
theorem asked_acts {s : State} {A : Asked} (G : Good s A) {calls : List Call} (hf : Fine s A calls) (i : Nat) :
    (asked s A calls).acts i = A.acts i ++ calls.filterMap (onSheet i) := by
  induction calls generalizing s A with
  | nil => simp [asked]
  | cons c r ih =>
    obtain ⟨h1, h2, h3⟩ := hf
    obtain ⟨t, t1, t2⟩ := sim G c h1 h2
    rw [asked, t1]
    simp only
    rw [ih t2 (h3 t t1), List.filterMap_cons]
    cases c with
    | look c => rfl
    | page j a =>
      simp only [ask, put, onSheet]
      by_cases e : i = j
      · subst e; simp
      · simp [e, Ne.symm e]

/-- The claim fails for rows that have a format and get another height: the format counts one user too few each time (`again`).  Format 21 has
    the program's font 5 and is given to two cells and a row; the row gets its height three times more, with the same format; making the first cell bold makes
    the second one bold, too. -/
theorem c61_row_replaced :
    let calls : List Call := [.look (.style (.newFont [65])), .look (.style .newXf), .look (.style (.xf 21 (.font (some 5)))),
      .look (.put 0 0 0 (.bool true) (some 21)), .look (.put 0 1 0 (.bool true) (some 21)),
      .page 0 (.call (.rowheight 3 600 (some 21))), .page 0 (.call (.rowheight 3 500 (some 21))), .page 0 (.call (.rowheight 3 400 (some 21))),
      .page 0 (.call (.rowheight 3 300 (some 21))), .look (.style (.cellFont 0 (.bold 0)))]
    ∃ s0 t l h, init = some s0 ∧ Along Mild s0 nothing calls ∧ steps s0 calls = some t ∧
      (asked s0 nothing calls).look.looks.cells 1 = some l ∧ fontOf (asked s0 nothing calls).look.looks l = some h ∧ (wantFont h).weight = 400 ∧
      (Styles.seen t.look.styles 1).map (·.2.weight) = some 700 := by
  intro calls
  have key : (init.bind fun s => (steps s calls).bind fun t => ((asked s nothing calls).look.looks.cells 1).bind fun l =>
      (fontOf (asked s nothing calls).look.looks l).map fun h =>
        alongB mildB s nothing calls && decide ((wantFont h).weight = 400) && decide ((Styles.seen t.look.styles 1).map (·.2.weight) = some 700)) = some true := by
    decide +kernel
  simp only [Option.bind_eq_some_iff, Option.map_eq_some_iff, Bool.and_eq_true, decide_eq_true_eq] at key
  obtain ⟨s0, h0, t, ht, l, hl, h, hh, ⟨k1, k2⟩, k3⟩ := key
  exact ⟨s0, t, l, h, h0, along_of (fun _ _ _ => mild_of) k1, ht, hl, hh, k2, Option.map_eq_some_iff.mpr k3⟩

/-- A font, a number format and a format with both; two cells; two columns and a row with the format; one of the columns gives it up; a cell is
    made bold; a comment and a merged range. -/
def sample : List Call :=
  [.look (.style (.newFont [65])), .look (.format [48, 46, 48]), .look (.style .newXf), .look (.style (.xf 21 (.font (some 5)))),
   .look (.style (.xf 21 (.userFormat (some 0)))), .look (.put 0 0 0 (.text [72, 105]) (some 21)), .look (.put 0 5 1 (.signed 7) none),
   .page 0 (.call (.colwidth 2 2560 (some 21))), .page 0 (.call (.colwidth 3 2560 (some 21))), .page 0 (.call (.rowheight 3 600 none)),
   .page 0 (.call (.rowheight 3 500 (some 21))), .page 0 (.call (.colwidth 2 1280 none)), .look (.style (.cellFont 0 (.bold 0))),
   .page 0 (.comment 7 7 [65] [66]), .page 1 (.call (.merge 1 1 2 4)), .look (.style (.font 5 (.height 300)))]

/-- The sample meets all conditions of `c61_plain`. -/
theorem sample_fine : ∃ s0, init = some s0 ∧ Fine s0 nothing sample ∧ Modest (asked s0 nothing sample) := by
  obtain ⟨s0, h0, G⟩ := init_good
  have h : (init.map fun s => alongB (fun s A c => mildB s A c && keptB A c) s nothing sample && decide ((asked s nothing sample).look.writes.length = 2) &&
      (asked s nothing sample).look.writes.all fun p => decide (p.2.row < 32832) && decide (p.2.col < 256) && Look.valB p.2.val) = some true := by decide +kernel
  rw [h0] at h
  simp only [Option.map_some, Option.some.injEq, Bool.and_eq_true, decide_eq_true_eq, List.all_eq_true] at h
  have hf : Fine s0 nothing sample := along_of (fun s A c hc => ⟨mild_of (Bool.and_eq_true _ _ ▸ hc).1, kept_of (Bool.and_eq_true _ _ ▸ hc).2⟩) h.1.1
  have ha : ∀ i, (asked s0 nothing sample).acts i = sample.filterMap (onSheet i) := fun i => asked_acts G hf i
  have hlen : ∀ i, (sample.filterMap (onSheet i)).length ≤ 16 := fun i => Nat.le_trans (List.length_filterMap_le ..) (by simp [sample])
  refine ⟨s0, h0, hf, ⟨?_, by omega, fewRows_of fun p hp => (h.2 p hp).1.1, ?_, ?_, ?_⟩, ?_⟩
  · intro i row col c hw
    unfold lastWrite at hw
    obtain ⟨p, hp, rfl⟩ := Option.map_eq_some_iff.mp hw
    have := h.2 p (List.mem_filter.mp (List.mem_of_getLast? hp)).1
    exact ⟨by omega, this.1.2, Look.val_of this.2⟩
  · intro i a hm
    rw [ha] at hm
    obtain ⟨c, hc, he⟩ := List.mem_filterMap.mp hm
    simp only [sample, List.mem_cons, List.not_mem_nil, or_false] at hc
    rcases hc with rfl | rfl | rfl | rfl | rfl | rfl | rfl | rfl | rfl | rfl | rfl | rfl | rfl | rfl | rfl | rfl <;> simp only [onSheet, reduceCtorEq] at he <;>
      (split at he <;> first | cases he | skip) <;> simp [Fit, InLimits, Short, RowFit, Act.rowHeight]
  · intro i
    rw [ha]
    have := hlen i
    omega
  · intro i
    rw [ha]
    have := hlen i
    exact Nat.le_trans List.countP_le_length (by omega)
  · intro i
    refine Page.few_steady _ _ ?_
    rw [ha, List.countP_filterMap]
    refine Nat.lt_of_le_of_lt (List.countP_mono_left (q := fun c => match c with | .page _ a => a.isHeight | _ => false) ?_) (by decide)
    intro c _ h
    cases c with
    | look c => simp [onSheet] at h
    | page j a =>
      simp only [onSheet] at h
      split at h
      · simpa using h
      · simp at h

/-- What the sample asks for. -/
example : latest (Act.column 2) (sample.filterMap (onSheet 0)) = some (1280, none) ∧ latest (Act.column 3) (sample.filterMap (onSheet 0)) = some (2560, some 21) ∧
    latest (Act.height 3) (sample.filterMap (onSheet 0)) = some (500, some 21) ∧
    (init.bind fun s => ((asked s nothing sample).look.looks.formats 21).bind fun l => (fontOf (asked s nothing sample).look.looks l).map fun h =>
      ((wantFont h).height, (wantFont h).weight, (wantXf l).format)) = some (300, 400, 164) := by
  refine ⟨rfl, rfl, rfl, by decide +kernel⟩

example : ∃ s0 t p0 p, init = some s0 ∧ steps s0 sample = some t ∧ Hpsf.Props.init 1700000000 [120] = some p0 ∧ p0.run [(1, [82, 101]), (6, [77])] = some p ∧
      (t.look.styles.xfs.length ≤ 65536 → Hpsf.need p.summary ≤ 4096 → Hpsf.need p.doc ≤ 4096 →
        ∃ D fuel us s' wb si di bs bd, Look.Dressed t.look D ∧
          Book.run Globals.next (Sheet.next (Note.env (fun c => cellBytes t.look.book.labels (Look.xf t.look c) c) fun _ => 0)) fuel
            (plainStart D (sheetsOf t 2)) = .done us s' ∧ us.mapM (patch s'.bpos) = some wb ∧
          Hpsf.build .summary p.summary = some si ∧ Unit.contents si = some bs ∧ Hpsf.build .docSummary p.doc = some di ∧ Unit.contents di = some bd ∧
          (Ole.dataSize wb + 8192 < 2 ^ 31 - 12288 → ∃ f w, Ole.CompleteFile (Ole.workbookFiles wb [bs] [bd]) f ∧
            Cfb.readStream f (Ole.nameUnits Ole.workbookNames[0]) = some w ∧ Found Formula.tableArity (asked s0 nothing sample) [[65], [66]] w)) := by
  obtain ⟨s0, h0, hf, hm⟩ := sample_fine
  obtain ⟨t, p0, p, h1, h2, h3, h4⟩ := c62_file_partial Formula.tableArity_knows sample s0 h0 hf hm (fun _ => 0) [[65], [66]] (by decide) (by decide) (by decide)
    (demoGlobals [] []) (by decide) 1700000000 (by decide) [120] [(1, [82, 101]), (6, [77])]
  refine ⟨s0, t, p0, p, h0, h1, h2, h3, fun a b c => ?_⟩
  obtain ⟨D, n, us, s', wb, si, di, bs, bd, k1, k2, k3, k4, k5, k6, k7, k8⟩ := h4 a b c
  refine ⟨D, n, us, s', wb, si, di, bs, bd, k1, k2, k3, k4, k5, k6, k7, fun hsz => ?_⟩
  obtain ⟨f, w, -, -, -, -, m1, m2, m3, -⟩ := k8 hsz
  exact ⟨f, w, m1, m2, m3⟩

/-- Its other conditions hold, too. -/
example : ((init.bind (steps · sample)).map fun t => decide (t.look.styles.xfs.length ≤ 65536)) = some true ∧
    (((Hpsf.Props.init 1700000000 [120]).bind (·.run [(1, [82, 101]), (6, [77])])).map fun p =>
      decide (Hpsf.need p.summary ≤ 4096) && decide (Hpsf.need p.doc ≤ 4096)) = some true := by decide +kernel

end Xls.Prog
