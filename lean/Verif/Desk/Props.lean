import Verif.Desk.Draw
import Verif.Prog.Plain
/-
C65: a whole program, from a new workbook to the file, with nothing left open.
-/
namespace Xls.Desk
open Xls.Biff Xls.Book Xls.Cells Xls.Save Xls.Whole
open Xls.Page (Act latest applyAll new InLimits Fit Short RowFit)
open Xls.Palette (defaultPalette)

/-! ### The used ranges -/

/-- One sheet. -/
theorem dim_read {ar : Nat → Option Nat} (hA : Formula.KnowsArity ar) {h : List (Nat × Cell Val)} {b : Whole.Book} (r : Reach h b)
    (hf : All Sound h) (hn : b.labels.length ≤ 2 ^ 32) {table : List (List UInt16)} (ht : b.labels.mapM Cell.val = some table)
    {xf : WCell → Nat} (hx : ∀ c, xf c < 65536) {cs : WCell → Nat} {i : Nat} {D : Sheet.Data (Nat × Val) Note.Note} {st : Sheet.St (Nat × Val)}
    (hc : D.cells = (b.sheets i).cells) (hs : Sheet.Ready D st) (hlen : D.cells.length < 2 ^ 32) (h16 : D.notes.length ≤ 65535)
    (hno : ∀ n ∈ D.notes, n.full.length ≤ 3900) {fuel off : Nat} {us : List U} {x : Sheet.Data (Nat × Val) Note.Note × Sheet.St (Nat × Val)}
    (hd : Sheet.drain (Sheet.next (Note.env (fun c => cellBytes b.labels (xf c) c) cs)) fuel off 0 (D, st) = .done us x)
    {R : List Rec} (hR : ShowsL (fun _ => none) us R) : Page.once 0x200 (Page.logical R) = some D.dimension := by
  obtain ⟨bs, hL, hcell, -⟩ := Page.sheet_logical (recs := fun c => (cellRecords b.labels (xf c) c).getD [])
    (fun c hcm => ⟨(cell_is hA r hf hn ht hx (hc ▸ hcm)).1, Page.cellRecords_types _ _ _⟩) hs hlen h16 hno hd hR
  unfold Page.once
  rw [hL, Page.ofType_home _ hcell (k := 5) rfl, Page.layout_dimension]
  simp only [List.flatMap_cons, List.flatMap_nil, List.append_nil, Page.evLog, Page.ofType_whole]

/-- All sheets. -/
theorem dims_open {ar : Nat → Option Nat} (hA : Formula.KnowsArity ar) (h : List (Nat × Cell Val)) (b : Whole.Book) (r : Reach h b)
    (hf : All Sound h) (xf : WCell → Nat) (hx : ∀ c, xf c < 65536) (cs : WCell → Nat) (D : Globals.Data) (gs : Globals.St)
    (sheets : List (Sheet.Data (Nat × Val) Note.Note × Sheet.St (Nat × Val)))
    (s s' : Book.St (Globals.Data × Globals.St) (Sheet.Data (Nat × Val) Note.Note × Sheet.St (Nat × Val)))
    (us : List U) (fuel : Nat) (hp : Pours b D sheets) (hok : Saveable (fun c => cellBytes b.labels (xf c) c) D gs sheets) (hs : Xls.Book.start (D, gs) sheets s)
    (hrun : Book.run Globals.next (Sheet.next (Note.env (fun c => cellBytes b.labels (xf c) c) cs)) fuel s = .done us s')
    (hsm : SmallGlobals D) (hsh : ∀ sh ∈ sheets, SmallSheet (fun c => cellBytes b.labels (xf c) c) sh.1)
    (u : Nat → Cells.Sheet Unit) (hu : ∀ (i : Nat) sh, sheets[i]? = some sh → sh.1.dimension = (u i).dimension) :
    ∃ bs, stream us s'.bpos = some bs ∧ (bs.length < 2 ^ 32 → ∀ pad, ∃ L, openDims (bs ++ pad) = some ((D.bounds.map (·.name)).zip L) ∧
      L.length = sheets.length ∧ ∀ (i : Nat) d, L[i]? = some d → readDimension (u i).dimension = some d) := by
  obtain ⟨bs, Rs, e1, e2, e3, e4⟩ := c43_open_partial _ cs D gs sheets s s' us fuel hok hs hsm hrun hsh
  refine ⟨bs, e1, fun h32 pad => ?_⟩
  have hread : ∀ (i : Nat) R, Rs[i]? = some R → ∃ d, ((Page.once 0x200 (Page.logical R)).bind readDimension) = some d ∧
      readDimension (u (0 + i)).dimension = some d := by
    intro i R hR
    rw [Nat.zero_add]
    have hlt : i < sheets.length := by rw [← e2]; exact (List.getElem?_eq_some_iff.mp hR).1
    have hg : sheets[i]? = some sheets[i] := by simp [hlt]
    obtain ⟨R', vs, f, off, x, h1, h2, h3⟩ := e4 i sheets[i] hg
    rw [hR] at h1
    obtain rfl := Option.some.inj h1
    have hm : sheets[i] ∈ sheets := List.getElem_mem hlt
    obtain ⟨r1, r2, r3⟩ := hok.ready _ hm
    rw [dim_read hA r hf (by rw [← mapM_length hp.labels]; exact hp.few) hp.labels hx (hp.cells i _ hg) r1 r2 r3
      (hok.notes _ hm) h2 h3, hu i _ hg, Option.bind_some, readDimension_eq]
    exact ⟨_, rfl, rfl⟩
  obtain ⟨L, l1, l2, l3⟩ := mapM_zip (f := fun R => (Page.once 0x200 (Page.logical R)).bind readDimension)
    (Q := fun i d => readDimension (u i).dimension = some d) (D.bounds.map (·.name)) Rs 0
    (by rw [List.length_map, hok.count, e2]) hread
  refine ⟨L, ?_, by rw [l2, e2], fun i P hi => by have := l3 i P hi; rwa [Nat.zero_add] at this⟩
  unfold openDims
  rw [e3 h32, Option.bind_some, l1]

/-! ### What a reader finds -/

/-- Each style that is listed names a style format with the number format that belongs to it; the normal style has all attributes, the others
    only the number format.  XF 15, the format of cells without a format, is a cell format that takes everything from the normal style. -/
def StylesNamed (xfs : List Bytes) (l : List (Nat × Nat × Nat)) : Prop :=
  l.map (·.2) = [(3, 255), (6, 255), (4, 255), (7, 255), (0, 255), (5, 255)] ∧
    (∀ b ∈ l, ∃ p y, xfs[b.1]? = some p ∧ Xf.readXf p = some y ∧ StyleXf b.2.1 y) ∧
    (0, 0, 255) ∈ l ∧ ∃ p y, xfs[15]? = some p ∧ Xf.readXf p = some y ∧ CellXf y

/-- What the reader of a stream finds of a program besides what `Prog.Found` says; the shapes on sheet `i` are counted from `first i` on, and `N` is what the
    XF records and the list of styles have to do with each other. -/
def ArrangedBy (N : List Bytes → List (Nat × Nat × Nat) → Prop) (first : Nat → Nat) (calls : List Call) (w : Bytes) : Prop :=
  ∃ K recs M dims draws, openDesk w = some K ∧ Look.openStyles w = some recs ∧ Page.openPages w = some ((names calls).zip M) ∧
    openDims w = some ((names calls).zip dims) ∧ openDrawings w = some ((names calls).zip draws) ∧
    M.length = (names calls).length ∧ dims.length = (names calls).length ∧ draws.length = (names calls).length ∧
    K.codepage = 1200 ∧ K.date1904 = false ∧ WindowAsked calls K.window ∧ (Placed calls K.window ↔ InView calls) ∧
    K.colors.length = 56 ∧
    (∀ i (e : Palette.Entry), defaultPalette[i]? = some e →
      K.colors[i]? = some (Palette.Spec.colorAt (e.r.toNat, e.g.toNat, e.b.toNat) (i + 8) (calls.filterMap Call.colour))) ∧
    N recs.xfs K.styles ∧
    GroupSaid ((List.range (names calls).length).map fun i => calls.countP (Call.isRemark i)) K.group ∧
    K.window.active < (names calls).length ∧
    (∀ (i : Nat) P, M[i]? = some P → (P.selected = true ↔ i = K.window.active) ∧ (P.displayed = true ↔ i = K.window.active)) ∧
    (∀ (i : Nat) P d, M[i]? = some P → draws[i]? = some d →
      Remarks i calls P.comments.length ∧ Drawn i (first i) P.comments.length d) ∧
    ∀ (i : Nat) d, dims[i]? = some d →
      (calls.filterMap (Call.spot i) = [] → d = (4294967295, 1, 65535, 1)) ∧
      (calls.filterMap (Call.spot i) ≠ [] → (∀ p ∈ calls.filterMap (Call.spot i), p.1 < 65536 ∧ p.2 < 65535) → Bounds (calls.filterMap (Call.spot i)) d)

/-- With the formats that the workbook makes for itself as it makes them. -/
def ArrangedFrom (first : Nat → Nat) (calls : List Call) (w : Bytes) : Prop := ArrangedBy StylesNamed first calls w

/-- In a workbook that was never saved before. -/
def Arranged (calls : List Call) (w : Bytes) : Prop := ArrangedFrom (fun _ => 0) calls w

theorem possible_mem {n : Nat} {calls : List Call} (h : Possible n calls) {c : Call} (hc : c ∈ calls) {i : Nat} (hi : target c = some i) :
    i < n + (names calls).length := by
  obtain ⟨l, r, rfl⟩ := List.append_of_mem hc
  rw [possible_append] at h
  have hlt : i < n + (names l).length := by
    have := h.2
    cases c with
    | sheet nm => cases hi
    | _ => exact this.1 i hi
  have : names (l ++ c :: r) = names l ++ names (c :: r) := by simp [names]
  rw [this, List.length_append]
  omega

theorem latest_lt {γ : Type} {f : Call → Option γ} {g : γ → Nat} {d : γ} {n : Nat} (hd : g d < n) (h : ∀ c x, f c = some x → g x < n) (calls : List Call) :
    g ((latest f calls).getD d) < n := by
  cases e : latest f calls with
  | none => exact hd
  | some x =>
    obtain ⟨c, -, hc⟩ := Page.latest_mem e
    exact h c x hc

/-- The comments of a program. -/
theorem remarks (calls : List Call) (i : Nat) :
    ((calls.filterMap Call.inner).filterMap (Prog.onSheet i)).countP Act.isComment = calls.countP (Call.isRemark i) := by
  rw [List.filterMap_filterMap, List.countP_filterMap]
  refine congrFun (congrArg _ (funext fun c => ?_)) _
  cases c with
  | on d =>
    cases d with
    | look k => rfl
    | page j a =>
      by_cases e : j = i
      · subst e
        cases a <;> simp [Call.inner, Prog.onSheet, Call.isRemark, Act.isComment]
      · cases a <;> simp [Call.inner, Prog.onSheet, Call.isRemark, Act.isComment, e]
  | _ => rfl

theorem style_small : ∀ p ∈ builtins.map stylePayload, p.length ≤ 8224 := by decide

theorem palette_small (calls : List Palette.Call) : (Palette.payload (Palette.run none calls).1).length ≤ 8224 := by
  obtain ⟨h, -, -⟩ := Palette.run_table none calls rfl (by decide)
  have e : ((((Palette.run none calls).1).getD defaultPalette).flatMap fun e => [e.r, e.g, e.b, e.nuttin]).length = 4 * 56 := by
    rw [← h]
    generalize ((Palette.run none calls).1).getD defaultPalette = l
    induction l with
    | nil => rfl
    | cons x r ih => simp only [List.flatMap_cons, List.length_append, List.length_cons, List.length_nil, ih]; omega
  have e' : Palette.payload (Palette.run none calls).1 =
      leN 2 56 ++ (((Palette.run none calls).1).getD defaultPalette).flatMap fun e => [e.r, e.g, e.b, e.nuttin] := by
    simp [Palette.payload, Palette.recordOps, Unit.Op.bytes]
  rw [e', List.length_append, e, leN_length]
  decide

/-- The state of the objects in memory when a save begins, however the program got there: what the sheets hold, that the globals fit, and `N` of the XF
    records and the styles. -/
structure Standing (calls : List Call) (N : List Bytes → List (Nat × Nat × Nat) → Prop) (A : Prog.Asked) (s : State) : Prop where
  stands : Stands calls s
  reach : Reach A.look.writes s.prog.look.book
  xf : ∀ c, Look.xf s.prog.look c < 65536
  acts : (fun i => (s.prog.acts i).map (Prog.numbered s.prog.look.styles)) = A.acts
  asked : ∀ i, A.acts i = (calls.filterMap Call.inner).filterMap (Prog.onSheet i)
  named : ∀ X, Styles.xfRecords s.prog.look.styles = some X → N X (builtins.map fun b => (b.1, b.2, 0xFF))
  dressed : ∀ (names table : List (List UInt16)) (D0 : Globals.Data), (∀ p ∈ D0.styles ++ [D0.palette], p.length ≤ 8224) →
    Look.Dressed s.prog.look (Look.dress s.prog.look D0 names table) ∧ (Look.dress s.prog.look D0 names table).defFonts ≠ [] ∧
    (Look.dress s.prog.look D0 names table).defXfs ≠ [] ∧
    ∀ p ∈ (Look.dress s.prog.look D0 names table).defFonts ++ (Look.dress s.prog.look D0 names table).fonts ++ (Look.dress s.prog.look D0 names table).formats ++
      (Look.dress s.prog.look D0 names table).defXfs ++ (Look.dress s.prog.look D0 names table).xfs ++ (Look.dress s.prog.look D0 names table).styles ++
      [(Look.dress s.prog.look D0 names table).palette], p.length ≤ 8224

/-- The styles are named by the formats that the workbook makes for itself, if these are unchanged. -/
theorem named_of {p0 : Prog.State} (h0 : Prog.init = some p0) {s : Styles.State} (hs : Same p0.look.styles s) {X : List Bytes} (hX : Styles.xfRecords s = some X) :
    StylesNamed X (builtins.map fun b => (b.1, b.2, 0xFF)) := by
  refine ⟨rfl, fun b hb => ?_, (show (0, 0, 255) ∈ builtins.map (fun b => (b.1, b.2, 255)) by decide), plain_xf h0 hs hX⟩
  obtain ⟨c, hc, rfl⟩ := List.mem_map.mp hb
  exact builtin_xfs h0 hs hX c hc

/-- A save of a workbook, whatever led to it; `Q` is what is said of its cells and looks. -/
theorem save_core {ar : Nat → Option Nat} (hA : Formula.KnowsArity ar) (calls : List Call)
    (hp : Possible 0 calls) {A : Prog.Asked} (hm : Prog.Modest A) (cs : WCell → Nat)
    (hn0 : names calls ≠ []) (hn1 : (names calls).length ≤ 1000) (hn2 : ∀ n ∈ names calls, n.length < 256)
    {s : State} {N : List Bytes → List (Nat × Nat × Nat) → Prop} (St : Standing calls N A s)
    (sts : Nat → Sheet.St (Nat × Val)) (hready : ∀ i < (names calls).length, Sheet.Ready (dataOf s i) (sts i)) (gs : Globals.St) (hgs : gs.phase = .init)
    (B : Globals.Data → Book.St (Globals.Data × Globals.St) (Sheet.Data (Nat × Val) Note.Note × Sheet.St (Nat × Val)))
    (hB : ∀ D, Xls.Book.start (D, gs) ((List.range (names calls).length).map fun i => (dataOf s i, sts i)) (B D)) {Q : Bytes → Prop}
    (hQ : ∀ (D : Globals.Data) (sheets : List (Sheet.Data (Nat × Val) Note.Note × Sheet.St (Nat × Val)))
      (s1 s2 : Book.St (Globals.Data × Globals.St) (Sheet.Data (Nat × Val) Note.Note × Sheet.St (Nat × Val))) (us : List U) (fuel : Nat),
      Look.Dressed s.prog.look D → D.bounds.map (·.name) = names calls → Pours s.prog.look.book D sheets →
      Saveable (fun c => cellBytes s.prog.look.book.labels (Look.xf s.prog.look c) c) D gs sheets → Xls.Book.start (D, gs) sheets s1 →
      Book.run Globals.next (Sheet.next (Note.env (fun c => cellBytes s.prog.look.book.labels (Look.xf s.prog.look c) c) cs)) fuel s1 = .done us s2 →
      SmallGlobals D → (∀ sh ∈ sheets, SmallSheet (fun c => cellBytes s.prog.look.book.labels (Look.xf s.prog.look c) c) sh.1) →
      Page.Set A.acts sheets → ∃ bs, stream us s2.bpos = some bs ∧ (bs.length < 2 ^ 32 → ∀ pad, Q (bs ++ pad))) :
    ∃ D fuel us B' wb, globals s = some D ∧
      Book.run Globals.next (Sheet.next (Note.env (fun c => cellBytes s.prog.look.book.labels (Look.xf s.prog.look c) c) cs)) fuel (B D) = .done us B' ∧
      us.mapM (patch B'.bpos) = some wb ∧
      Saveable (fun c => cellBytes s.prog.look.book.labels (Look.xf s.prog.look c) c) D gs ((List.range (names calls).length).map fun i => (dataOf s i, sts i)) ∧
      (wb.flatten.length < 2 ^ 32 → ∀ pad, Q (wb.flatten ++ pad) ∧ ArrangedBy N (fun i => (sts i).spid) calls (wb.flatten ++ pad)) := by
  obtain ⟨S, hreach, hxf, hacts, hAi, hnamed, hdress⟩ := St
  have hrem : ∀ i, (A.acts i).countP Act.isComment = calls.countP (Call.isRemark i) := by
    intro i
    rw [hAi, remarks]
  have hcomm : ∀ i, calls.countP (Call.isRemark i) ≤ 65535 := fun i => hrem i ▸ hm.comments i
  obtain ⟨table, ht⟩ := labels_text hreach
  obtain ⟨X, hX, -, -⟩ := Look.xf_records s.prog.look.styles
  let D0 : Globals.Data := { window := s.wb.window, defFonts := [], fonts := [], formats := [], defXfs := [], xfs := []
                             styles := builtins.map stylePayload, palette := Palette.payload s.colors, bounds := [], labels := [] }
  obtain ⟨hD, d1, d2, d3⟩ := hdress [] table D0 (by
    intro p hp
    rcases List.mem_append.mp hp with h | h
    · exact style_small p h
    · rw [List.mem_singleton.mp h]
      show (Palette.payload s.colors).length ≤ _
      rw [S.colors]
      exact palette_small _)
  let D : Globals.Data := { Look.dress s.prog.look D0 [] table with bounds := s.wb.bounds }
  have hglob : globals s = some D := by
    unfold globals
    rw [hX, Option.bind_some, ht]
    simp only [Option.map_some, D, Look.dress, hX, Option.getD_some, D0]
  have hbn : D.bounds.map (·.name) = names calls := by
    show s.wb.bounds.map (·.name) = _
    rw [S.bounds, List.map_map]
    exact List.zipIdx_map_fst ..
  have hdata : ∀ i, dataOf s i = applyAll (new (blank s i)) (A.acts i) := fun i => by unfold dataOf; rw [← congrFun hacts i]
  generalize hshs : (List.range (names calls).length).map (fun i => (dataOf s i, sts i)) = sheets at *
  have hget : ∀ (i : Nat) sh, sheets[i]? = some sh → i < (names calls).length ∧ sh = (applyAll (new (blank s i)) (A.acts i), sts i) := by
    intro i sh hi
    rw [← hshs, List.getElem?_map] at hi
    obtain ⟨j, hj, rfl⟩ := Option.map_eq_some_iff.mp hi
    have hlt := (List.getElem?_eq_some_iff.mp hj).1
    have := (List.getElem?_eq_some_iff.mp hj).2
    simp only [List.getElem_range] at this
    subst this
    exact ⟨by simpa using hlt, by rw [← hdata]⟩
  have hslen : sheets.length = (names calls).length := by rw [← hshs]; simp
  have hdim : ∀ i, (s.used i).dimension.length = 14 := fun i => by simp [Cells.Sheet.dimension]
  obtain ⟨n, us, s', hpo, hok, hrun, hsm, hsh⟩ := tame_saves hA _ s.prog.look.book hreach hm.fine.sound hm.few hm.rows (Look.xf s.prog.look) hxf cs
    (names calls) hn0 hn1 hn2 D hbn ht d1 d2 d3 sheets hslen
    (fun i sh hi => by
      rw [(hget i sh hi).2]
      exact Page.tame_of hreach i (blank s i) rfl (by show (s.used i).dimension.length ≤ _; rw [hdim]; decide) (A.acts i)
        (fun a ha => ⟨(hm.fit i a ha).1.1, (hm.fit i a ha).2.1⟩) (hm.heights i) (hm.comments i) _ (hdata i ▸ hready i (hget i sh hi).1))
    gs hgs (B D) (hB D)
  have hst := hB D
  have hset : ∀ (i : Nat) sh, sheets[i]? = some sh → ∃ D0, sh.1 = applyAll (new D0) (A.acts i) :=
    fun i sh hi => ⟨blank s i, by rw [(hget i sh hi).2]⟩
  obtain ⟨bs, e1, e2⟩ := hQ D sheets _ s' us n ⟨hD.fonts, hD.formats, hD.xfs⟩ hbn hpo hok hst hrun hsm hsh hset
  obtain ⟨bs', f1, f2⟩ := Page.c59_open_partial hA _ s.prog.look.book hreach hm.fine.sound (Look.xf s.prog.look) hxf cs D gs sheets _ s' us n
    hpo hok hst hrun hsm hsh A.acts hset (fun i a ha => (hm.fit i a ha).1) hm.calls
  rw [e1] at f1
  obtain rfl := Option.some.inj f1
  obtain ⟨bs', g1, g2⟩ := dims_open hA _ s.prog.look.book hreach hm.fine.sound (Look.xf s.prog.look) hxf cs D gs sheets _ s' us n
    hpo hok hst hrun hsm hsh s.used (fun i sh hi => by
      rw [(hget i sh hi).2]
      exact (Page.applyAll_keeps (new (blank s i)) (A.acts i)).2.1)
  rw [e1] at g1
  obtain rfl := Option.some.inj g1
  obtain ⟨bs', d1', d2'⟩ := draws_open hA _ s.prog.look.book hreach hm.fine.sound (Look.xf s.prog.look) hxf cs D gs sheets _ s' us n
    hpo hok hst hrun hsm hsh
  rw [e1] at d1'
  obtain rfl := Option.some.inj d1'
  have e1' := e1
  unfold stream at e1'
  obtain ⟨wb, hwb, rfl⟩ := Option.map_eq_some_iff.mp e1'
  refine ⟨D, n, us, s', wb, hglob, hrun, hwb, hok, fun h32 pad => ?_⟩
  have hFound := e2 h32 pad
  refine ⟨hFound, ?_⟩
  obtain ⟨M, m1, m2, m3⟩ := f2 h32 pad
  obtain ⟨L, l1, l2, l3⟩ := g2 h32 pad
  obtain ⟨W', x1, x2, x3⟩ := d2' h32 pad
  rw [hbn] at m1 l1 x1
  obtain ⟨bs2, R', Rs2, gus, uss, offs, A', B', P, -⟩ := saved_parts hok hst hrun
  rw [P.strm] at e1
  have hbs := Option.some.inj e1
  obtain ⟨g, u, hg, hu, rfl⟩ := P.units
  obtain ⟨o1, o2, o3⟩ := Look.styles_of_globals hsm hg hu P.showsG
  have hrg := P.readGlobals (pad := pad)
  rw [hbs] at hrg
  have hnotes : D.bounds.map (·.notes) = (List.range (names calls).length).map fun i => calls.countP (Call.isRemark i) := by
    show s.wb.bounds.map (·.notes) = _
    rw [S.bounds, List.map_map]
    refine List.ext_getElem (by simp) fun i h1 h2 => ?_
    have := hcomm i
    simp only [List.getElem_map, List.getElem_zipIdx, Function.comp, Nat.zero_add, List.getElem_range]
    omega
  obtain ⟨q1, q2, q3, q4, q5, go, q6, q7⟩ := desk_of_globals hsm hg hu P.showsG (by
    intro b hb
    have : b.notes ∈ D.bounds.map (·.notes) := List.mem_map.mpr ⟨b, hb, rfl⟩
    rw [hnotes] at this
    obtain ⟨i, -, hi⟩ := List.mem_map.mp this
    have := hcomm i
    omega)
  rw [hnotes] at q7
  have hact : (latest Call.active calls).getD 0 < (names calls).length := by
    cases e : latest Call.active calls with
    | none => exact List.length_pos_iff.mpr hn0
    | some i =>
      obtain ⟨c, hc, he⟩ := Page.latest_mem e
      have ht : target c = some i := by
        cases c with
        | makeActive j => exact he
        | _ => cases he
      simpa using possible_mem hp hc ht
  have w1 : ((latest Call.at calls).getD (0, 0)).1 < 65536 := latest_lt (f := Call.at) (g := Prod.fst) (d := (0, 0)) (by decide) (fun c x h => by
    cases c with
    | position a b => cases h; exact a.toNat_lt
    | _ => cases h) calls
  have w2 : ((latest Call.at calls).getD (0, 0)).2 < 65536 := latest_lt (f := Call.at) (g := Prod.snd) (d := (0, 0)) (by decide) (fun c x h => by
    cases c with
    | position a b => cases h; exact b.toNat_lt
    | _ => cases h) calls
  have w3 : ((latest Call.extent calls).getD (715, 484)).1 < 65536 := latest_lt (f := Call.extent) (g := Prod.fst) (d := (715, 484)) (by decide) (fun c x h => by
    cases c with
    | size a b => cases h; exact a.toNat_lt
    | _ => cases h) calls
  have w4 : ((latest Call.extent calls).getD (715, 484)).2 < 65536 := latest_lt (f := Call.extent) (g := Prod.snd) (d := (715, 484)) (by decide) (fun c x h => by
    cases c with
    | size a b => cases h; exact b.toNat_lt
    | _ => cases h) calls
  have w5 : (latest Call.tab calls).getD 0 < 65536 := latest_lt (f := Call.tab) (g := id) (d := 0) (by decide) (fun c x h => by
    cases c with
    | firstTab a => cases h; exact a.toNat_lt
    | _ => cases h) calls
  obtain ⟨-, colors, c1, c2, c3⟩ := Palette.c31_palette (calls.filterMap Call.colour)
  let W : Window := ⟨signed (((latest Call.at calls).getD (0, 0)).1 * 20 % 65536), signed (((latest Call.at calls).getD (0, 0)).2 * 20 % 65536),
    signed (((latest Call.extent calls).getD (715, 484)).1 * 20 % 65536), signed (((latest Call.extent calls).getD (715, 484)).2 * 20 % 65536),
    false, false, true, true, true, (latest Call.active calls).getD 0, (latest Call.tab calls).getD 0, 1, min 1000 ((latest Call.ratio calls).getD 500)⟩
  have hwin : readWindow1 D.window.payload = _ := window_read s.wb.window (by rw [S.window]; exact Nat.lt_of_lt_of_le hact (by omega)) (by rw [S.window]; exact w5)
    (by rw [S.window]; show min 1000 _ < _; omega)
  rw [show s.wb.window.horz = ((latest Call.at calls).getD (0, 0)).1 by rw [S.window],
    show s.wb.window.vert = ((latest Call.at calls).getD (0, 0)).2 by rw [S.window],
    show s.wb.window.width = ((latest Call.extent calls).getD (715, 484)).1 by rw [S.window],
    show s.wb.window.height = ((latest Call.extent calls).getD (715, 484)).2 by rw [S.window],
    show s.wb.window.active = (latest Call.active calls).getD 0 by rw [S.window],
    show s.wb.window.first = (latest Call.tab calls).getD 0 by rw [S.window],
    show s.wb.window.tabBar = min 1000 ((latest Call.ratio calls).getD 500) by rw [S.window]] at hwin
  refine ⟨⟨1200, false, W, colors, builtins.map fun b => (b.1, b.2, 0xFF), go⟩, ⟨_, _, _⟩, M, L, W', ?_, by rw [Look.openStyles, hrg, Option.map_some, o1, o2, o3], m1, l1, x1, by rw [m2, hslen], by rw [l2, hslen], by rw [x2, hslen],
    rfl, rfl,
    ⟨⟨rfl, rfl, rfl, rfl, rfl⟩, rfl, rfl, rfl, rfl⟩, ?_, c2, c3, ?_, q7, hact, ?_, ?_, ?_⟩
  · unfold openDesk
    rw [hrg, Option.bind_some, q1, q2, q3, q4, q5, q6, Option.bind_some, Option.bind_some, Option.bind_some, Option.bind_some, hwin,
      show D.palette = Palette.payload (Palette.run none (calls.filterMap Call.colour)).1 by show Palette.payload s.colors = _; rw [S.colors], c1,
      show D.styles = builtins.map stylePayload from rfl, styles_read]
    rfl
  · unfold Placed InView
    simp only [W, Prod.mk.injEq, signed_twips _ w1, signed_twips _ w2, signed_twips _ w3, signed_twips _ w4, and_assoc]
  · exact hnamed _ hD.xfs
  · intro i P hP
    have hi : i < sheets.length := by rw [← m2]; exact (List.getElem?_eq_some_iff.mp hP).1
    have hg' : sheets[i]? = some sheets[i] := by simp [hi]
    obtain ⟨-, k⟩ := m3 i P hP
    obtain ⟨k1, k2⟩ := k _ hg'
    obtain ⟨hlt, hsheet⟩ := hget i _ hg'
    have ha : sheets[i].1.active = s.wb.isActive i := by
      rw [hsheet]
      exact (Page.applyAll_keeps (new (blank s i)) (A.acts i)).2.2.1
    have hb : s.wb.isActive i = true ↔ i = (latest Call.active calls).getD 0 := by
      unfold Wb.isActive
      rw [S.sheets, S.window, show (List.range (names calls).length)[i]? = some i by rw [List.getElem?_eq_getElem (by simpa using hlt)]; simp]
      simp
    rw [k1, k2, ha]
    exact ⟨hb, hb⟩
  · intro i P d hP hd
    obtain ⟨sh, y1, y2⟩ := x3 i d hd
    obtain ⟨hlt, rfl⟩ := hget i sh y1
    obtain ⟨k, -⟩ := m3 i P hP
    have hidx : (applyAll (new (blank s i)) (A.acts i)).index = i := by
      rw [(Page.applyAll_keeps (new (blank s i)) (A.acts i)).2.2.2]
      show (s.wb.sheets[i]?).getD 0 = i
      rw [S.sheets, List.getElem?_eq_getElem (by simpa using hlt)]
      simp
    have hAi := hAi i
    have hrm := remarks_of (i := i) (calls := calls) (hAi ▸ Page.after_all (blank s i) (A.acts i))
    rw [notes_length (Page.after_all (blank s i) (A.acts i)) k]
    simp only [hidx] at y2
    exact ⟨hAi ▸ hrm, y2⟩
  · intro i d hd
    have k := l3 i d hd
    rw [S.used i] at k
    refine ⟨fun he => ?_, fun hne hlim => ?_⟩
    · rw [he] at k
      have : readDimension (({} : Cells.Sheet Unit)).dimension = some (4294967295, 1, 65535, 1) := by rw [readDimension_eq]; simp
      rw [List.foldl_nil, this] at k
      exact (Option.some.inj k).symm
    · obtain ⟨d', e, hb⟩ := used_read hne hlim
      rw [e] at k
      exact Option.some.inj k ▸ hb

/-- A save of a workbook on which any program worked, from any state in which the last save may have left it. -/
theorem save_once {ar : Nat → Option Nat} (hA : Formula.KnowsArity ar) (calls : List Call) (p0 : Prog.State) (h0 : Prog.init = some p0)
    (hp : Possible 0 calls) (hf : Prog.Fine p0 Prog.nothing (calls.filterMap Call.inner))
    (hm : Prog.Modest (Prog.asked p0 Prog.nothing (calls.filterMap Call.inner))) (cs : WCell → Nat)
    (hn0 : names calls ≠ []) (hn1 : (names calls).length ≤ 1000) (hn2 : ∀ n ∈ names calls, n.length < 256)
    {s : State} (hs : steps (start p0) calls = some s) (hx : s.prog.look.styles.xfs.length ≤ 65536)
    (sts : Nat → Sheet.St (Nat × Val)) (hready : ∀ i < (names calls).length, Sheet.Ready (dataOf s i) (sts i)) (gs : Globals.St) (hgs : gs.phase = .init)
    (B : Globals.Data → Book.St (Globals.Data × Globals.St) (Sheet.Data (Nat × Val) Note.Note × Sheet.St (Nat × Val)))
    (hB : ∀ D, Xls.Book.start (D, gs) ((List.range (names calls).length).map fun i => (dataOf s i, sts i)) (B D)) :
    ∃ D fuel us B' wb, globals s = some D ∧
      Book.run Globals.next (Sheet.next (Note.env (fun c => cellBytes s.prog.look.book.labels (Look.xf s.prog.look c) c) cs)) fuel (B D) = .done us B' ∧
      us.mapM (patch B'.bpos) = some wb ∧
      Saveable (fun c => cellBytes s.prog.look.book.labels (Look.xf s.prog.look c) c) D gs ((List.range (names calls).length).map fun i => (dataOf s i, sts i)) ∧
      (wb.flatten.length < 2 ^ 32 → ∀ pad, Prog.Found ar (Prog.asked p0 Prog.nothing (calls.filterMap Call.inner)) (names calls) (wb.flatten ++ pad) ∧
        ArrangedFrom (fun i => (sts i).spid) calls (wb.flatten ++ pad)) := by
  obtain ⟨p, h1, G0⟩ := Prog.init_good
  rw [h0] at h1
  cases Option.some.inj h1
  obtain ⟨t, t1, G⟩ := Prog.sim_all G0 (calls.filterMap Call.inner) hf
  obtain ⟨s', s1, S, rfl⟩ := run hp (by omega) t1
  rw [hs] at s1
  obtain rfl := Option.some.inj s1
  obtain ⟨Bk, GB, ag⟩ := G.look
  have hacts := Prog.numbered_same G hx
  refine save_core hA calls hp hm cs hn0 hn1 hn2 ⟨S, ag.writes ▸ GB.reach, Look.xf_lt GB, hacts, fun i => ?_, fun X hX => named_of h0 (same_steps G0 hf t1) hX,
    fun names table D0 => Prog.dress_small GB names table D0⟩ sts hready gs hgs B hB ?_
  · rw [Prog.asked_acts G0 hf, show Prog.nothing.acts i = [] from rfl, List.nil_append]
  · intro D sheets b1 b2 us fuel hD hbn hpo hok hst hrun hsm hsh hset
    obtain ⟨bs, e1, e2⟩ := Prog.found hA G hm.fine hx (fun i a ha => ⟨(hm.fit i a ha).1, (hm.fit i a ha).2.2⟩) hm.calls cs D gs sheets b1 b2 us fuel
      hD hpo hok hst hrun hsm hsh (by rw [hacts]; exact hset)
    exact ⟨bs, e1, fun h32 pad => hbn ▸ e2 h32 pad⟩

/-- C65: any program on a new workbook that makes sheets, chooses the active one, places the window, changes colours, and does what C61 says, is carried
    out and saved without undefined behaviour, and a reader finds everything as asked; the saved stream is determined by the program (and by the sizes
    that cells announce).  The window is read as placed exactly when no coordinate is above 1638 points.
    Missing for the full claim: the conditions of C61 (`Fine`, `Modest`), 1000 sheets, names of 255 characters, 4 GB. -/
theorem c65_stream_partial {ar : Nat → Option Nat} (hA : Formula.KnowsArity ar) (calls : List Call) (p0 : Prog.State) (h0 : Prog.init = some p0)
    (hp : Possible 0 calls) (hf : Prog.Fine p0 Prog.nothing (calls.filterMap Call.inner))
    (hm : Prog.Modest (Prog.asked p0 Prog.nothing (calls.filterMap Call.inner))) (cs : WCell → Nat)
    (hn0 : names calls ≠ []) (hn1 : (names calls).length ≤ 1000) (hn2 : ∀ n ∈ names calls, n.length < 256) :
    ∃ s0 s, init = some s0 ∧ steps s0 calls = some s ∧ (s.prog.look.styles.xfs.length ≤ 65536 → ∃ fuel wb, units cs fuel s = some wb ∧
      (wb.flatten.length < 2 ^ 32 → ∀ pad, Prog.Found ar (Prog.asked p0 Prog.nothing (calls.filterMap Call.inner)) (names calls) (wb.flatten ++ pad) ∧
        Arranged calls (wb.flatten ++ pad))) := by
  obtain ⟨p, h1, G0⟩ := Prog.init_good
  rw [h0] at h1
  cases Option.some.inj h1
  obtain ⟨t, t1, G⟩ := Prog.sim_all G0 (calls.filterMap Call.inner) hf
  obtain ⟨s, s1, S, rfl⟩ := run hp (by omega) t1
  refine ⟨start p0, s, by rw [init, h0]; rfl, s1, fun hx => ?_⟩
  have hsh : sheets s = (List.range (names calls).length).map fun i => (dataOf s i, Page.unsaved (dataOf s i)) := by
    unfold sheets sheetOf Page.unsaved
    rw [S.sheets, List.length_range]
  obtain ⟨D, n, us, B', wb, e1, e2, e3, -, e4⟩ := save_once hA calls p0 h0 hp hf hm cs hn0 hn1 hn2 s1 hx (fun i => Page.unsaved (dataOf s i))
    (fun i _ => Page.unsaved_ready _) demoGs rfl (fun D => plainStart D (sheets s)) (fun D => ⟨rfl, rfl, hsh, rfl⟩)
  refine ⟨n, wb, ?_, e4⟩
  unfold units
  rw [e1, Option.bind_some, e2]
  exact e3

/-- C65 for the file: a compound-file reader finds the workbook stream with everything as asked, and the document properties.
    Missing for the full claim: as in `c65_stream_partial`; properties that need more than 4096 bytes (C33); 2 GB. -/
theorem c65_file_partial {ar : Nat → Option Nat} (hA : Formula.KnowsArity ar) (calls : List Call) (p0 : Prog.State) (h0 : Prog.init = some p0)
    (hp : Possible 0 calls) (hf : Prog.Fine p0 Prog.nothing (calls.filterMap Call.inner))
    (hm : Prog.Modest (Prog.asked p0 Prog.nothing (calls.filterMap Call.inner))) (cs : WCell → Nat)
    (hn0 : names calls ≠ []) (hn1 : (names calls).length ≤ 1000) (hn2 : ∀ n ∈ names calls, n.length < 256)
    (time : Nat) (htime : time ≤ 1000000000000) (pkg : Bytes) (props : List (Nat × Bytes)) :
    ∃ s0 s r0 r, init = some s0 ∧ steps s0 calls = some s ∧ Hpsf.Props.init time pkg = some r0 ∧ r0.run props = some r ∧
      (s.prog.look.styles.xfs.length ≤ 65536 → Hpsf.need r.summary ≤ 4096 → Hpsf.need r.doc ≤ 4096 →
        ∃ fuel wb si di bs bd, units cs fuel s = some wb ∧
          Hpsf.build .summary r.summary = some si ∧ Unit.contents si = some bs ∧ Hpsf.build .docSummary r.doc = some di ∧ Unit.contents di = some bd ∧
          (Ole.dataSize wb + 8192 < 2 ^ 31 - 12288 → ∃ f w ws wd S T, Ole.CompleteFile (Ole.workbookFiles wb [bs] [bd]) f ∧
            Cfb.readStream f (Ole.nameUnits Ole.workbookNames[0]) = some w ∧
            Prog.Found ar (Prog.asked p0 Prog.nothing (calls.filterMap Call.inner)) (names calls) w ∧ Arranged calls w ∧
            Cfb.readStream f (Ole.nameUnits Ole.workbookNames[1]) = some ws ∧ Spec.PropSet.read ws = some (Spec.PropSet.fmtidSummary, S) ∧
            Cfb.readStream f (Ole.nameUnits Ole.workbookNames[2]) = some wd ∧ Spec.PropSet.read wd = some (Spec.PropSet.fmtidDocSummary, T) ∧
            ∀ kind d id, Spec.PropSet.place kind = some (d, id) →
              Spec.PropSet.valueOf id (if d then T else S) = (Hpsf.expected pkg props kind).map .lpstr)) := by
  obtain ⟨s0, s, s1, s2, H⟩ := c65_stream_partial hA calls p0 h0 hp hf hm cs hn0 hn1 hn2
  obtain ⟨r0, r, q1, q2, K⟩ := Hpsf.c32_read_back time htime pkg props
  refine ⟨s0, s, r0, r, s1, s2, q1, q2, fun hx hs hd => ?_⟩
  obtain ⟨n, wb, e1, e2⟩ := H hx
  obtain ⟨si, di, bs1, bd1, S, T, a1, a2, a3, b1, b2, b3, rs, rd, -, -, hv, -⟩ := K hs hd
  refine ⟨n, wb, si, di, bs1, bd1, e1, a1, a2, b1, b2, fun hsize => ?_⟩
  have h1 : Ole.dataSize [bs1] = 4096 := by simp [Ole.dataSize, a3]
  have h2 : Ole.dataSize [bd1] = 4096 := by simp [Ole.dataSize, b3]
  obtain ⟨f, k1, k2, k3, hcf, f1, f2, f3⟩ := Ole.c10_workbook wb [bs1] [bd1] (by omega)
  have : wb.flatten.length = Ole.dataSize wb := by rw [List.length_flatten]; rfl
  obtain ⟨g1, g2⟩ := e2 (by omega) (List.replicate k1 0)
  refine ⟨f, _, _, _, S, T, hcf, f1, g1, g2, f2, ?_, f3, ?_, hv⟩
  · simp only [List.flatten_cons, List.flatten_nil, List.append_nil]
    exact rs _
  · simp only [List.flatten_cons, List.flatten_nil, List.append_nil]
    exact rd _

/-- The claim that the window is read where it was put fails for every program whose last position or size has a coordinate above 1638 points. -/
theorem c65_window_lost {calls : List Call} (hv : ¬ InView calls) {w : Bytes} (h : Arranged calls w) : ∃ K, openDesk w = some K ∧ ¬ Placed calls K.window := by
  obtain ⟨K, -, -, -, -, k, -, -, -, -, -, -, -, -, -, -, hi, -⟩ := h
  exact ⟨K, k, fun hp => hv (hi.mp hp)⟩

/-- Without more than 999 comments on a sheet, no two shapes in the workbook have the same number, and none is above the one that is said to be the largest. -/
theorem c65_shapes_numbered {calls : List Call} {w : Bytes} (h : Arranged calls w) (hn : (names calls).length ≤ 1000)
    (hc : ∀ i, calls.countP (Call.isRemark i) ≤ 999) : ∃ K draws, openDesk w = some K ∧ openDrawings w = some ((names calls).zip draws) ∧
      (draws.flatMap fun d => (d.map (·.ids)).getD []).Nodup ∧
      ∀ e, some e ∈ draws → ∃ g, K.group = some g ∧ ∀ x ∈ e.ids, x ≤ g.maxId := by
  obtain ⟨K, recs, M, dims, draws, k1, -, k3, -, k5, l1, l2, l3, -, -, -, -, -, -, -, hg, -, -, hd, -⟩ := h
  have key : ∀ (i : Nat) d, draws[i]? = some d → i < 1000 ∧ ∃ n, n ≤ calls.countP (Call.isRemark i) ∧ Drawn i 0 n d := by
    intro i d hi
    have hlt : i < draws.length := (List.getElem?_eq_some_iff.mp hi).1
    obtain ⟨h1, h2⟩ := hd i M[i] d (by simp [show i < M.length by omega]) hi
    exact ⟨by omega, _, remarks_le h1, h2⟩
  have range : ∀ (i : Nat) d, draws[i]? = some d → ∀ x ∈ (d.map (·.ids)).getD [], (i + 1) * 1000 + 24 ≤ x ∧ x ≤ (i + 1) * 1000 + 1023 := by
    intro i d hi x hx
    obtain ⟨h1, n, h2, h3⟩ := key i d hi
    have := hc i
    cases d with
    | none => cases hx
    | some d =>
      obtain ⟨-, -, e, -⟩ := h3
      rw [Option.map_some, Option.getD_some, e, List.mem_map] at hx
      obtain ⟨j, hj, rfl⟩ := hx
      rw [List.mem_range] at hj
      omega
  refine ⟨K, draws, k1, k5, ?_, ?_⟩
  · refine List.pairwise_flatMap.mpr ⟨fun d hm => ?_, ?_⟩
    · obtain ⟨i, hi⟩ := List.getElem?_of_mem hm
      obtain ⟨h1, n, h2, h3⟩ := key i d hi
      have := hc i
      cases d with
      | none => exact .nil
      | some d =>
        obtain ⟨-, -, e, -⟩ := h3
        rw [Option.map_some, Option.getD_some, e, List.pairwise_map]
        refine List.pairwise_lt_range.imp_of_mem fun {a b} ha hb hab => ?_
        rw [List.mem_range] at ha hb
        omega
    · rw [List.pairwise_iff_getElem]
      intro i j hi hj hij x hx y hy
      have h1 := range i draws[i] (by simp [hi]) x hx
      have h2 := range j draws[j] (by simp [hj]) y hy
      omega
  · intro e he
    obtain ⟨i, hi⟩ := List.getElem?_of_mem he
    have hlt : i < draws.length := (List.getElem?_eq_some_iff.mp hi).1
    obtain ⟨h1, n, h2, h3, -, h4, -⟩ := key i _ hi
    have hco : ((List.range (names calls).length).map fun i => calls.countP (Call.isRemark i))[i]? = some (calls.countP (Call.isRemark i)) := by
      rw [List.getElem?_map, List.getElem?_eq_getElem (by simpa using (show i < (names calls).length by omega))]
      simp
    cases hK : K.group with
    | none =>
      rw [hK] at hg
      have := hg _ (List.mem_of_getElem? hco)
      omega
    | some g =>
      rw [hK] at hg
      refine ⟨g, rfl, fun x hx => ?_⟩
      rw [h4, List.mem_map] at hx
      obtain ⟨j, hj, rfl⟩ := hx
      rw [List.mem_range] at hj
      have := hc i
      have := (hg.2.2 (by
        intro c hc'
        obtain ⟨i, -, rfl⟩ := List.mem_map.mp hc'
        exact hc i)).2 i _ j hco (by omega) (by omega)
      omega

/-! ### A program -/

/-- Three sheets are made, the second one while the first one is filled; the second one is made active; window, colour and tabs. -/
def sample : List Call :=
  .sheet [65] :: .position 100 1700 :: .size 800 600 :: (Prog.sample.take 14).map .on ++ [.sheet [66], .makeActive 1, .color ⟨1, 2, 3, 20⟩] ++
    (Prog.sample.drop 14).map .on ++ [.firstTab 1, .tabBarWidth 2000, .sheet [67], .color ⟨4, 5, 6, 20⟩, .position 100 200]

example : ¬ InView [.sheet [65], .position 1639 0] ∧ InView sample ∧ Possible 0 [.sheet [65], .position 1639 0] := by
  refine ⟨?_, ?_, ?_⟩
  · unfold InView; decide
  · unfold InView; decide
  · simp [Possible, target]

theorem sample_inner : sample.filterMap Call.inner = Prog.sample := by
  rfl

theorem sample_possible : Possible 0 sample := by
  simp [sample, Prog.sample, Possible, target]

example : ∃ s0 s r0 r, init = some s0 ∧ steps s0 sample = some s ∧ Hpsf.Props.init 1700000000 [120] = some r0 ∧ r0.run [(1, [82, 101]), (6, [77])] = some r ∧
      (s.prog.look.styles.xfs.length ≤ 65536 → Hpsf.need r.summary ≤ 4096 → Hpsf.need r.doc ≤ 4096 →
        ∃ fuel wb si di bs bd, units (fun _ => 0) fuel s = some wb ∧
          Hpsf.build .summary r.summary = some si ∧ Unit.contents si = some bs ∧ Hpsf.build .docSummary r.doc = some di ∧ Unit.contents di = some bd ∧
          (Ole.dataSize wb + 8192 < 2 ^ 31 - 12288 → ∃ f w, Ole.CompleteFile (Ole.workbookFiles wb [bs] [bd]) f ∧
            Cfb.readStream f (Ole.nameUnits Ole.workbookNames[0]) = some w ∧ Arranged sample w)) := by
  obtain ⟨p0, h0, hf, hm⟩ := Prog.sample_fine
  rw [← sample_inner] at hf hm
  obtain ⟨s0, s, r0, r, h1, h2, h3, h4, h5⟩ := c65_file_partial Formula.tableArity_knows sample p0 h0 sample_possible hf hm (fun _ => 0) (by decide) (by decide) (by decide)
    1700000000 (by decide) [120] [(1, [82, 101]), (6, [77])]
  refine ⟨s0, s, r0, r, h1, h2, h3, h4, fun a b c => ?_⟩
  obtain ⟨n, wb, si, di, bs, bd, k3, k4, k5, k6, k7, k8⟩ := h5 a b c
  refine ⟨n, wb, si, di, bs, bd, k3, k4, k5, k6, k7, fun hsz => ?_⟩
  obtain ⟨f, w, -, -, -, -, m1, m2, -, m3, -⟩ := k8 hsz
  exact ⟨f, w, m1, m2, m3⟩

/-- What the sample asks for: the window at 100, 200, 800 by 600; sheet 1 active; sheet 0 with cells and a comment from (0, 0) to (7, 7), the others
    empty; one comment, on sheet 0. -/
example : names sample = [[65], [66], [67]] ∧ latest Call.at sample = some (100, 200) ∧ latest Call.extent sample = some (800, 600) ∧
    latest Call.active sample = some 1 ∧ latest Call.tab sample = some 1 ∧ latest Call.ratio sample = some 2000 ∧
    Palette.Spec.colorAt (0, 0, 0) 20 (sample.filterMap Call.colour) = (4, 5, 6) ∧
    sample.filterMap (Call.spot 0) = [(0, 0), (5, 1), (7, 7)] ∧ sample.filterMap (Call.spot 1) = [] ∧
    (List.range 3).map (fun i => sample.countP (Call.isRemark i)) = [1, 0, 0] := by decide

end Xls.Desk
