import Verif.Prog.Lemmas
import Verif.Look.Plain
import Verif.Page.Plain
import Verif.Page.RowProps
import Verif.Hpsf.Props
/-
C61: formats given to columns and rows are found in the saved file, beside everything that C57, C59 and C60 promise, for one program that does it all.
C62: the same for the file, with the document properties.
-/
namespace Xls.Prog
open Xls.Page (Act latest latest_mem InLimits Fit Short RowFit Written RowsAsked RowsKept RowsAnyway openPages openRows settled settled_tame)
open Xls.Whole Xls.Cells Xls.Biff Xls.Book Xls.Save
open Xls.Styles.Spec (fontOf wantXf wantFont)

/-! ### Numbers of formats -/

theorem numbered_same {s : State} {A : Asked} (G : Good s A) (hx : s.look.styles.xfs.length ≤ 65536) :
    (fun i => (s.acts i).map (numbered s.look.styles)) = A.acts := by
  obtain ⟨B, GB, ag⟩ := G.look
  have num : ∀ q l, A.look.looks.formats q = some l → number s.look.styles q = q := by
    intro q l hl
    obtain ⟨-, x, h1, -⟩ := GB.styles.rel.formats q l (by rw [ag.formats, hl])
    simp only [Styles.xv, List.getElem?_map] at h1
    obtain ⟨e, he, -⟩ := Option.map_eq_some_iff.mp h1
    have hlt := (List.getElem?_eq_some_iff.mp he).1
    unfold number
    rw [he, Option.map_some, Option.getD_some, GB.styles.inv.index q e he]
    omega
  funext i
  rw [G.acts]
  have : ∀ a ∈ A.acts i, numbered s.look.styles a = a := by
    intro a ha
    have hk := G.known i a ha
    cases a with
    | call c =>
      cases c with
      | colwidth c w x =>
        cases x with
        | none => rfl
        | some q =>
          obtain ⟨l, hl⟩ := hk _ q rfl
          simp only [numbered, Option.map_some, num q l hl]
      | rowheight c w x =>
        cases x with
        | none => rfl
        | some q =>
          obtain ⟨l, hl⟩ := hk _ q rfl
          simp only [numbered, Option.map_some, num q l hl]
      | _ => rfl
    | _ => rfl
  exact (List.map_congr_left this).trans (List.map_id' _)

/-! ### What the reader finds -/

/-- The record of a format shows it. -/
theorem format_shown {s : State} {A : Asked} (G : Good s A) {D : Globals.Data} (hD : Look.Dressed s.look D) (y : Option Nat)
    (hy : ∀ q, y = some q → ∃ l, A.look.looks.formats q = some l) :
    FormatShown A.look ⟨D.defFonts ++ D.fonts, D.formats, D.defXfs ++ D.xfs⟩ (y.getD 15) y := by
  obtain ⟨B, GB, ag⟩ := G.look
  cases y with
  | none =>
    have h1 := GB.styles.rel.x15
    simp only [Styles.xv, List.getElem?_map] at h1
    obtain ⟨e, he, hxe⟩ := Option.map_eq_some_iff.mp h1
    obtain ⟨X, h, r1, r2, r3⟩ := GB.styles.read_xf he (hxe ▸ Styles.fresh_looks _ _ false)
    rw [hD.xfs] at r1
    obtain rfl := Option.some.inj r1
    have : h = ⟨.dflt, []⟩ := (Option.some.inj r2).symm
    subst this
    show Styles.readLook (D.defFonts ++ D.fonts) (D.defXfs ++ D.xfs) 15 = _
    rw [hD.fonts, r3]
  | some q =>
    obtain ⟨l, hl⟩ := hy q rfl
    obtain ⟨-, x, h1, h2⟩ := GB.styles.rel.formats q l (by rw [ag.formats, hl])
    simp only [Styles.xv, List.getElem?_map] at h1
    obtain ⟨e, he, hxe⟩ := Option.map_eq_some_iff.mp h1
    obtain ⟨X, h, r1, r2, r3⟩ := GB.styles.read_xf he (hxe ▸ h2)
    rw [hD.xfs] at r1
    obtain rfl := Option.some.inj r1
    refine ⟨l, h, hl, by rw [← ag.font, r2], ?_, ?_⟩
    · show Styles.readLook (D.defFonts ++ D.fonts) (D.defXfs ++ D.xfs) q = _
      rw [hD.fonts, r3]
    · intro k code hk hc
      show NumFmt.lookup D.formats _ = _
      rw [hD.formats, GB.formats, ag.codes, Look.code_format hk]
      have hfew := GB.few
      have hcodes := GB.codes
      rw [ag.codes] at hfew hcodes
      have := ((NumFmt.c38_user A.look.codes hfew (fun s hs => by have := hcodes s hs; omega)).2 k code hc)
      rw [← this.1]
      exact this.2.2

/-- Cells are shown as asked, whatever columns and rows hold. -/
theorem shown {ar : Nat → Option Nat} {s : State} {A : Asked} (G : Good s A) (hx : s.look.styles.xfs.length ≤ 65536) {D : Globals.Data}
    (hD : Look.Dressed s.look D) {i : Nat} {xs : List ReadCell} (h : ReadsBack (Holds ar) A.look.writes (Look.xf s.look) i xs) :
    Look.Shown ar A.look ⟨D.defFonts ++ D.fonts, D.formats, D.defXfs ++ D.xfs⟩ i xs := by
  obtain ⟨B, GB, ag⟩ := G.look
  obtain ⟨h1, h2⟩ := Look.shown GB hx hD (by rw [ag.writes]; exact h)
  refine ⟨h1, fun row col => ?_⟩
  have := h2 row col
  rw [ag.writes] at this
  cases hw : lastWrite A.look.writes i row col with
  | none => rw [hw] at this; exact this
  | some c =>
    rw [hw] at this
    obtain ⟨x, k1, k2, k3, k4, l, f, k5, k6, k7, k8⟩ := this
    refine ⟨x, k1, k2, k3, k4, l, f, ?_, by rw [← ag.font]; exact k6, k7, by rw [← ag.codes]; exact k8⟩
    rw [← ag.cells c.id (fun k hk => G.placed k c.id hk i row col c hw rfl)]
    exact k5

/-- What the reader of a stream finds of a program: cells with content and look; columns, rectangles, panes, links, validations, comments; rows; and
    the formats of columns and rows. -/
def Found (ar : Nat → Option Nat) (A : Asked) (names : List (List UInt16)) (w : Bytes) : Prop :=
  ∃ L M R recs, openCells w = some (names.zip L) ∧ openPages w = some (names.zip M) ∧ openRows w = some (names.zip R) ∧
    Look.openStyles w = some recs ∧ L.length = names.length ∧ M.length = names.length ∧ R.length = names.length ∧
    (∀ (i : Nat) xs, L[i]? = some xs → Look.Shown ar A.look recs i xs) ∧
    (∀ (i : Nat) P, M[i]? = some P → Page.Asked (A.acts i) P ∧
      ∀ f l w x, (f, l, w, x) ∈ P.columns → ∃ y, latest (Act.column f) (A.acts i) = some (w, y) ∧ FormatShown A.look recs x y) ∧
    ∀ (i : Nat) rows, R[i]? = some rows →
      (RowsAsked (Written A.look.writes i) (A.acts i) rows ↔ RowsKept (Written A.look.writes i) (A.acts i)) ∧
      RowsAnyway (Written A.look.writes i) (A.acts i) rows ∧
      ∀ r ∈ rows, ∃ x, r.xf = some x ∧ FormatShown A.look recs x ((latest (Act.height r.row) (A.acts i)).bind (·.2))

/-- Whatever a program did, its workbook is read as asked. -/
theorem found {ar : Nat → Option Nat} (hA : Formula.KnowsArity ar) {t : State} {A : Asked} (G : Good t A) (hfine : All Whole.Fine A.look.writes)
    (hx : t.look.styles.xfs.length ≤ 65536) (hfit : ∀ i, ∀ a ∈ A.acts i, Fit a ∧ RowFit a) (hl : ∀ i, (A.acts i).length < 2 ^ 32)
    (cs : WCell → Nat) (D : Globals.Data) (gs : Globals.St) (sheets : List (Sheet.Data (Nat × Val) Note.Note × Sheet.St (Nat × Val)))
    (s s' : Book.St (Globals.Data × Globals.St) (Sheet.Data (Nat × Val) Note.Note × Sheet.St (Nat × Val))) (us : List U) (fuel : Nat)
    (hD : Look.Dressed t.look D) (hp : Pours t.look.book D sheets)
    (hok : Saveable (fun c => cellBytes t.look.book.labels (Look.xf t.look c) c) D gs sheets) (hs : start (D, gs) sheets s)
    (hrun : Book.run Globals.next (Sheet.next (Note.env (fun c => cellBytes t.look.book.labels (Look.xf t.look c) c) cs)) fuel s = .done us s')
    (hsm : SmallGlobals D) (hsh : ∀ sh ∈ sheets, SmallSheet (fun c => cellBytes t.look.book.labels (Look.xf t.look c) c) sh.1)
    (hset : Page.Set (fun i => (t.acts i).map (numbered t.look.styles)) sheets) :
    ∃ bs, stream us s'.bpos = some bs ∧ (bs.length < 2 ^ 32 → ∀ pad, Found ar A (D.bounds.map (·.name)) (bs ++ pad)) := by
  rw [numbered_same G hx] at hset
  obtain ⟨B, GB, ag⟩ := G.look
  have hreach : Reach A.look.writes t.look.book := ag.writes ▸ GB.reach
  obtain ⟨bs, e1, e2⟩ := c55_open_partial hA _ t.look.book hreach hfine (Look.xf t.look) (Look.xf_lt GB) cs D gs sheets s s' us fuel hp hok hs hrun hsm hsh
  obtain ⟨bs', f1, f2⟩ := Page.c59_open_partial hA _ t.look.book hreach hfine.sound (Look.xf t.look) (Look.xf_lt GB) cs D gs sheets s s' us fuel hp hok hs
    hrun hsm hsh A.acts hset (fun i a ha => (hfit i a ha).1) hl
  rw [e1] at f1
  obtain rfl := Option.some.inj f1
  obtain ⟨bs', g1, g2⟩ := Page.c60_open_partial hA _ t.look.book hreach hfine.sound (Look.xf t.look) (Look.xf_lt GB) cs D gs sheets s s' us fuel hp hok hs
    hrun hsm hsh A.acts hset (fun i a ha => (hfit i a ha).2)
  rw [e1] at g1
  obtain rfl := Option.some.inj g1
  refine ⟨bs, e1, fun h32 pad => ?_⟩
  obtain ⟨L, l1, l2, l3⟩ := e2 h32 pad
  obtain ⟨M, m1, m2, m3⟩ := f2 h32 pad
  obtain ⟨R, r1, r2, r3⟩ := g2 h32 pad
  obtain ⟨bs2, R', Rs2, gus, uss, offs, A', B', P, -⟩ := saved_parts hok hs hrun
  rw [P.strm] at e1
  obtain rfl := Option.some.inj e1
  obtain ⟨g, u, hg, ht, rfl⟩ := P.units
  obtain ⟨o1, o2, o3⟩ := Look.styles_of_globals hsm hg ht P.showsG
  have hcount : sheets.length = (D.bounds.map (·.name)).length := by rw [List.length_map, hok.count]
  refine ⟨L, M, R, _, l1, m1, r1, by rw [Look.openStyles, P.readGlobals, Option.map_some, o1, o2, o3], l2.trans hcount, m2.trans hcount, r2.trans hcount,
    fun i xs hi => shown G hx hD (l3 i xs hi), fun i Q hi => ?_, fun i rows hi => ?_⟩
  · obtain ⟨q1, q2⟩ := m3 i Q hi
    refine ⟨q1, fun f l w x hm => ?_⟩
    obtain ⟨-, y, hy, rfl⟩ := (q1.columns f l w x).mp hm
    refine ⟨y, hy, format_shown G hD y ?_⟩
    rintro q rfl
    obtain ⟨a, ha, he⟩ := latest_mem hy
    refine G.known i a ha ⟨i, false, f⟩ q ?_
    cases a with
    | call c =>
      cases c with
      | colwidth c w y =>
        simp only [Act.column] at he
        by_cases e : c.toNat = f
        · rw [if_pos e] at he
          simp only [Option.some.injEq, Prod.mk.injEq] at he
          rw [slotOf, e, he.2]
        · rw [if_neg e] at he; cases he
      | _ => cases he
    | _ => cases he
  · obtain ⟨q1, q2⟩ := r3 i rows hi
    refine ⟨q1, q2, fun r hr => ?_⟩
    cases hy : latest (Act.height r.row) (A.acts i) with
    | none => exact ⟨15, (q2.unset r hr hy).2.1, format_shown G hD none (by simp)⟩
    | some p =>
      obtain ⟨w, y⟩ := p
      refine ⟨y.getD 15, (q2.set r hr w y hy).2.1, format_shown G hD y ?_⟩
      rintro q rfl
      obtain ⟨a, ha, he⟩ := latest_mem hy
      refine G.known i a ha ⟨i, true, r.row⟩ q ?_
      cases a with
      | call c =>
        cases c with
        | rowheight c w y =>
          simp only [Act.height] at he
          by_cases e : c.toNat = r.row
          · rw [if_pos e] at he
            simp only [Option.some.injEq, Prod.mk.injEq] at he
            rw [slotOf, e, he.2]
          · rw [if_neg e] at he; cases he
        | _ => cases he
      | _ => cases he

/-- C61 for a reader that follows the sheet table: a program that writes cells, works with fonts, number formats and formats, and gives the sheets
    column widths and row heights, with or without formats, merged ranges, panes, links, validations and comments is carried out, and the saved stream has all
    of it; each column and row leads to the XF and FONT records that show its format as the program asked for it, whatever was done to other
    cells, columns and rows.
    Missing for the full claim: the conditions of C57 and C59; a row that has a format is given a new height or format (`c61_row_replaced`). -/
theorem c61_open_partial {ar : Nat → Option Nat} (hA : Formula.KnowsArity ar) (calls : List Call) (s0 : State) (h0 : init = some s0)
    (hf : Fine s0 nothing calls) :
    ∃ t, steps s0 calls = some t ∧ (All Whole.Fine (asked s0 nothing calls).look.writes → t.look.styles.xfs.length ≤ 65536 →
      (∀ i, ∀ a ∈ (asked s0 nothing calls).acts i, Fit a ∧ RowFit a) → (∀ i, ((asked s0 nothing calls).acts i).length < 2 ^ 32) →
      ∀ (cs : WCell → Nat) (D : Globals.Data) (gs : Globals.St) (sheets : List (Sheet.Data (Nat × Val) Note.Note × Sheet.St (Nat × Val)))
        (s s' : Book.St (Globals.Data × Globals.St) (Sheet.Data (Nat × Val) Note.Note × Sheet.St (Nat × Val))) (us : List U) (fuel : Nat),
      Look.Dressed t.look D → Pours t.look.book D sheets → Saveable (fun c => cellBytes t.look.book.labels (Look.xf t.look c) c) D gs sheets →
      start (D, gs) sheets s →
      Book.run Globals.next (Sheet.next (Note.env (fun c => cellBytes t.look.book.labels (Look.xf t.look c) c) cs)) fuel s = .done us s' →
      SmallGlobals D → (∀ sh ∈ sheets, SmallSheet (fun c => cellBytes t.look.book.labels (Look.xf t.look c) c) sh.1) →
      Page.Set (fun i => (t.acts i).map (numbered t.look.styles)) sheets →
      ∃ bs, stream us s'.bpos = some bs ∧
        (bs.length < 2 ^ 32 → ∀ pad, Found ar (asked s0 nothing calls) (D.bounds.map (·.name)) (bs ++ pad))) := by
  obtain ⟨s, h1, G⟩ := init_good
  rw [h0] at h1
  cases Option.some.inj h1
  obtain ⟨t, t1, G'⟩ := sim_all G calls hf
  exact ⟨t, t1, fun hfine hx hfit hl cs D gs sheets s s' us fuel hD hp hok hs hrun hsm hsh hset =>
    found hA G' hfine hx hfit hl cs D gs sheets s s' us fuel hD hp hok hs hrun hsm hsh hset⟩

end Xls.Prog
