import Verif.Mirror.Progs
import Verif.Mirror.Spec
import Verif.Desk.Props
/-
From the invariant `Sound` to the records of the saved file.
-/
namespace Xls.Mirror
open Xls.Whole Xls.Cells Xls.Biff Xls.Book Xls.Save
open Xls.Page (Act latest latest_mem Fit Short RowFit Written RowsAnyway openPages openRows)
open Xls.Prog (Slot slotOf numbered number)
open Xls.Styles (Num fv xv)

/-! ### Numbers -/

theorem xf_number {s : Styles.State} (N : Num s) {q : Nat} {e : Styles.XEnt} (h : s.xfs[q]? = some e) (hx : s.xfs.length ≤ 65536) : e.index = q := by
  have hlt := (List.getElem?_eq_some_iff.mp h).1
  have := congrArg (·[q]?) N.xi
  simp only [List.getElem?_map, h, List.getElem?_range hlt, Option.map_some, Option.some.injEq] at this
  rw [this, Nat.mod_eq_of_lt (by omega)]

theorem font_number {s : Styles.State} (N : Num s) {p : Nat} {e : Styles.FEnt} (h : s.fonts[p]? = some e) : e.index = Xf.fontIndexOf p := by
  have hlt := (List.getElem?_eq_some_iff.mp h).1
  have := congrArg (·[p]?) N.fi
  simpa only [List.getElem?_map, h, List.getElem?_range hlt, Option.map_some, Option.some.injEq] using this

theorem xf_index_lt {s : Styles.State} (N : Num s) (c : Nat) : (Styles.xfIndexOf s c).getD 0 < 65536 := by
  unfold Styles.xfIndexOf
  cases h : (s.cells[c]?).join.bind fun q => s.xfs[q]? with
  | none => simp
  | some e =>
    obtain ⟨q, -, hq⟩ := Option.bind_eq_some_iff.mp h
    have hlt := (List.getElem?_eq_some_iff.mp hq).1
    have := congrArg (·[q]?) N.xi
    simp only [List.getElem?_map, hq, List.getElem?_range hlt, Option.map_some, Option.some.injEq] at this
    simp only [Option.map_some, Option.getD_some, this]
    omega

theorem Sound.numbered {s : Prog.State} {A : Prog.Asked} (G : Sound s A) (hx : s.look.styles.xfs.length ≤ 65536) :
    (fun i => (s.acts i).map (Prog.numbered s.look.styles)) = A.acts := by
  have num : ∀ q, q < s.look.styles.xfs.length → number s.look.styles q = q := by
    intro q hq
    have he : s.look.styles.xfs[q]? = some s.look.styles.xfs[q] := by simp [hq]
    unfold number
    rw [he, Option.map_some, Option.getD_some, xf_number G.styles.num he hx]
  funext i
  rw [G.acts]
  have : ∀ a ∈ A.acts i, Prog.numbered s.look.styles a = a := by
    intro a ha
    have hk := G.known i a ha
    cases a with
    | call c =>
      cases c with
      | colwidth c w x =>
        cases x with
        | none => rfl
        | some q => simp only [Prog.numbered, Option.map_some, num q (hk _ q rfl)]
      | rowheight c w x =>
        cases x with
        | none => rfl
        | some q => simp only [Prog.numbered, Option.map_some, num q (hk _ q rfl)]
      | _ => rfl
    | _ => rfl
  exact (List.map_congr_left this).trans (List.map_id' _)

/-! ### Records -/

theorem fontIndexOf_ne {p : Nat} (h : p < 65535) : Xf.fontIndexOf p ≠ 4 ∧ (if Xf.fontIndexOf p < 4 then Xf.fontIndexOf p else Xf.fontIndexOf p - 1) = p := by
  unfold Xf.fontIndexOf
  by_cases h4 : p < 4
  · rw [if_pos h4, if_pos h4]; omega
  · rw [if_neg h4, Nat.mod_eq_of_lt (by omega), if_neg (by omega)]; omega

theorem font_record {s : Styles.State} (W : Well s) (hf : s.fonts.length ≤ 65535) {R : Look.Records} (hR : R.fonts = Styles.fontRecords s)
    {p : Nat} {e : Styles.FEnt} (h : s.fonts[p]? = some e) : ∃ y, fontAt R e.index = some y ∧ FontSays (Ask.askFont e.font) y := by
  have hlt := (List.getElem?_eq_some_iff.mp h).1
  obtain ⟨y, h1, h2⟩ := (W.fonts e.font (List.mem_map.mpr ⟨e, List.mem_of_getElem? h, rfl⟩)).read
  obtain ⟨n1, n2⟩ := fontIndexOf_ne (p := p) (by omega)
  refine ⟨y, ?_, h2⟩
  unfold fontAt
  rw [font_number W.num h, if_neg n1, n2, hR, Styles.fontRecords, List.getElem?_map, h]
  exact h1

theorem format_record {s : Styles.State} (W : Well s) (hx : s.xfs.length ≤ 65536) {R : Look.Records} (hR : Styles.xfRecords s = some R.xfs)
    {q : Nat} {e : Styles.XEnt} (h : s.xfs[q]? = some e) : ∃ y, formatAt R e.index = some y ∧ Agrees (Ask.askFormat e.xf) y := by
  obtain ⟨bs, y, h1, h2, h3⟩ := (W.xfs e.xf (List.mem_map.mpr ⟨e, List.mem_of_getElem? h, rfl⟩)).read
  refine ⟨y, ?_, h3⟩
  have hrec : ∀ e : Styles.XEnt, (Xf.record e.xf).map (·.drop 4) = some (((Xf.record e.xf).map (·.drop 4)).getD []) := by
    intro e
    rw [Xf.record_words]
    rfl
  have := Styles.mapM_all _ _ hrec s.xfs
  rw [show s.xfs.mapM (fun e => (Xf.record e.xf).map (·.drop 4)) = some R.xfs from hR] at this
  unfold formatAt
  rw [xf_number W.num h hx, Option.some.inj this, List.getElem?_map, h, Option.map_some, h1]
  exact h2

theorem Well.mirrors {s : Styles.State} (W : Well s) (hf : s.fonts.length ≤ 65535) (hx : s.xfs.length ≤ 65536) {R : Look.Records}
    (h1 : R.fonts = Styles.fontRecords s) (h2 : Styles.xfRecords s = some R.xfs) : Mirrors s R := by
  obtain ⟨X, hX, hl, -⟩ := Look.xf_records s
  rw [h2] at hX
  obtain rfl := Option.some.inj hX
  refine ⟨by rw [h1, Styles.fontRecords, List.length_map], hl, fun e he => ?_, fun e he => ?_, fun e he p hp => ?_⟩
  · obtain ⟨p, hp⟩ := List.getElem?_of_mem he
    exact font_record W hf h1 hp
  · obtain ⟨q, hq⟩ := List.getElem?_of_mem he
    exact format_record W hx h2 hq
  · obtain ⟨q, hq⟩ := List.getElem?_of_mem he
    obtain ⟨y, y1, y2⟩ := format_record W hx h2 hq
    have hlt := W.num.ptr e he p hp
    have hg : s.fonts[p]? = some s.fonts[p] := by simp [hlt]
    obtain ⟨z, z1, z2⟩ := font_record W hf h1 hg
    have e1 : y.font = (s.fonts[p]).index := by
      rw [← y2.font, font_number W.num hg]
      show Xf.fontIndex e.xf = _
      unfold Xf.fontIndex
      rw [hp]
    exact ⟨_, y, z, hg, y1, e1, by rw [e1]; exact z1, z2⟩

/-- The globals of the workbook can be saved. -/
theorem Sound.dressed {t : Prog.State} {A : Prog.Asked} (G : Sound t A) (names table : List (List UInt16)) (D0 : Globals.Data)
    (hD0 : ∀ p ∈ D0.styles ++ [D0.palette], p.length ≤ 8224) :
    Look.Dressed t.look (Look.dress t.look D0 names table) ∧ (Look.dress t.look D0 names table).defFonts ≠ [] ∧ (Look.dress t.look D0 names table).defXfs ≠ [] ∧
    ∀ p ∈ (Look.dress t.look D0 names table).defFonts ++ (Look.dress t.look D0 names table).fonts ++ (Look.dress t.look D0 names table).formats ++
      (Look.dress t.look D0 names table).defXfs ++ (Look.dress t.look D0 names table).xfs ++ (Look.dress t.look D0 names table).styles ++
      [(Look.dress t.look D0 names table).palette], p.length ≤ 8224 := by
  obtain ⟨X, hX, hXl, hXs⟩ := Look.xf_records t.look.styles
  have hFs : ∀ p ∈ Styles.fontRecords t.look.styles, p.length ≤ 8224 := by
    intro p hp
    obtain ⟨f, hf, rfl⟩ := List.mem_map.mp hp
    exact Look.font_small _ (G.styles.fonts _ (List.mem_map.mpr ⟨f, hf, rfl⟩)).name
  refine ⟨⟨by simp [Look.dress], rfl, by simp [Look.dress, hX]⟩, ?_, ?_, ?_⟩
  · have := G.styles.num.five
    intro e
    have := congrArg List.length e
    simp only [Look.dress, List.length_take, Styles.fontRecords, List.length_map, List.length_nil] at this
    omega
  · have := G.styles.many
    intro e
    have := congrArg List.length e
    simp only [Look.dress, hX, Option.getD_some, List.length_take, List.length_nil] at this
    omega
  · intro p hp
    simp only [Look.dress, hX, Option.getD_some, List.mem_append, List.mem_cons, List.not_mem_nil, or_false] at hp
    have hD0' : ∀ p, p ∈ D0.styles ∨ p = D0.palette → p.length ≤ 8224 := fun p h => hD0 p (by simpa using h)
    rcases hp with (((((h | h) | h) | h) | h) | h) | h
    · exact hFs p (List.mem_of_mem_take h)
    · exact hFs p (List.mem_of_mem_drop h)
    · obtain ⟨c, hc, rfl⟩ := List.mem_map.mp h
      refine Look.format_small c ?_
      rw [G.formats, NumFmt.user_index, List.mem_mapIdx] at hc
      obtain ⟨k, hk, rfl⟩ := hc
      exact G.codes _ (List.getElem_mem hk)
    · exact hXs p (List.mem_of_mem_take h)
    · exact hXs p (List.mem_of_mem_drop h)
    · exact hD0' p (.inl h)
    · exact hD0' p (.inr h)

theorem Sound.given {t : Prog.State} {A : Prog.Asked} (G : Sound t A) (hx : t.look.styles.xfs.length ≤ 65536) (y : Option Nat)
    (hy : ∀ q, y = some q → q < t.look.styles.xfs.length) : GivenNumber t.look.styles (y.getD 15) y := by
  cases y with
  | none => rfl
  | some q =>
    have hq := hy q rfl
    have he : t.look.styles.xfs[q]? = some t.look.styles.xfs[q] := by simp [hq]
    exact ⟨_, he, xf_number G.styles.num he hx⟩

theorem Sound.cellsSay {ar : Nat → Option Nat} {t : Prog.State} {A : Prog.Asked} (G : Sound t A) {i : Nat} {xs : List ReadCell}
    (h : ReadsBack (Holds ar) A.look.writes (Look.xf t.look) i xs) : CellsSay ar A.look.writes t.look.styles i xs := by
  refine ⟨h.1, fun row col => ?_⟩
  have := h.2 row col
  cases hw : lastWrite A.look.writes i row col with
  | none => rw [hw] at this; exact this
  | some c =>
    rw [hw] at this
    obtain ⟨x, x1, x2, x3, x4, x5⟩ := this
    refine ⟨x, x1, x2, x3, x5, ?_⟩
    obtain ⟨q, hq⟩ := G.live _ _ _ _ hw
    have hlt := G.styles.live _ _ hq
    have he : Styles.xfIndexOf t.look.styles c.id = some (t.look.styles.xfs[q]).index := by
      unfold Styles.xfIndexOf
      rw [hq]
      simp [hlt]
    rw [x4]
    show _ = some ((Styles.xfIndexOf t.look.styles c.id).getD 0)
    rw [he]
    rfl

/-- Whatever a program did, the reader finds what the objects answer. -/
theorem Sound.echoed {ar : Nat → Option Nat} (hA : Formula.KnowsArity ar) {t : Prog.State} {A : Prog.Asked} (G : Sound t A) (hfine : All Whole.Fine A.look.writes)
    (hx : t.look.styles.xfs.length ≤ 65536) (hfo : t.look.styles.fonts.length ≤ 65535)
    (hfit : ∀ i, ∀ a ∈ A.acts i, Fit a ∧ RowFit a) (hl : ∀ i, (A.acts i).length < 2 ^ 32)
    (cs : WCell → Nat) (D : Globals.Data) (gs : Globals.St) (sheets : List (Sheet.Data (Nat × Val) Note.Note × Sheet.St (Nat × Val)))
    (s s' : Book.St (Globals.Data × Globals.St) (Sheet.Data (Nat × Val) Note.Note × Sheet.St (Nat × Val))) (us : List U) (fuel : Nat)
    (hD : Look.Dressed t.look D) (hp : Pours t.look.book D sheets)
    (hok : Saveable (fun c => cellBytes t.look.book.labels (Look.xf t.look c) c) D gs sheets) (hs : start (D, gs) sheets s)
    (hrun : Book.run Globals.next (Sheet.next (Note.env (fun c => cellBytes t.look.book.labels (Look.xf t.look c) c) cs)) fuel s = .done us s')
    (hsm : SmallGlobals D) (hsh : ∀ sh ∈ sheets, SmallSheet (fun c => cellBytes t.look.book.labels (Look.xf t.look c) c) sh.1)
    (hset : Page.Set A.acts sheets) :
    ∃ bs, stream us s'.bpos = some bs ∧ (bs.length < 2 ^ 32 → ∀ pad,
      Echoed ar t.look.styles A.look.codes A.look.writes A.acts (D.bounds.map (·.name)) (bs ++ pad)) := by
  have hxf : ∀ c, Look.xf t.look c < 65536 := fun c => xf_index_lt G.styles.num c.id
  obtain ⟨bs, e1, e2⟩ := c55_open_partial hA _ t.look.book G.reach hfine (Look.xf t.look) hxf cs D gs sheets s s' us fuel hp hok hs hrun hsm hsh
  obtain ⟨bs', f1, f2⟩ := Page.c59_open_partial hA _ t.look.book G.reach hfine.sound (Look.xf t.look) hxf cs D gs sheets s s' us fuel hp hok hs
    hrun hsm hsh A.acts hset (fun i a ha => (hfit i a ha).1) hl
  rw [e1] at f1
  obtain rfl := Option.some.inj f1
  obtain ⟨bs', g1, g2⟩ := Page.c60_open_partial hA _ t.look.book G.reach hfine.sound (Look.xf t.look) hxf cs D gs sheets s s' us fuel hp hok hs
    hrun hsm hsh A.acts hset (fun i a ha => (hfit i a ha).2)
  rw [e1] at g1
  obtain rfl := Option.some.inj g1
  refine ⟨bs, e1, fun h32 pad => ?_⟩
  obtain ⟨L, l1, l2, l3⟩ := e2 h32 pad
  obtain ⟨M, m1, m2, m3⟩ := f2 h32 pad
  obtain ⟨R, r1, r2, r3⟩ := g2 h32 pad
  obtain ⟨bs2, R', Rs2, gus, uss, offs, A', B', P, -⟩ := saved_parts hok hs hrun
  rw [P.strm] at e1
  obtain rfl := Option.some.inj e1
  obtain ⟨g, u, hg, ht, rfl⟩ := P.units
  obtain ⟨o1, o2, o3⟩ := Look.styles_of_globals hsm hg ht P.showsG
  have hcount : sheets.length = (D.bounds.map (·.name)).length := by rw [List.length_map, hok.count]
  refine ⟨L, M, R, _, l1, m1, r1, by rw [Look.openStyles, P.readGlobals, Option.map_some, o1, o2, o3], l2.trans hcount, m2.trans hcount, r2.trans hcount,
    G.styles.mirrors hfo hx hD.fonts hD.xfs, ?_, fun i xs hi => G.cellsSay (l3 i xs hi), fun i Q hi => ?_, fun i rows hi => ?_⟩
  · intro k code hc
    show NumFmt.lookup D.formats _ = _
    rw [hD.formats, G.formats]
    have := ((NumFmt.c38_user A.look.codes G.few (fun s hs => by have := G.codes s hs; omega)).2 k code hc)
    rw [← this.1]
    exact this.2.2
  · obtain ⟨q1, q2⟩ := m3 i Q hi
    refine ⟨q1, fun f l w x hm => ?_⟩
    obtain ⟨-, y, hy, rfl⟩ := (q1.columns f l w x).mp hm
    refine ⟨y, hy, G.given hx y ?_⟩
    rintro q rfl
    obtain ⟨a, ha, he⟩ := latest_mem hy
    refine G.known i a ha ⟨i, false, f⟩ q ?_
    cases a with
    | call c =>
      cases c with
      | colwidth c w y =>
        simp only [Act.column] at he
        by_cases e : c.toNat = f
        · rw [if_pos e] at he
          simp only [Option.some.injEq, Prod.mk.injEq] at he
          rw [slotOf, e, he.2]
        · rw [if_neg e] at he; cases he
      | _ => cases he
    | _ => cases he
  · obtain ⟨-, q2⟩ := r3 i rows hi
    refine ⟨q2, fun r hr => ?_⟩
    cases hy : latest (Act.height r.row) (A.acts i) with
    | none => exact ⟨15, (q2.unset r hr hy).2.1, rfl⟩
    | some p =>
      obtain ⟨w, y⟩ := p
      refine ⟨y.getD 15, (q2.set r hr w y hy).2.1, G.given hx y ?_⟩
      rintro q rfl
      obtain ⟨a, ha, he⟩ := latest_mem hy
      refine G.known i a ha ⟨i, true, r.row⟩ q ?_
      cases a with
      | call c =>
        cases c with
        | rowheight c w y =>
          simp only [Act.height] at he
          by_cases e : c.toNat = r.row
          · rw [if_pos e] at he
            simp only [Option.some.injEq, Prod.mk.injEq] at he
            rw [slotOf, e, he.2]
          · rw [if_neg e] at he; cases he
        | _ => cases he
      | _ => cases he

end Xls.Mirror
