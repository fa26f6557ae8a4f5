import Verif.Prog.Plain
import Verif.Desk.Read
/-
The drawings of the sheets, read from the saved stream.
-/
namespace Xls.Desk
open Xls.Biff Xls.Book Xls.Cells Xls.Save Xls.Whole
open Xls.Page (Act latest)

/-- One sheet. -/
theorem draw_read {ar : Nat → Option Nat} (hA : Formula.KnowsArity ar) {h : List (Nat × Cell Val)} {b : Whole.Book} (r : Reach h b)
    (hf : All Sound h) (hn : b.labels.length ≤ 2 ^ 32) {table : List (List UInt16)} (ht : b.labels.mapM Cell.val = some table)
    {xf : WCell → Nat} (hx : ∀ c, xf c < 65536) {cs : WCell → Nat} {i : Nat} {D : Sheet.Data (Nat × Val) Note.Note} {st : Sheet.St (Nat × Val)}
    (hc : D.cells = (b.sheets i).cells) (hs : Sheet.Ready D st) (hlen : D.cells.length < 2 ^ 32) (h16 : D.notes.length ≤ 65535)
    (hno : ∀ n ∈ D.notes, n.full.length ≤ 3900) {fuel off : Nat} {us : List U} {x : Sheet.Data (Nat × Val) Note.Note × Sheet.St (Nat × Val)}
    (hd : Sheet.drain (Sheet.next (Note.env (fun c => cellBytes b.labels (xf c) c) cs)) fuel off 0 (D, st) = .done us x)
    {R : List Rec} (hR : ShowsL (fun _ => none) us R) :
    ∃ d, drawingOf (Page.logical R) = some d ∧ Drawn D.index st.spid D.notes.length d := by
  obtain ⟨bs, hL, hcell, -⟩ := Page.sheet_logical (recs := fun c => (cellRecords b.labels (xf c) c).getD [])
    (fun c hcm => ⟨(cell_is hA r hf hn ht hx (hc ▸ hcm)).1, Page.cellRecords_types _ _ _⟩) hs hlen h16 hno hd hR
  unfold drawingOf
  rw [hL, Page.ofType_home _ hcell (k := 7) rfl, Note.layout_draw]
  obtain ⟨h1, h2⟩ := Page.draw_flat (fun c : WCell => (cellRecords b.labels (xf c) c).getD []) D D.notes st.spid 0
  by_cases e : D.notes = []
  · exact ⟨none, if_pos (h2.mpr e), by simp [Drawn, e]⟩
  · rw [if_neg fun k => e (h2.mp k), h1, Note.recsFrom_whole _ _ _ e (by omega), Note.container_read _ _ _ (by omega)]
    refine ⟨_, rfl, by simpa using e, rfl, ?_, ?_⟩
    · simp [Note.makeSPID, Nat.add_assoc]
    · simp [List.range_succ]

/-- All sheets. -/
theorem draws_open {ar : Nat → Option Nat} (hA : Formula.KnowsArity ar) (h : List (Nat × Cell Val)) (b : Whole.Book) (r : Reach h b)
    (hf : All Sound h) (xf : WCell → Nat) (hx : ∀ c, xf c < 65536) (cs : WCell → Nat) (D : Globals.Data) (gs : Globals.St)
    (sheets : List (Sheet.Data (Nat × Val) Note.Note × Sheet.St (Nat × Val)))
    (s s' : Book.St (Globals.Data × Globals.St) (Sheet.Data (Nat × Val) Note.Note × Sheet.St (Nat × Val)))
    (us : List U) (fuel : Nat) (hp : Pours b D sheets) (hok : Saveable (fun c => cellBytes b.labels (xf c) c) D gs sheets) (hs : Xls.Book.start (D, gs) sheets s)
    (hrun : Book.run Globals.next (Sheet.next (Note.env (fun c => cellBytes b.labels (xf c) c) cs)) fuel s = .done us s')
    (hsm : SmallGlobals D) (hsh : ∀ sh ∈ sheets, SmallSheet (fun c => cellBytes b.labels (xf c) c) sh.1) :
    ∃ bs, stream us s'.bpos = some bs ∧ (bs.length < 2 ^ 32 → ∀ pad, ∃ L, openDrawings (bs ++ pad) = some ((D.bounds.map (·.name)).zip L) ∧
      L.length = sheets.length ∧ ∀ (i : Nat) d, L[i]? = some d → ∃ sh, sheets[i]? = some sh ∧ Drawn sh.1.index sh.2.spid sh.1.notes.length d) := by
  obtain ⟨bs, Rs, e1, e2, e3, e4⟩ := c43_open_partial _ cs D gs sheets s s' us fuel hok hs hsm hrun hsh
  refine ⟨bs, e1, fun h32 pad => ?_⟩
  have hread : ∀ (i : Nat) R, Rs[i]? = some R → ∃ d, drawingOf (Page.logical R) = some d ∧
      ∃ sh, sheets[0 + i]? = some sh ∧ Drawn sh.1.index sh.2.spid sh.1.notes.length d := by
    intro i R hR
    rw [Nat.zero_add]
    have hlt : i < sheets.length := by rw [← e2]; exact (List.getElem?_eq_some_iff.mp hR).1
    have hg : sheets[i]? = some sheets[i] := by simp [hlt]
    obtain ⟨R', vs, f, off, x, h1, h2, h3⟩ := e4 i sheets[i] hg
    rw [hR] at h1
    obtain rfl := Option.some.inj h1
    have hm : sheets[i] ∈ sheets := List.getElem_mem hlt
    obtain ⟨r1, r2, r3⟩ := hok.ready _ hm
    obtain ⟨d, d1, d2⟩ := draw_read hA r hf (by rw [← mapM_length hp.labels]; exact hp.few) hp.labels hx (hp.cells i _ hg) r1 r2 r3 (hok.notes _ hm) h2 h3
    exact ⟨d, d1, _, hg, d2⟩
  obtain ⟨L, l1, l2, l3⟩ := mapM_zip (f := fun R => drawingOf (Page.logical R))
    (Q := fun i d => ∃ sh, sheets[i]? = some sh ∧ Drawn sh.1.index sh.2.spid sh.1.notes.length d) (D.bounds.map (·.name)) Rs 0
    (by rw [List.length_map, hok.count, e2]) hread
  refine ⟨L, ?_, by rw [l2, e2], fun i P hi => by have := l3 i P hi; rwa [Nat.zero_add] at this⟩
  unfold openDrawings
  rw [e3 h32, Option.bind_some, l1]

/-- As many comments as a reader finds. -/
theorem notes_length {acts : List Act} {D : Sheet.Data (Nat × Val) Note.Note} (h : Page.After acts D) {P : Page.Page} (hP : Page.Asked acts P) :
    P.comments.length = D.notes.length := by
  have hn : (D.notes.map fun n => (⟨n.row.toNat, n.col.toNat, n.author, n.full⟩ : Page.Comment)).Pairwise
      fun a b => a.row < b.row ∨ a.row = b.row ∧ a.col < b.col := by
    rw [List.pairwise_map]
    refine h.noteOrder.imp fun {a b} hab => ?_
    rw [klt_iff] at hab
    exact hab
  have hmem : ∀ c : Page.Comment, c ∈ P.comments ↔ c ∈ D.notes.map fun n => (⟨n.row.toNat, n.col.toNat, n.author, n.full⟩ : Page.Comment) := by
    intro ⟨r, c, a, s⟩
    rw [hP.comments, List.mem_map]
    constructor
    · rintro ⟨t, ht, rfl⟩
      obtain ⟨n, hn, rfl, rfl, rfl, rfl⟩ := h.noteAll r c a t ht
      exact ⟨n, hn, rfl⟩
    · rintro ⟨n, hn, e⟩
      simp only [Page.Comment.mk.injEq] at e
      obtain ⟨rfl, rfl, rfl, rfl⟩ := e
      exact ⟨n.text, h.notes n hn, rfl⟩
  have nd : ∀ {l : List Page.Comment}, l.Pairwise (fun a b => a.row < b.row ∨ a.row = b.row ∧ a.col < b.col) → l.Nodup :=
    fun h => h.imp fun {a b} hab e => by subst e; omega
  have h1 := (nd hP.commentOrder).length_le_of_subset fun c hc => (hmem c).mp hc
  have h2 := (nd hn).length_le_of_subset fun c hc => (hmem c).mpr hc
  rw [List.length_map] at h1 h2
  omega

/-! ### How many comments -/

theorem latest_some {β γ : Type} {f : β → Option γ} {l : List β} {a : β} {x : γ} (hm : a ∈ l) (h : f a = some x) : ∃ y, latest f l = some y := by
  induction l using Sheet.snoc_induction with
  | h0 => cases hm
  | h1 l b ih =>
    rw [Page.latest_snoc]
    cases hb : f b with
    | some y => exact ⟨y, rfl⟩
    | none =>
      rcases List.mem_append.mp hm with h' | h'
      · exact ih h'
      · rw [List.mem_singleton] at h'
        subst h'
        rw [h] at hb
        cases hb

theorem remarks_acts (i : Nat) (p : Nat × Nat) (calls : List Call) :
    p ∈ calls.filterMap (remarkAt i) ↔ ∃ x, latest (Act.remark p.1 p.2) ((calls.filterMap Call.inner).filterMap (Prog.onSheet i)) = some x := by
  constructor
  · intro h
    obtain ⟨c, hc, he⟩ := List.mem_filterMap.mp h
    cases c with
    | on d =>
      cases d with
      | look k => cases he
      | page j a =>
        cases a with
        | comment r c' au t =>
          simp only [remarkAt] at he
          split at he
          · rename_i hj
            subst hj
            obtain rfl := Option.some.inj he
            refine latest_some (a := .comment r c' au t) (x := (Page.signed au, Page.worded t)) (List.mem_filterMap.mpr ⟨.page j (.comment r c' au t), List.mem_filterMap.mpr ⟨_, hc, rfl⟩, ?_⟩) ?_
            · simp [Prog.onSheet]
            · simp [Act.remark]
          · cases he
        | _ => cases he
    | _ => cases he
  · rintro ⟨x, hx⟩
    obtain ⟨a, ha, he⟩ := Page.latest_mem hx
    obtain ⟨d, hd, hda⟩ := List.mem_filterMap.mp ha
    obtain ⟨c, hc, hcd⟩ := List.mem_filterMap.mp hd
    cases c with
    | on d' =>
      obtain rfl := Option.some.inj hcd
      cases d' with
      | look k => cases hda
      | page j a' =>
        simp only [Prog.onSheet] at hda
        split at hda
        · rename_i hj
          obtain rfl := Option.some.inj hda
          cases a' with
          | comment r c' au t =>
            simp only [Act.remark] at he
            split at he
            · rename_i hp
              refine List.mem_filterMap.mpr ⟨_, hc, ?_⟩
              simp only [remarkAt]
              rw [if_pos hj]
              exact congrArg some (Prod.ext hp.1 hp.2)
            · cases he
          | _ => cases he
        · cases hda
    | _ => cases hcd

theorem remarks_of {α : Type} {i : Nat} {calls : List Call} {D : Sheet.Data α Note.Note}
    (h : Page.After ((calls.filterMap Call.inner).filterMap (Prog.onSheet i)) D) : Remarks i calls D.notes.length := by
  refine ⟨D.notes.map fun n => (n.row.toNat, n.col.toNat), ?_, fun p => ?_, by simp⟩
  · unfold List.Nodup
    rw [List.pairwise_map]
    refine h.noteOrder.imp fun {a b} hab => ?_
    rw [klt_iff] at hab
    intro e
    simp only [Prod.mk.injEq] at e
    simp only [Page.noteKey] at hab
    omega
  · rw [remarks_acts, List.mem_map]
    constructor
    · rintro ⟨y, hy, rfl⟩
      exact ⟨_, h.notes y hy⟩
    · rintro ⟨⟨a, t⟩, hx⟩
      obtain ⟨y, hy, e1, e2, -⟩ := h.noteAll _ _ _ _ hx
      exact ⟨y, hy, Prod.ext e1 e2⟩

theorem remarks_unique {i n m : Nat} {calls : List Call} (h1 : Remarks i calls n) (h2 : Remarks i calls m) : n = m := by
  obtain ⟨l, a1, a2, rfl⟩ := h1
  obtain ⟨k, b1, b2, rfl⟩ := h2
  exact ((List.perm_ext_iff_of_nodup a1 b1).mpr fun p => (a2 p).trans (b2 p).symm).length_eq

theorem remarks_le {i n : Nat} {calls : List Call} (h : Remarks i calls n) : n ≤ calls.countP (Call.isRemark i) := by
  obtain ⟨l, a1, a2, rfl⟩ := h
  refine Nat.le_trans (a1.length_le_of_subset fun p hp => (a2 p).mp hp) ?_
  rw [List.length_filterMap_eq_countP]
  refine List.countP_mono_left fun c _ hc => ?_
  cases c with
  | on d =>
    cases d with
    | look k => cases hc
    | page j a =>
      cases a with
      | comment r c' au t =>
        simp only [remarkAt] at hc
        split at hc
        · rename_i e; simp [Call.isRemark, e]
        · cases hc
      | _ => cases hc
  | _ => cases hc

end Xls.Desk
