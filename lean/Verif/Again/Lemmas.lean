import Verif.Again.Spec
/-
Helper lemmas for C66: what a save leaves, and on what its stream depends.
-/
namespace Xls.Again
open Xls.Biff Xls.Book Xls.Cells Xls.Save Xls.Whole
open Xls.Desk (Call names globals dataOf Remarks remarkAt)
open Xls.Page (Act latest applyAll new)

/-! ### What a save leaves -/

theorem left_after {α : Type} {cd : Cell α → Bytes} {cs : Cell α → Nat} {D : Globals.Data} {gs : Globals.St}
    {sheets : List (Sheet.Data α Note.Note × Sheet.St α)} {s s' : Book.St (Globals.Data × Globals.St) (Sheet.Data α Note.Note × Sheet.St α)}
    {us : List U} {fuel : Nat} (hok : Saveable cd D gs sheets) (hs : Book.start (D, gs) sheets s)
    (h : Book.run Globals.next (Sheet.next (Note.env cd cs)) fuel s = .done us s') :
    s'.phase = .init ∧ s'.g.2.phase = .init ∧ s'.sheets.length = sheets.length ∧
      ∀ (i : Nat) sh, s'.sheets[i]? = some sh → ∃ sh0, sheets[i]? = some sh0 ∧ sh.1 = sh0.1 ∧ Sheet.Ready sh0.1 sh.2 ∧
        sh.2.spid = Sheet.spidEnd sh0.2.spid 0 sh0.1.notes := by
  obtain ⟨bs, G, Rs, gus, uss, offs, A, B, P, hp, gs', hg, hgi⟩ := saved_parts hok hs h
  obtain ⟨hu, hv, ho, hst, hoff⟩ := sheetsTrace_parts P.sheetsTrace
  refine ⟨hp, by rw [hg]; exact hgi, hv, fun i sh hi => ?_⟩
  have hlt : i < uss.length := by rw [hu, ← hv]; exact (List.getElem?_eq_some_iff.mp hi).1
  obtain ⟨sh0, sh', o, wl, h1, h2, -, h4⟩ := hst i uss[i] (by simp [hlt])
  rw [hi] at h2
  obtain rfl := Option.some.inj h2
  obtain ⟨f, hd⟩ := h4.drain
  obtain ⟨r1, r2, r3⟩ := hok.ready _ (List.mem_of_getElem? h1)
  obtain ⟨-, -, -, k1, k2, k3⟩ := Sheet.drain_done r1 r2 r3 hd
  exact ⟨sh0, h1, k1, k2, k3⟩

/-! ### On what the stream depends -/

theorem same_sheets {α : Type} {cd : Cell α → Bytes} {cs : Cell α → Nat} {l1 l1' : List (Sheet.Data α Note.Note × Sheet.St α)} {off : Nat} {uss1 : List (List U)} {offs1 : List Nat}
    (h1 : SheetsTrace (Sheet.next (Note.env cd cs)) off l1 uss1 l1' offs1) :
    ∀ {l2 l2' : List (Sheet.Data α Note.Note × Sheet.St α)} {uss2 : List (List U)} {offs2 : List Nat},
    SheetsTrace (Sheet.next (Note.env cd cs)) off l2 uss2 l2' offs2 →
    (∀ x ∈ l1, Sheet.Ready x.1 x.2 ∧ x.1.cells.length < 2 ^ 32 ∧ x.1.notes.length ≤ 65535) →
    (∀ x ∈ l2, Sheet.Ready x.1 x.2 ∧ x.1.cells.length < 2 ^ 32 ∧ x.1.notes.length ≤ 65535) →
    l1.map (fun x => (x.1, x.2.spid)) = l2.map (fun x => (x.1, x.2.spid)) → uss1 = uss2 ∧ offs1 = offs2 := by
  induction h1 with
  | nil =>
    intro l2 l2' uss2 offs2 h2 _ _ he
    cases h2 with
    | nil => exact ⟨rfl, rfl⟩
    | cons => simp at he
  | @cons off sh us wl sh' rest uss rest' offs ht _ ih =>
    intro l2 l2' uss2 offs2 h2 hr1 hr2 he
    cases h2 with
    | nil => simp at he
    | @cons _ sh2 us2 wl2 sh2' rest2 uss2 rest2' offs2 ht2 hs2 =>
      simp only [List.map_cons, List.cons.injEq, Prod.mk.injEq] at he
      obtain ⟨⟨e1, e2⟩, e3⟩ := he
      obtain ⟨f, hd⟩ := ht.drain
      obtain ⟨f2, hd2⟩ := ht2.drain
      obtain ⟨a1, a2, a3⟩ := hr1 sh (by simp)
      obtain ⟨b1, b2, b3⟩ := hr2 sh2 (by simp)
      obtain ⟨bs, k1, k2, -⟩ := Sheet.drain_done a1 a2 a3 hd
      obtain ⟨bs2, m1, m2, -⟩ := Sheet.drain_done b1 b2 b3 hd2
      rw [← e1, k1] at m1
      obtain rfl := Option.some.inj m1
      rw [← e1, ← e2, ← k2] at m2
      subst m2
      have hw : wl2 = wl := by rw [ht.wl, ht2.wl]
      subst hw
      obtain ⟨i1, i2⟩ := ih hs2 (fun x hx => hr1 x (List.mem_cons_of_mem _ hx)) (fun x hx => hr2 x (List.mem_cons_of_mem _ hx)) e3
      rw [i1, i2]
      exact ⟨rfl, rfl⟩

/-- The stream depends on the data and on the shape counters only. -/
theorem same_stream {α : Type} {cd : Cell α → Bytes} {cs : Cell α → Nat} {D : Globals.Data} {gs1 gs2 : Globals.St}
    {l1 l2 : List (Sheet.Data α Note.Note × Sheet.St α)} {s1 s1' s2 s2' : Book.St (Globals.Data × Globals.St) (Sheet.Data α Note.Note × Sheet.St α)}
    {us1 us2 : List U} {f1 f2 : Nat} (hok1 : Saveable cd D gs1 l1) (hs1 : Book.start (D, gs1) l1 s1)
    (h1 : Book.run Globals.next (Sheet.next (Note.env cd cs)) f1 s1 = .done us1 s1')
    (hok2 : Saveable cd D gs2 l2) (hs2 : Book.start (D, gs2) l2 s2)
    (h2 : Book.run Globals.next (Sheet.next (Note.env cd cs)) f2 s2 = .done us2 s2')
    (he : l1.map (fun x => (x.1, x.2.spid)) = l2.map (fun x => (x.1, x.2.spid))) : us1 = us2 ∧ s1'.bpos = s2'.bpos := by
  obtain ⟨gus, g', uss, sheets', offs, a1, a2, a3, -, a5⟩ := dump_inv hs1 h1 hok1.some hok1.few
  obtain ⟨gus2, g2', uss2, sheets2', offs2, b1, b2, b3, -, b5⟩ := dump_inv hs2 h2 hok2.some hok2.few
  obtain ⟨g, hg, -⟩ := group_some D
  obtain ⟨t, ht⟩ := Globals.sst_some D
  obtain ⟨_, t1, -⟩ := Globals.trace_units hg ht hok1.fonts hok1.xfs hok1.phase
  obtain ⟨_, t2, -⟩ := Globals.trace_units hg ht hok2.fonts hok2.xfs hok2.phase
  obtain ⟨e1, -⟩ := a1.det t1
  obtain ⟨e2, -⟩ := b1.det t2
  rw [← e2] at e1
  subst e1
  obtain ⟨e3, e4⟩ := same_sheets a2 b2 hok1.ready hok2.ready he
  subst e3 e4
  exact ⟨a3.trans b3.symm, a5.trans b5.symm⟩

/-! ### Parts of a program -/

theorem along_append {P : Prog.State → Prog.Asked → Prog.Call → Prop} (l r : List Prog.Call) {s : Prog.State} {A : Prog.Asked} (h : Prog.Along P s A (l ++ r)) :
    Prog.Along P s A l := by
  induction l generalizing s A with
  | nil => trivial
  | cons c l ih =>
    obtain ⟨h1, h2, h3⟩ := h
    exact ⟨h1, h2, fun t ht => ih (h3 t ht)⟩

theorem fine_left {p0 : Prog.State} {l r : List Call} (h : Prog.Fine p0 Prog.nothing ((l ++ r).filterMap Call.inner)) :
    Prog.Fine p0 Prog.nothing (l.filterMap Call.inner) := by
  rw [List.filterMap_append] at h
  exact along_append _ _ h

theorem possible_left {l r : List Call} (h : Desk.Possible 0 (l ++ r)) : Desk.Possible 0 l := ((Desk.possible_append _ _ _).mp h).1

end Xls.Again
