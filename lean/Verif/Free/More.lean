import Verif.Free.Props
/-
C77 says something of every program of which C71 does.
-/
namespace Xls.Free
open Xls.Whole Xls.Cells
open Xls.Mirror (Able Live Meant Sane)

theorem able_of_ok {s : Prog.State} {A : Prog.Asked} (G : Prog.Good s A) {c : Prog.Call} (ok : Prog.Ok s A c) : Able s A c ∧ Own c := by
  obtain ⟨B, G', hB⟩ := G.look
  have font : ∀ p, (∃ h, A.look.looks.fonts p = some h) → p < s.look.styles.fonts.length := by
    rintro p ⟨h, hp⟩
    rw [← hB.fonts] at hp
    exact (G'.styles.mine hp).2
  have format : ∀ q, (∃ l, A.look.looks.formats q = some l) → 21 ≤ q ∧ q < s.look.styles.xfs.length := by
    rintro q ⟨l, hl⟩
    rw [← hB.formats] at hl
    obtain ⟨h1, x, h2, -⟩ := G'.styles.rel.formats q l hl
    rw [← Styles.xv_len]
    exact ⟨h1, (List.getElem?_eq_some_iff.mp h2).1⟩
  have cell : ∀ c, (∃ l, A.look.looks.cells c = some l) → Live s.look.styles c ∧ ∀ k, s.held k ≠ some c := by
    rintro c ⟨l, hl⟩
    obtain ⟨h1, h2⟩ := hB.cell hl
    obtain ⟨q, e, h3, -⟩ := G'.styles.cell h2
    exact ⟨⟨q, h3⟩, h1⟩
  have call : ∀ o, Styles.CallOk A.look.looks o → Meant s.look.styles o := fun o ho => ⟨ho.1, fun p hp => font p (ho.2 p hp)⟩
  cases c with
  | page i a => exact ⟨fun k q h => (format q (ok.1 k q h).1).2, trivial⟩
  | look c =>
    have ok := ok.1
    cases c with
    | put i row col v q =>
      refine ⟨?_, trivial⟩
      rintro r rfl
      have ok : Styles.Ok _ _ (.newCell (some r)) := ok
      exact (format r ok.1).2
    | format code => exact ⟨ok, trivial⟩
    | style a =>
      have hd := ok.2
      have ok := ok.1
      have sane : Sane s.look.styles a := by
        cases a with
        | newFont n => exact ok
        | stockFont n => exact ok
        | copyFont p => exact font p ok
        | copyXf q => exact (format q ok).2
        | font p o => exact ⟨font p ok.1, ok.2⟩
        | newXf => trivial
        | xf q o => exact ⟨(format q ok.1).2, call o ok.2.1⟩
        | newCell q =>
          rintro r rfl
          exact (format r ok.1).2
        | destroy c => exact (cell c ok).1
        | setXf c q => exact ⟨(cell c ok.1).1, (format q ok.2.1).2⟩
        | adopt c p ops =>
          obtain ⟨h1, -, -, q, e, ep, -, -, h2, -⟩ := ok
          exact ⟨(cell c h1).1, (List.getElem?_eq_some_iff.mp h2).1⟩
        | cell c o => exact ⟨(cell c ok.1).1, call o ok.2⟩
        | cellFont c o => exact ⟨(cell c ok.1).1, ok.2⟩
      refine ⟨⟨sane, ?_⟩, ?_⟩
      · rintro c rfl
        exact ⟨hd c rfl, (cell c ok).2⟩
      · cases a with
        | xf q o => exact (format q ok.1).1
        | _ => trivial

theorem can_of_ok {s : Desk.State} {A : Prog.Asked} (G : Prog.Good s.prog A) {c : Area.Call} (ok : Area.Ok s A c) : Can s A c := by
  cases c with
  | desk c =>
    cases c with
    | on c => exact (able_of_ok G ok).1
    | _ => trivial
  | range i r o =>
    obtain ⟨h1, h2, h3, -⟩ := ok
    refine ⟨h1, h2, ?_⟩
    obtain ⟨B, G', hB⟩ := G.look
    cases o with
    | call o =>
      refine ⟨h3.1, fun p hp => ?_⟩
      obtain ⟨h, hh⟩ := h3.2 p hp
      rw [← hB.fonts] at hh
      exact (G'.styles.mine hh).2
    | font o => exact h3
    | color n => exact h3
    | box b => exact h3

/-- Every program that meets the conditions of C68, C70 and C71 hands over existing objects only, so that C77 says something of it, too: what a reader finds
    is then both what the calls asked for and what the getters answer. -/
theorem allCan_of_fine {s : Desk.State} {A : Prog.Asked} (G : Prog.Good s.prog A) {P : List Area.Call} (h : Area.Fine s A P) : AllCan s A P := by
  induction P generalizing s A with
  | nil => trivial
  | cons c P ih =>
    obtain ⟨f1, f2, f3⟩ := h
    refine ⟨can_of_ok G f1, fun t ht => ih ?_ (f3 t ht)⟩
    cases c with
    | desk c =>
      cases c with
      | on d =>
        obtain ⟨p, p1, p2⟩ := Prog.sim G d f1 f2
        have ht : Desk.step s (.on d) = some t := ht
        unfold Desk.step at ht
        split at ht
        · obtain ⟨w, -, ht⟩ := Option.bind_eq_some_iff.mp ht
          simp only [p1, Option.map_some, Option.some.injEq] at ht
          subst ht
          exact p2
        · cases ht
      | _ =>
        have ht := ht
        simp only [Area.step] at ht
        unfold Desk.step at ht
        split at ht
        · obtain ⟨w, -, ht⟩ := Option.bind_eq_some_iff.mp ht
          simp only [Option.map_some, Option.some.injEq] at ht
          subst ht
          exact G
        · cases ht
    | range i r o =>
      obtain ⟨g1, g2, g3, g4⟩ := f1
      simp only [Area.step] at ht
      split at ht
      · rename_i hi
        obtain ⟨u, l, h1, h2, -⟩ := Area.range_plain G i hi r g1 g2 o g3 g4
        rw [h1] at ht
        cases Option.some.inj ht
        exact h2.good
      · cases ht

theorem c77_wider {p0 : Prog.State} (h0 : Prog.init = some p0) {time : Nat} {pkg : Bytes} {c : List Live.Call × List (Nat × Bytes)}
    (h : Life.Within p0 time pkg c) (hf : ∀ s, Live.steps ⟨Desk.start p0, []⟩ c.1 = some s → s.desk.prog.look.styles.fonts.length ≤ 65535) : Within p0 time pkg c :=
  ⟨allCan_of_fine (Area.begin_good h0) h.fine, h.modest, fun s hs => ⟨h.formats s hs, hf s hs⟩, h.room⟩

/-- The first save of the history of C71. -/
example {p0 : Prog.State} (h0 : Prog.init = some p0) : Within p0 1700000000 [120] (Life.early, [(9, [82, 101])]) := by
  refine c77_wider h0 (Life.within_of h0 (by simp [Life.early, Live.Possible]) (by decide) (fun i => rfl) (by decide +kernel) (by decide +kernel)
    (by decide +kernel)) fun s hs => ?_
  have h : ((Prog.init.bind fun p => Live.steps ⟨Desk.start p, []⟩ Life.early).map fun s => decide (s.desk.prog.look.styles.fonts.length ≤ 65535)) = some true := by
    decide +kernel
  rw [h0, Option.bind_some, hs] at h
  simpa using h

end Xls.Free
