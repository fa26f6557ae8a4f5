import Verif.Bridge.Props
import Verif.Free.Props
/-
C72 for programs that share, change and take again formats and fonts at will (C77).
-/
namespace Xls.Bridge
open Xls.Biff Xls.Whole Xls.Cells
open Xls.Life (calls sheetNames saves)
open Xls.Live (plain)

/-- C72 without conditions on what a program does with its formats and fonts: a C program that only hands over existing objects runs without undefined
    behaviour, and every file it saves is complete and read back as C77 says – every font, format and cell as their getters answer at that moment, and
    everything else as the calls before ask for – with every text being the Unicode text that the program meant.
    Missing for the full claim: texts that cannot be stored (C56) or have a zero in them (`c72_cut`), NULL where a text is needed (`c72_null`), and what is
    missing in `c77_life_partial`. -/
theorem c72_free_partial {ar : Nat → Option Nat} (hA : Formula.KnowsArity ar) {b : Build} (hb : b.Sound) (m : Reading) (P : List Call)
    (ht : ∀ c ∈ P, c.Texts b m) (hpl : Placed [] P) (p0 : Prog.State) (h0 : Prog.init = some p0)
    (time : Nat) (htime : time ≤ 1000000000000) (pkg : Bytes) (evs : List Life.Event) (hevs : evs = P.map (Call.means m))
    (hp : Live.Possible 0 0 (calls evs))
    (hf : Free.AllCan (Desk.start p0) Prog.nothing (plain (calls evs))) (hw : ∀ c ∈ saves [] [] evs, Free.Within p0 time pkg c) (cs : WCell → Nat)
    (hn1 : (sheetNames (calls evs)).length ≤ 1000) (hn2 : ∀ n ∈ sheetNames (calls evs), n.length < 256) :
    ∃ (s0 : Life.State) (N : Nat) (os : List Life.Output) (s : Life.State) (count : Nat → Nat → Nat), Life.init time pkg = some s0 ∧
      (∀ fuel, N ≤ fuel → run b cs fuel s0 P = some (os, s)) ∧
      os.length = (saves [] [] evs).length ∧ (∀ i, count 0 i = 0) ∧
      ∀ (k : Nat) c o, (saves [] [] evs)[k]? = some c → os[k]? = some o → ∃ sz, Free.Saved ar sz p0 time pkg c o (count k) (count (k + 1)) := by
  obtain ⟨s0, N, os, s, count, a1, a2, -, a3, a4, a5⟩ := Free.c77_life_partial hA evs p0 h0 time htime pkg hp hf hw cs hn1 hn2
  refine ⟨s0, N, os, s, count, a1, fun fuel hfu => ?_, a3, a4, a5⟩
  rw [run_means hb cs fuel P [] s0 (init_known a1) ht hpl (fun p h => by obtain ⟨d, h, -⟩ := h; cases h), ← hevs]
  exact a2 fuel hfu

/-! ### A program -/

/-- A sheet "A", a format 21 and 7 in a cell with it; a range of four cells gets a colour, by which three cells are made, and a formula refers to one of them;
    the format is changed while the cell has had it; a save. -/
def shared (ix : Nat → Nat → Nat) : List Call :=
  [.workbookSheet (.narrow (some [65, 0])), .workbookxFormat, .numberInt 0 0 0 7 (some 21), .rangeCellcolor 0 0 0 1 1 17, .formula 0,
   .push 0 (.cellReference ⟨0, 1, 1⟩ 0xC000), .formulaCell 0 2 0 0 (some 21), .xformat 21 (.halign 2), .workbookDump (some [120, 0]) true ix]

/-- What it means. -/
def sharedMeans : List Live.Call :=
  [.other (.desk (.sheet [65])), .other (.desk (.on (.look (.style .newXf)))), .other (.desk (.on (.look (.put 0 0 0 (.signed 7) (some 21))))),
   .other (.range 0 ⟨0, 0, 1, 1⟩ (.color 17)), .make 0, .push 0 (.ref 1 1 (some 0) 0xC000 64), .cell 0 2 0 false 0 (some 21),
   .other (.desk (.on (.look (.style (.xf 21 (.halign 2))))))]

theorem shared_means (ix : Nat → Nat → Nat) : (shared ix).map (Call.means asWritten) = sharedMeans.map .call ++ [.save true ix] := rfl

theorem shared_texts (ix : Nat → Nat → Nat) : ∀ c ∈ shared ix, c.Texts plainBuild asWritten := by
  intro c hc
  simp only [shared, List.mem_cons, List.not_mem_nil, or_false] at hc
  rcases hc with rfl | rfl | rfl | rfl | rfl | rfl | rfl | rfl | rfl
  · exact ⟨⟨by decide, [], rfl⟩, .inl (show ∀ c ∈ ['A'], c.val.toNat < 0x80 by decide)⟩
  · trivial
  · trivial
  · trivial
  · trivial
  · trivial
  · trivial
  · trivial
  · exact ⟨by decide, [], rfl⟩

/-- It meets all conditions. -/
example (ix : Nat → Nat → Nat) : ∃ p0 s0 N o s, Prog.init = some p0 ∧ Life.init 1700000000 [120] = some s0 ∧
    (∀ fuel, N ≤ fuel → run plainBuild (fun _ => 0) fuel s0 (shared ix) = some ([o], s)) ∧
    (Ole.dataSize o.wb + 8192 < 2 ^ 31 - 12288 → ∃ f, Ole.CompleteFile (Ole.workbookFiles o.wb [o.summary] [o.doc]) f ∧
      Life.Opens 1700000000 [120] [] (Free.Tells Formula.tableArity p0 (fun _ => 0) sharedMeans) f) := by
  obtain ⟨p0, h0, -⟩ := Prog.init_good
  have hp : Live.Possible 0 0 sharedMeans := by simp [sharedMeans, Live.Possible, Live.bare, Desk.target]
  have w : Free.Within p0 1700000000 [120] (sharedMeans, []) :=
    Free.within_of h0 hp (by decide) (fun i => rfl) (by decide +kernel) (by decide +kernel) (by decide +kernel)
  obtain ⟨s0, N, os, s, count, a1, a2, a3, a4, a5⟩ := c72_free_partial Formula.tableArity_knows plain_sound asWritten (shared ix) (shared_texts ix)
    (by simp [shared, Placed, Call.cells, Call.makes]) p0 h0 1700000000 (by decide) [120] _ (shared_means ix).symm hp w.can (by
      intro c h
      rw [List.mem_singleton.mp h]
      exact w) (fun _ => 0) (show 1 ≤ 1000 by decide) (show ∀ n ∈ sheetNames sharedMeans, n.length < 256 by decide)
  match os, a3 with
  | [o], _ =>
    obtain ⟨_, b1⟩ := a5 0 _ o rfl rfl
    refine ⟨p0, s0, N, o, s, h0, a1, a2, ?_⟩
    have hz : count 0 = fun _ => 0 := funext a4
    rw [hz] at b1
    exact b1.file

end Xls.Bridge
