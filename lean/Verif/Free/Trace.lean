import Verif.Free.Props
import Verif.Life.Index
/-
C77, without comments: what earlier saves leave behind.
-/
namespace Xls.Free
open Xls.Biff Xls.Cells Xls.Whole
open Xls.Desk (Remarks)
open Xls.Live (plain)
open Xls.Life (Output Event calls saves sheetNames frame names_plain all_saves trace_of remarks Tidy Settled start_tidy units_rel All2 quiet)

/-- C77, without comments, and unless a formula is changed that was in a cell when the workbook was saved: earlier saves leave no trace, whatever is done with
    formats and fonts between them. -/
theorem c77_no_trace {ar : Nat → Option Nat} (hA : Formula.KnowsArity ar) (evs : List Event) (p0 : Prog.State) (h0 : Prog.init = some p0)
    (time : Nat) (htime : time ≤ 1000000000000) (pkg : Bytes) (hp : Live.Possible 0 0 (calls evs))
    (hf : AllCan (Desk.start p0) Prog.nothing (plain (calls evs))) (hw : ∀ c ∈ saves [] [] evs, Within p0 time pkg c) (cs : WCell → Nat)
    (hn1 : (sheetNames (calls evs)).length ≤ 1000) (hn2 : ∀ n ∈ sheetNames (calls evs), n.length < 256) (hc : ∀ i, remarks i (calls evs) = [])
    (hS : Settled [] [] evs) :
    ∃ (s0 : Life.State) (N : Nat) (os : List Output) (s : Life.State), Life.init time pkg = some s0 ∧ (∀ fuel, N ≤ fuel → Life.run cs fuel s0 evs = some (os, s)) ∧
      os.length = (saves [] [] evs).length ∧
      (∀ (k : Nat) c o, (saves [] [] evs)[k]? = some c → os[k]? = some o →
        ∃ l0 l fuel, Live.init = some l0 ∧ Live.steps l0 c.1 = some l ∧ Live.units cs fuel l = some o.wb) ∧
      ∀ (j k : Nat) c d o q, (saves [] [] evs)[j]? = some c → (saves [] [] evs)[k]? = some d → c.1 = d.1 → os[j]? = some o → os[k]? = some q → o.wb = q.wb := by
  obtain ⟨r0, -, hr0, -⟩ := Hpsf.c32_read_back time htime pkg []
  have hu : ∃ u, Live.steps ⟨Desk.start p0, []⟩ (calls evs) = some u := by
    obtain ⟨ds, t, h, -⟩ := from_start (plain (calls evs)) p0 h0 (Live.possible_area _ _ 0 0 hp) hf (by
      rw [names_plain (calls evs)]
      exact hn1)
    obtain ⟨u, h1, -⟩ := Live.arrives h0 hp h.run
    exact ⟨u, h1⟩
  obtain ⟨N, os, s, count, a1, a2, a3, a4, a5⟩ := all_saves htime hr0 cs (K := fun evs s => ∃ placed frozen, Tidy cs placed frozen s ∧ Settled placed frozen evs)
    (fun e r s fuel o t hK h => by
      obtain ⟨placed, frozen, T, S⟩ := hK
      exact T.step S h)
    (V := fun c o first next => (∀ i, ∃ n, Remarks i (frame c.1) n ∧ next i = if n = 0 then first i else (first i + n + 1) % 2 ^ 32) ∧
      ((∀ i, first i = 0) → ∃ s fuel, Live.steps ⟨Desk.start p0, []⟩ c.1 = some s ∧ Live.units cs fuel s = some o.wb))
    (fun before props first s ix hK p1 p2 p3 p4 p5 H => by
      obtain ⟨r, placed, frozen, T, -⟩ := hK
      obtain ⟨N, o, s', next, x1, x2, x3⟩ := one_save hA h0 htime hr0 p1 p2 cs p3 p4 p5 H ix
      refine ⟨N, o, s', next, x1, x2, x3.counts, fun hz => ?_⟩
      obtain ⟨l, fuel, y1, y2⟩ := x3.fresh hz
      refine ⟨l, fuel, y1, ?_⟩
      have : l = s.live := Option.some.inj (y1.symm.trans H.live)
      subst this
      rw [← T.units]
      exact y2) evs [] [] (fun _ => 0) ⟨⟨Desk.start p0, []⟩, r0, none, fun _ => none⟩
    ⟨rfl, rfl, (fun p h => by cases h), fun _ _ => rfl⟩ ⟨[], [], start_tidy h0 cs r0, hS⟩ hp hu hw hn1 hn2
  obtain ⟨b1, b2⟩ := trace_of h0 hc a3 (fun i => by rw [a4]) a5
  refine ⟨⟨⟨Desk.start p0, []⟩, r0, none, fun _ => none⟩, N, os, s, ?_, a1, a3, b1, b2⟩
  rw [Life.init, Live.init, Desk.init, h0, Option.map_some, Option.map_some, Option.bind_some, hr0]
  rfl

/-- Without comments, whatever is saved and changed before, a save writes the workbook stream that a workbook with the same calls writes when it is saved for
    the first time, but for INDEX records (and their continuations) of the same length. -/
theorem c77_index_only {ar : Nat → Option Nat} (hA : Formula.KnowsArity ar) (evs : List Event) (p0 : Prog.State) (h0 : Prog.init = some p0)
    (time : Nat) (htime : time ≤ 1000000000000) (pkg : Bytes) (hp : Live.Possible 0 0 (calls evs))
    (hf : AllCan (Desk.start p0) Prog.nothing (plain (calls evs))) (hw : ∀ c ∈ saves [] [] evs, Within p0 time pkg c) (cs : WCell → Nat)
    (hn1 : (sheetNames (calls evs)).length ≤ 1000) (hn2 : ∀ n ∈ sheetNames (calls evs), n.length < 256) (hc : ∀ i, remarks i (calls evs) = []) :
    ∃ (s0 : Life.State) (N : Nat) (os : List Output) (s : Life.State), Life.init time pkg = some s0 ∧ (∀ fuel, N ≤ fuel → Life.run cs fuel s0 evs = some (os, s)) ∧
      os.length = (saves [] [] evs).length ∧
      ∀ (k : Nat) c o, (saves [] [] evs)[k]? = some c → os[k]? = some o →
        ∃ l0 l fuel w, Live.init = some l0 ∧ Live.steps l0 c.1 = some l ∧ Live.units cs fuel l = some w ∧ w.length = o.wb.length ∧
          ∀ (n : Nat) a b, w[n]? = some a → o.wb[n]? = some b →
            a = b ∨ (a.take 4 = b.take 4 ∧ a.length = b.length ∧ (a.take 2 = leN 2 0x20B ∨ a.take 2 = leN 2 0x3C)) := by
  obtain ⟨s0, N, os, s, count, a1, a2, -, a3, a4, a5⟩ := c77_life_partial hA evs p0 h0 time htime pkg hp hf hw cs hn1 hn2
  refine ⟨s0, N, os, s, a1, a2, a3, fun k c o h1 h2 => ?_⟩
  have hz := quiet hc a3 a4 (fun k c o h1 h2 => (a5 k c o h1 h2).elim fun _ h => h.counts) k (Nat.le_of_lt (List.getElem?_eq_some_iff.mp h2).1)
  obtain ⟨sz, hs⟩ := a5 k c o h1 h2
  obtain ⟨l, fuel, y1, y2⟩ := hs.fresh hz
  obtain ⟨w, w1, w2⟩ := units_rel (cs' := cs) y2
  have w3 : All2 Life.Like w o.wb := w2.symm fun a b h => Life.Like.symm h
  exact ⟨_, l, fuel, w, by rw [Live.init, Desk.init, h0]; rfl, y1, w1, w3.length, fun n a b => w3.get n a b⟩

end Xls.Free
