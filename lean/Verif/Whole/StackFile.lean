import Verif.Formula.StackProps
import Verif.Whole.File
/-
C63 in the saved file: a cell with a formula built call by call.
-/
namespace Xls.Whole
open Xls.Biff Xls.Cells Xls.Book Xls.Save Xls.Formula

/-- A formula found in a cell is the one that the calls asked for, and no formula if they asked for none.  The cell is on sheet `i`, for
    which the formula was made (`formula_data`). -/
def Asked (ar : Nat → Option Nat) (i : Nat) (array : Bool) (cs : List Formula.Call) (c : Content) : Prop :=
  ∃ tok, c = .formula array tok ∧ match formulaOf ar cs with
    | some e => ∃ t, parse ar tok = some t ∧ Means (some i) e t
    | none => parse ar tok = none

/-- What is read in a cell is what was written, formulas built call by call included. -/
def BuiltBack (ar : Nat → Option Nat) (i : Nat) (v : Val) (c : Content) : Prop :=
  Holds ar i v c ∧ ∀ array cs, (∀ x ∈ cs, Fit x) → (∀ b ∈ (Stack.pushes (some i) {} cs).2, b = false) →
    v = .tokens array (Stack.pushes (some i) {} cs).1.bytes → Asked ar i array cs c

theorem builtBack {ar : Nat → Option Nat} (hA : KnowsArity ar) {i : Nat} {v : Val} {c : Content} (h : Holds ar i v c) : BuiltBack ar i v c := by
  refine ⟨h, ?_⟩
  rintro array cs hf hok rfl
  exact ⟨_, h, c63_calls_partial hA (some i) cs hf hok⟩

/-- C63 for any save: each sheet of the workbook stream gives back the cells that survive, and in those whose formula was built call by
    call the formula asked for.  Missing for the full claim: as in `c63_calls_partial`, and what C55 lacks. -/
theorem c63_open_partial {ar : Nat → Option Nat} (hA : Formula.KnowsArity ar) (h : List (Nat × Cell Val)) (b : Book) (r : Reach h b)
    (hf : All Fine h) (xf : WCell → Nat) (hx : ∀ c, xf c < 65536) (cs : WCell → Nat) (D : Globals.Data) (gs : Globals.St)
    (sheets : List (Sheet.Data (Nat × Val) Note.Note × Sheet.St (Nat × Val)))
    (s s' : Book.St (Globals.Data × Globals.St) (Sheet.Data (Nat × Val) Note.Note × Sheet.St (Nat × Val)))
    (us : List U) (fuel : Nat) (hp : Pours b D sheets) (hok : Saveable (fun c => cellBytes b.labels (xf c) c) D gs sheets) (hs : start (D, gs) sheets s)
    (hrun : Book.run Globals.next (Sheet.next (Note.env (fun c => cellBytes b.labels (xf c) c) cs)) fuel s = .done us s')
    (hsm : SmallGlobals D) (hsh : ∀ sh ∈ sheets, SmallSheet (fun c => cellBytes b.labels (xf c) c) sh.1) :
    ∃ bs, stream us s'.bpos = some bs ∧ (bs.length < 2 ^ 32 → ∀ pad, ∃ L, openCells (bs ++ pad) = some ((D.bounds.map (·.name)).zip L) ∧
      L.length = sheets.length ∧ ∀ (i : Nat) xs, L[i]? = some xs → ReadsBack (BuiltBack ar) h xf i xs) := by
  obtain ⟨bs, e1, e2⟩ := c55_open_partial hA h b r hf xf hx cs D gs sheets s s' us fuel hp hok hs hrun hsm hsh
  refine ⟨bs, e1, fun h32 pad => ?_⟩
  obtain ⟨L, l1, l2, l3⟩ := e2 h32 pad
  exact ⟨L, l1, l2, fun i xs hi => (l3 i xs hi).mono fun row col c hw x hx => builtBack hA hx⟩

/-- C63 in the file, nothing assumed but the program. -/
theorem c63_plain {ar : Nat → Option Nat} (hA : Formula.KnowsArity ar) (h : List (Nat × Cell Val)) (hd : (h.map (·.2.id)).Nodup)
    (hf : All Fine h) (hlen : h.length < 2 ^ 32) (hrow : FewRows h) (xf : WCell → Nat) (hx : ∀ c, xf c < 65536) (cs : WCell → Nat)
    (names : List (List UInt16)) (hn0 : names ≠ []) (hn1 : names.length ≤ 1000) (hn2 : ∀ n ∈ names, n.length < 256) :
    ∃ b D fuel us s' bs, Reach h b ∧ Pours b D ((List.range names.length).map (plainSheet b)) ∧
      Book.run Globals.next (Sheet.next (Note.env (fun c => cellBytes b.labels (xf c) c) cs)) fuel
        (plainStart D ((List.range names.length).map (plainSheet b))) = .done us s' ∧
      stream us s'.bpos = some bs ∧ (bs.length < 2 ^ 32 → ∃ L, openCells bs = some (names.zip L) ∧ L.length = names.length ∧
        ∀ (i : Nat) xs, L[i]? = some xs → ReadsBack (BuiltBack ar) h xf i xs) := by
  obtain ⟨b, D, n, us, s', bs, r, hp, hrun, e1, e2⟩ := c55_plain hA h hd hf hlen hrow xf hx cs names hn0 hn1 hn2
  refine ⟨b, D, n, us, s', bs, r, hp, hrun, e1, fun h32 => ?_⟩
  obtain ⟨L, l1, l2, l3⟩ := e2 h32
  exact ⟨L, l1, l2, fun i xs hi => (l3 i xs hi).mono fun row col c hw x hx => builtBack hA hx⟩

/-- A program with the sample formula in two cells, one of them overwritten. -/
def stackHist : List (Nat × Cell Val) :=
  [(0, ⟨1, 0, 0, .signed 5⟩), (0, ⟨2, 3, 1, .tokens false (Stack.pushes (some 0) {} sampleCalls).1.bytes⟩),
   (0, ⟨3, 4, 1, .tokens false (Stack.pushes (some 0) {} sampleCalls).1.bytes⟩), (0, ⟨4, 4, 1, .bool true⟩)]

theorem stackHist_fine : All Fine stackHist := by
  intro i row col c hw
  unfold lastWrite at hw
  obtain ⟨p, hp, rfl⟩ := Option.map_eq_some_iff.mp hw
  obtain ⟨hm, he⟩ := List.mem_filter.mp (List.mem_of_getLast? hp)
  have hl : (Stack.pushes (some 0) {} sampleCalls).1.bytes.length ≤ 8179 := by decide +kernel
  simp only [stackHist, List.mem_cons, List.not_mem_nil, or_false] at hm
  rcases hm with rfl | rfl | rfl | rfl
  · exact ⟨by decide, by decide, by show _ ∧ _; decide⟩
  · exact ⟨by decide, by decide, hl⟩
  · exact ⟨by decide, by decide, hl⟩
  · exact ⟨by decide, by decide, trivial⟩

example : ∃ b D fuel us s' bs, Reach stackHist b ∧ Pours b D ((List.range 1).map (plainSheet b)) ∧
      Book.run Globals.next (Sheet.next (Note.env (fun c => cellBytes b.labels 15 c) fun _ => 0)) fuel
        (plainStart D ((List.range 1).map (plainSheet b))) = .done us s' ∧
      stream us s'.bpos = some bs ∧ (bs.length < 2 ^ 32 → ∃ xs x, openCells bs = some [([65], xs)] ∧ x ∈ xs ∧ x.row = 3 ∧ x.col = 1 ∧ x.xf = 15 ∧
        ∃ tok t, x.content = .formula false tok ∧ parse tableArity tok = some t ∧
          Means (some 0) (.func 1 0 [.bin 0x0D (.ref 0 0 (some 0) 0xC000 0x40) (.int 2), .func 448 0 (List.replicate 6 (.int 1)), .text [110, 111]]) t) := by
  obtain ⟨b, D, n, us, s', bs, r, hp, hrun, e1, e2⟩ := c63_plain tableArity_knows stackHist (by simp [stackHist]) stackHist_fine (by simp [stackHist])
    (fewRows_of <| by
        intro p hp
        simp only [stackHist, List.mem_cons, List.not_mem_nil, or_false] at hp
        rcases hp with rfl | rfl | rfl | rfl <;> simp)
    (fun _ => 15) (fun _ => by decide) (fun _ => 0) [[65]] (by decide) (by decide) (by decide)
  refine ⟨b, D, n, us, s', bs, r, hp, hrun, e1, fun h32 => ?_⟩
  obtain ⟨L, l1, l2, l3⟩ := e2 h32
  match L, l2 with
  | [xs], _ =>
    have h := (l3 0 xs rfl).2 3 1
    have hw : lastWrite stackHist 0 3 1 = some ⟨2, 3, 1, .tokens false (Stack.pushes (some 0) {} sampleCalls).1.bytes⟩ := by simp [lastWrite, stackHist]
    rw [hw] at h
    obtain ⟨x, hx, h1, h2, h3, -, h4⟩ := h
    obtain ⟨tok, h5, h6⟩ := h4 false sampleCalls sampleCalls_fit sampleCalls_ok rfl
    rw [sampleCalls_formula] at h6
    obtain ⟨t, h7, h8⟩ := h6
    exact ⟨xs, x, l1, hx, h1, h2, h3, tok, t, h5, h7, h8⟩

end Xls.Whole
