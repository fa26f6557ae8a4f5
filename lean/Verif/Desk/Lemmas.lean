import Verif.Desk.Spec
import Verif.Page.Calls
/-
The workbook after a program.
-/
namespace Xls.Desk
open Xls.Biff Xls.Book Xls.Cells
open Xls.Sheet (snoc_induction)
open Xls.Page (Act latest latest_snoc)

/-- The workbook when nothing was called, around the program state `p`. -/
def start (p : Prog.State) : State := ⟨p, .init, none, fun _ => {}⟩

theorem steps_append (s : State) (l r : List Call) : steps s (l ++ r) = (steps s l).bind fun t => steps t r := by
  induction l generalizing s with
  | nil => rfl
  | cons c l ih =>
    simp only [List.cons_append, steps]
    cases step s c with
    | none => rfl
    | some t => exact ih t

theorem prog_append (s : Prog.State) (l r : List Prog.Call) : Prog.steps s (l ++ r) = (Prog.steps s l).bind fun t => Prog.steps t r := by
  induction l generalizing s with
  | nil => rfl
  | cons c l ih =>
    simp only [List.cons_append, Prog.steps]
    cases Prog.step s c with
    | none => rfl
    | some t => exact ih t

theorem possible_append (n : Nat) (l r : List Call) : Possible n (l ++ r) ↔ Possible n l ∧ Possible (n + (names l).length) r := by
  induction l generalizing n with
  | nil => simp [Possible, names]
  | cons c l ih =>
    cases c with
    | sheet nm =>
      show Possible (n + 1) (l ++ r) ↔ Possible (n + 1) l ∧ _
      rw [ih (n + 1), show names (.sheet nm :: l) = nm :: names l from rfl, List.length_cons, show n + ((names l).length + 1) = n + 1 + (names l).length by omega]
    | _ =>
      show (_ ∧ Possible n (l ++ r)) ↔ (_ ∧ Possible n l) ∧ _
      rw [ih n, and_assoc]
      rfl

/-- What holds of the workbook after some calls. -/
structure Stands (calls : List Call) (s : State) : Prop where
  sheets : s.wb.sheets = List.range (names calls).length
  counter : s.wb.counter = (names calls).length % 65536
  bounds : s.wb.bounds = (names calls).zipIdx.map fun p => ⟨p.1, calls.countP (Call.isRemark p.2) % 65536⟩
  window : s.wb.window = ⟨((latest Call.at calls).getD (0, 0)).1, ((latest Call.at calls).getD (0, 0)).2, ((latest Call.extent calls).getD (715, 484)).1,
    ((latest Call.extent calls).getD (715, 484)).2, (latest Call.active calls).getD 0, (latest Call.tab calls).getD 0, min 1000 ((latest Call.ratio calls).getD 500)⟩
  colors : s.colors = (Palette.run none (calls.filterMap Call.colour)).1
  used : ∀ i, s.used i = (calls.filterMap (Call.spot i)).foldl (fun u p => u.extend p.1 p.2) {}
  /-- nothing was put on a sheet that is not there -/
  early : ∀ i, (names calls).length ≤ i → calls.countP (Call.isRemark i) = 0

theorem colors_snoc (c : Palette.Colors) (l : List Palette.Call) (k : Palette.Call) :
    (Palette.run c (l ++ [k])).1 = (Palette.setColor (Palette.run c l).1 k.r k.g k.b k.idx).1 := by
  induction l generalizing c with
  | nil => rfl
  | cons a r ih => rw [List.cons_append, Palette.run, Palette.run]; exact ih _

theorem bump_zip (i : Nat) : ∀ (l : List (List UInt16)) (k : Nat) (f : Nat → Nat), k ≤ i → i < k + l.length →
    bump (i - k) ((l.zipIdx k).map fun p => ⟨p.1, f p.2 % 65536⟩) =
      some ((l.zipIdx k).map fun p => ⟨p.1, (f p.2 + if p.2 = i then 1 else 0) % 65536⟩) := by
  intro l
  induction l with
  | nil => intro k f h1 h2; simp at h2; omega
  | cons a r ih =>
    intro k f h1 h2
    rw [List.length_cons] at h2
    rw [List.zipIdx_cons, List.map_cons, List.map_cons]
    by_cases e : i = k
    · subst e
      rw [Nat.sub_self, bump]
      simp only [Option.some.injEq, List.cons.injEq, if_true]
      refine ⟨by congr 1; omega, ?_⟩
      refine List.map_congr_left fun p hp => ?_
      have := (List.mem_zipIdx hp).1
      rw [if_neg (by omega), Nat.add_zero]
    · rw [show i - k = (i - (k + 1)) + 1 by omega, bump, ih (k + 1) f (by omega) (by omega)]
      simp only [Option.map_some, Option.some.injEq, List.cons.injEq]
      rw [if_neg (by omega), Nat.add_zero]
      exact ⟨rfl, trivial⟩

theorem filterMap_snoc {β γ : Type} (f : β → Option γ) (l : List β) (a : β) : (l ++ [a]).filterMap f = l.filterMap f ++ (f a).toList := by
  rw [List.filterMap_append]
  cases h : f a <;> simp [h]

theorem names_snoc (l : List Call) (c : Call) : names (l ++ [c]) = names l ++ (Call.name c).toList := by
  exact filterMap_snoc _ l c

/-- One more call on a workbook. -/
theorem stands_step {l : List Call} {s : State} (h : Stands l s) (c : Call) (hn : (names (l ++ [c])).length ≤ 65536)
    (ht : ∀ i, target c = some i → i < (names l).length) {p : Prog.State} (hp : Prog.steps s.prog (Call.inner c).toList = some p) :
    ∃ t, step s c = some t ∧ Stands (l ++ [c]) t ∧ t.prog = p := by
  have hall : (target c).all (· < s.wb.sheets.length) = true := by
    cases e : target c with
    | none => rfl
    | some i => simp [h.sheets, ht i e]
  unfold step
  rw [if_pos hall]
  cases c with
  | sheet nm =>
    rw [names_snoc] at hn
    simp only [Call.name, Option.toList_some, List.length_append, List.length_cons, List.length_nil] at hn
    have hc : s.wb.counter = (names l).length := by rw [h.counter]; exact Nat.mod_eq_of_lt (by omega)
    refine ⟨_, rfl, ?_, by simpa [Call.inner, Prog.steps] using hp⟩
    refine ⟨?_, ?_, ?_, ?_, ?_, ?_, ?_⟩
    · simp [names_snoc, Call.name, hc, h.sheets, List.range_succ]
    · simp [names_snoc, Call.name, hc]
    · simp only [names_snoc, Call.name, Option.toList_some, h.bounds, List.zipIdx_append, List.map_append, List.zipIdx_singleton, List.map_cons, List.map_nil,
        List.countP_append, List.countP_singleton, Call.isRemark]
      simp [h.early]
    · simpa [latest_snoc, Call.at, Call.extent, Call.active, Call.tab, Call.ratio] using h.window
    · rw [filterMap_snoc]; simpa [Call.colour] using h.colors
    · intro i; rw [filterMap_snoc]; simpa [Call.spot, place] using h.used i
    · intro i hi
      rw [names_snoc] at hi
      simp only [Call.name, Option.toList_some, List.length_append, List.length_cons, List.length_nil] at hi
      simp [List.countP_append, Call.isRemark, h.early i (by omega)]
  | makeActive j =>
    have hj := ht j rfl
    have e : s.wb.op (.makeActive j) = some { s.wb with window := { s.wb.window with active := j } } := by
      simp [Wb.op, h.sheets, hj]
    simp only [wbOp, e, Option.bind_some, Option.map_some]
    refine ⟨_, rfl, ?_, by simpa [Call.inner, Prog.steps] using hp⟩
    refine ⟨?_, ?_, ?_, ?_, ?_, ?_, ?_⟩
    · simpa [names_snoc, Call.name] using h.sheets
    · simpa [names_snoc, Call.name] using h.counter
    · simpa [names_snoc, Call.name, Call.isRemark] using h.bounds
    · simp [latest_snoc, Call.at, Call.extent, Call.active, Call.tab, Call.ratio, h.window]
    · rw [filterMap_snoc]; simpa [Call.colour] using h.colors
    · intro i; rw [filterMap_snoc]; simpa [Call.spot, place] using h.used i
    · intro i; simpa [names_snoc, Call.name, Call.isRemark] using h.early i
  | position a b =>
    refine ⟨_, rfl, ?_, by simpa [Call.inner, Prog.steps] using hp⟩
    refine ⟨?_, ?_, ?_, ?_, ?_, ?_, ?_⟩
    · simpa [names_snoc, Call.name] using h.sheets
    · simpa [names_snoc, Call.name] using h.counter
    · simpa [names_snoc, Call.name, Call.isRemark] using h.bounds
    · simp [latest_snoc, Call.at, Call.extent, Call.active, Call.tab, Call.ratio, h.window]
    · rw [filterMap_snoc]; simp [Call.colour, h.colors]
    · intro i; rw [filterMap_snoc]; simpa [Call.spot, place] using h.used i
    · intro i; simpa [names_snoc, Call.name, Call.isRemark] using h.early i
  | size a b =>
    refine ⟨_, rfl, ?_, by simpa [Call.inner, Prog.steps] using hp⟩
    refine ⟨?_, ?_, ?_, ?_, ?_, ?_, ?_⟩
    · simpa [names_snoc, Call.name] using h.sheets
    · simpa [names_snoc, Call.name] using h.counter
    · simpa [names_snoc, Call.name, Call.isRemark] using h.bounds
    · simp [latest_snoc, Call.at, Call.extent, Call.active, Call.tab, Call.ratio, h.window]
    · rw [filterMap_snoc]; simp [Call.colour, h.colors]
    · intro i; rw [filterMap_snoc]; simpa [Call.spot, place] using h.used i
    · intro i; simpa [names_snoc, Call.name, Call.isRemark] using h.early i
  | firstTab v =>
    refine ⟨_, rfl, ?_, by simpa [Call.inner, Prog.steps] using hp⟩
    refine ⟨?_, ?_, ?_, ?_, ?_, ?_, ?_⟩
    · simpa [names_snoc, Call.name] using h.sheets
    · simpa [names_snoc, Call.name] using h.counter
    · simpa [names_snoc, Call.name, Call.isRemark] using h.bounds
    · simp [latest_snoc, Call.at, Call.extent, Call.active, Call.tab, Call.ratio, h.window]
    · rw [filterMap_snoc]; simp [Call.colour, h.colors]
    · intro i; rw [filterMap_snoc]; simpa [Call.spot, place] using h.used i
    · intro i; simpa [names_snoc, Call.name, Call.isRemark] using h.early i
  | tabBarWidth v =>
    refine ⟨_, rfl, ?_, by simpa [Call.inner, Prog.steps] using hp⟩
    refine ⟨?_, ?_, ?_, ?_, ?_, ?_, ?_⟩
    · simpa [names_snoc, Call.name] using h.sheets
    · simpa [names_snoc, Call.name] using h.counter
    · simpa [names_snoc, Call.name, Call.isRemark] using h.bounds
    · simp [latest_snoc, Call.at, Call.extent, Call.active, Call.tab, Call.ratio, h.window, Globals.Window1.setTabBar]
      split <;> omega
    · rw [filterMap_snoc]; simp [Call.colour, h.colors]
    · intro i; rw [filterMap_snoc]; simpa [Call.spot, place] using h.used i
    · intro i; simpa [names_snoc, Call.name, Call.isRemark] using h.early i
  | color k =>
    refine ⟨_, rfl, ?_, by simpa [Call.inner, Prog.steps] using hp⟩
    refine ⟨?_, ?_, ?_, ?_, ?_, ?_, ?_⟩
    · simpa [names_snoc, Call.name] using h.sheets
    · simpa [names_snoc, Call.name] using h.counter
    · simpa [names_snoc, Call.name, Call.isRemark] using h.bounds
    · simp [latest_snoc, Call.at, Call.extent, Call.active, Call.tab, Call.ratio, h.window]
    · rw [filterMap_snoc]; simp [Call.colour, h.colors, colors_snoc]
    · intro i; rw [filterMap_snoc]; simpa [Call.spot, place] using h.used i
    · intro i; simpa [names_snoc, Call.name, Call.isRemark] using h.early i
  | on d =>
    have hp : Prog.step s.prog d = some p := by simpa [Call.inner, Prog.steps] using hp
    simp only [hp, Option.map_some]
    have hu : ∀ i, (match place (.on d) with
        | none => s.used
        | some (i, row, col) => Prog.put s.used i ((s.used i).extend row col)) i =
        ((Call.spot i (.on d)).toList).foldl (fun u p => u.extend p.1 p.2) (s.used i) := by
      intro i
      cases d with
      | look c =>
        cases c with
        | put j row col v q =>
          simp only [place, Call.spot, Prog.put]
          by_cases e : i = j
          · subst e; simp
          · rw [if_neg e, if_neg (fun h => e h.symm)]; rfl
        | _ => rfl
      | page j a =>
        cases a with
        | comment r c t u =>
          simp only [place, Call.spot, Prog.put]
          by_cases e : i = j
          · subst e; simp
          · rw [if_neg e, if_neg (fun h => e h.symm)]; rfl
        | _ => rfl
    by_cases hm : wbOp (.on d) = none
    · have hr : ∀ i, Call.isRemark i (.on d) = false := by
        intro i
        unfold wbOp at hm
        unfold Call.isRemark
        split at hm <;> simp_all
      rw [hm]
      refine ⟨_, rfl, ?_, rfl⟩
      refine ⟨?_, ?_, ?_, ?_, ?_, ?_, ?_⟩
      · simpa [names_snoc, Call.name] using h.sheets
      · simpa [names_snoc, Call.name] using h.counter
      · simpa [names_snoc, Call.name, hr] using h.bounds
      · simp [latest_snoc, Call.at, Call.extent, Call.active, Call.tab, Call.ratio, h.window]
      · rw [filterMap_snoc]; simp [Call.colour, h.colors]
      · intro k
        rw [filterMap_snoc, List.foldl_append, ← h.used k]
        exact hu k
      · intro k; simpa [names_snoc, Call.name, hr] using h.early k
    · obtain ⟨j, r, c, t, u, rfl⟩ : ∃ j r c t u, d = .page j (.comment r c t u) := by
        unfold wbOp at hm
        split at hm <;> simp_all
      have hj := ht j rfl
      have hz := bump_zip j (names l) 0 (fun i => l.countP (Call.isRemark i)) (by omega) (by omega)
      rw [Nat.sub_zero] at hz
      have e : s.wb.op (.note j) = some { s.wb with bounds := (names l).zipIdx.map fun p =>
          ⟨p.1, (l.countP (Call.isRemark p.2) + if p.2 = j then 1 else 0) % 65536⟩ } := by
        simp [Wb.op, h.sheets, hj, h.bounds, hz]
      have hr : ∀ i, (Call.isRemark i (.on (.page j (.comment r c t u)))) = (j == i) := fun _ => rfl
      rw [wbOp]
      simp only [e, Option.bind_some]
      refine ⟨_, rfl, ?_, rfl⟩
      refine ⟨?_, ?_, ?_, ?_, ?_, ?_, ?_⟩
      · simpa [names_snoc, Call.name] using h.sheets
      · simpa [names_snoc, Call.name] using h.counter
      · simp only [names_snoc, Call.name, Option.toList_none, List.append_nil, List.countP_append, List.countP_singleton, hr, beq_iff_eq]
        refine List.map_congr_left fun p _ => ?_
        by_cases e : p.2 = j
        · rw [if_pos e, if_pos e.symm]
        · rw [if_neg e, if_neg (fun h => e h.symm)]
      · simp [latest_snoc, Call.at, Call.extent, Call.active, Call.tab, Call.ratio, h.window]
      · rw [filterMap_snoc]; simp [Call.colour, h.colors]
      · intro k
        rw [filterMap_snoc, List.foldl_append, ← h.used k]
        exact hu k
      · intro k hk
        rw [names_snoc] at hk
        simp only [Call.name, Option.toList_none, List.append_nil] at hk
        rw [List.countP_append, h.early k hk, List.countP_singleton, hr, if_neg (by simp; omega)]

theorem stands_init (p : Prog.State) : Stands [] (start p) :=
  ⟨rfl, rfl, rfl, rfl, rfl, fun _ => rfl, fun _ _ => rfl⟩

/-- A program on a workbook. -/
theorem run {p q : Prog.State} {calls : List Call} (hp : Possible 0 calls) (hn : (names calls).length ≤ 65536)
    (hq : Prog.steps p (calls.filterMap Call.inner) = some q) : ∃ s, steps (start p) calls = some s ∧ Stands calls s ∧ s.prog = q := by
  induction calls using snoc_induction generalizing q with
  | h0 =>
    refine ⟨start p, rfl, stands_init p, ?_⟩
    simpa [Prog.steps, start] using hq
  | h1 l c ih =>
    rw [possible_append, Nat.zero_add] at hp
    rw [filterMap_snoc, prog_append] at hq
    cases hm : Prog.steps p (l.filterMap Call.inner) with
    | none => simp [hm] at hq
    | some m =>
      obtain ⟨t, h1, h2, h3⟩ := ih hp.1 (by rw [names_snoc, List.length_append] at hn; omega) hm
      rw [hm, Option.bind_some, ← h3] at hq
      have ht : ∀ i, target c = some i → i < (names l).length := by
        intro i hi
        cases c with
        | sheet nm => simp [target] at hi
        | _ => exact hp.2.1 i hi
      obtain ⟨u, h4, h5, h6⟩ := stands_step h2 c hn ht hq
      exact ⟨u, by rw [steps_append, h1, Option.bind_some, steps, h4]; rfl, h5, h6⟩

end Xls.Desk
