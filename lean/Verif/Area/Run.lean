import Verif.Area.Loop
import Verif.Desk.Props
/-
Whole programs with operations on ranges do what plain programs do.
-/
namespace Xls.Area
open Xls.Range (Rect RangeOp keys ArgsOk)
open Xls.Whole Xls.Cells
open Xls.Desk (names Stands)
open Xls.Page (latest)

/-! ### Programs that differ in cells only -/

/-- Not about cells and their looks. -/
def core : Desk.Call → Bool
  | .on (.look _) => false
  | _ => true

theorem filterMap_core {β : Type} (f : Desk.Call → Option β) (hf : ∀ c, f (.on (.look c)) = none) (l : List Desk.Call) :
    l.filterMap f = (l.filter core).filterMap f := by
  rw [List.filterMap_filter]
  refine congrFun (congrArg _ (funext fun c => ?_)) _
  cases c with
  | on d =>
    cases d with
    | look c => simp [core, hf]
    | page i a => rfl
  | _ => rfl

theorem latest_core {β : Type} (f : Desk.Call → Option β) (hf : ∀ c, f (.on (.look c)) = none) (l : List Desk.Call) :
    latest f l = latest f (l.filter core) := by
  induction l with
  | nil => rfl
  | cons c r ih =>
    cases hc : core c with
    | true => rw [List.filter_cons_of_pos hc, latest, latest, ih]
    | false =>
      rw [List.filter_cons_of_neg (by simp [hc]), latest, ih]
      have : f c = none := by
        cases c with
        | on d =>
          cases d with
          | look c => exact hf c
          | page i a => cases hc
        | _ => cases hc
      rw [this, Option.or_none]

theorem countP_core (f : Desk.Call → Bool) (hf : ∀ c, f (.on (.look c)) = false) (l : List Desk.Call) : l.countP f = (l.filter core).countP f := by
  rw [List.countP_filter]
  refine List.countP_congr fun c _ => ?_
  cases c with
  | on d =>
    cases d with
    | look c => simp [core, hf]
    | page i a => simp [core]
  | _ => simp [core]

/-- The same calls but for cells and looks, and cells on the same places. -/
structure Alike (l m : List Desk.Call) : Prop where
  core : l.filter core = m.filter core
  spots : ∀ i p, p ∈ l.filterMap (Desk.Call.spot i) ↔ p ∈ m.filterMap (Desk.Call.spot i)

theorem Alike.arranged {l m : List Desk.Call} (h : Alike l m) {N : List (List UInt8) → List (Nat × Nat × Nat) → Prop} {first : Nat → Nat} {w : List UInt8}
    (ha : Desk.ArrangedBy N first l w) : Desk.ArrangedBy N first m w := by
  have n : names l = names m := by unfold names; rw [filterMap_core _ (fun _ => rfl), h.core, ← filterMap_core _ (fun _ => rfl)]
  have l1 : latest Desk.Call.at l = latest Desk.Call.at m := by rw [latest_core _ (fun _ => rfl), h.core, ← latest_core _ (fun _ => rfl)]
  have l2 : latest Desk.Call.extent l = latest Desk.Call.extent m := by rw [latest_core _ (fun _ => rfl), h.core, ← latest_core _ (fun _ => rfl)]
  have l3 : latest Desk.Call.active l = latest Desk.Call.active m := by rw [latest_core _ (fun _ => rfl), h.core, ← latest_core _ (fun _ => rfl)]
  have l4 : latest Desk.Call.tab l = latest Desk.Call.tab m := by rw [latest_core _ (fun _ => rfl), h.core, ← latest_core _ (fun _ => rfl)]
  have l5 : latest Desk.Call.ratio l = latest Desk.Call.ratio m := by rw [latest_core _ (fun _ => rfl), h.core, ← latest_core _ (fun _ => rfl)]
  have l6 : l.filterMap Desk.Call.colour = m.filterMap Desk.Call.colour := by rw [filterMap_core _ (fun _ => rfl), h.core, ← filterMap_core _ (fun _ => rfl)]
  have l7 : ∀ i, l.countP (Desk.Call.isRemark i) = m.countP (Desk.Call.isRemark i) := fun i => by
    rw [countP_core _ (fun _ => rfl), h.core, ← countP_core _ (fun _ => rfl)]
  have l8 : ∀ i, l.filterMap (Desk.remarkAt i) = m.filterMap (Desk.remarkAt i) := fun i => by
    rw [filterMap_core _ (fun _ => rfl), h.core, ← filterMap_core _ (fun _ => rfl)]
  obtain ⟨K, recs, M, dims, draws, h1, h2, h3, h4, h5, h6, h7, h8, h9, h10, h11, h12, h13, h14, h15, h16, h17, h18, h19, h20⟩ := ha
  rw [n] at h3 h4 h5 h6 h7 h8 h16 h17
  rw [l6] at h14
  simp only [l7] at h16
  unfold Desk.Remarks at h19
  simp only [l8] at h19
  refine ⟨K, recs, M, dims, draws, h1, h2, h3, h4, h5, h6, h7, h8, h9, h10, ?_, ?_, h13, h14, h15, h16, h17, h18, h19, ?_⟩
  · exact ⟨h11.shown, l3 ▸ h11.active, l4 ▸ h11.first, h11.selected, l5 ▸ h11.tabRatio⟩
  · unfold Desk.Placed Desk.InView at h12 ⊢
    rw [l1, l2] at h12
    exact h12
  · intro i d hd
    obtain ⟨e1, e2⟩ := h20 i d hd
    have hnil : l.filterMap (Desk.Call.spot i) = [] ↔ m.filterMap (Desk.Call.spot i) = [] := by
      simp only [List.eq_nil_iff_forall_not_mem, h.spots i]
    refine ⟨fun hm => e1 (hnil.mpr hm), fun hm hlim => ?_⟩
    obtain ⟨b1, ⟨p2, q2, b2⟩, ⟨p3, q3, b3⟩, ⟨p4, q4, b4⟩, p5, q5, b5⟩ := e2 (fun hl => hm (hnil.mp hl)) (fun p hp => hlim p ((h.spots i p).mp hp))
    exact ⟨fun p hp => b1 p ((h.spots i p).mpr hp), ⟨p2, (h.spots i p2).mp q2, b2⟩, ⟨p3, (h.spots i p3).mp q3, b3⟩, ⟨p4, (h.spots i p4).mp q4, b4⟩,
      p5, (h.spots i p5).mp q5, b5⟩

/-! ### Conditions -/

/-- Each call on a sheet comes after the sheet was made; `n` sheets are there already. -/
def Possible : Nat → List Call → Prop
  | _, [] => True
  | n, .desk (.sheet _) :: r => Possible (n + 1) r
  | n, .desk c :: r => (∀ i, Desk.target c = some i → i < n) ∧ Possible n r
  | n, .range i _ _ :: r => i < n ∧ Possible n r

/-- The conditions of C61; for ranges, those of C42. -/
def Ok (s : Desk.State) (A : Prog.Asked) : Call → Prop
  | .desk (.on c) => Prog.Ok s.prog A c
  | .desk _ => True
  | .range i r o => r.lastRow < 2 ^ 32 - 1 ∧ r.lastCol < 2 ^ 32 - 1 ∧ ArgsOk A.look.looks.fonts o ∧ RangeRoom s i r o

/-- The conditions along a program, and no more fonts than numbers for them. -/
def Fine (s : Desk.State) (A : Prog.Asked) : List Call → Prop
  | [] => True
  | c :: r => Ok s A c ∧ s.prog.look.styles.fonts.length < 65535 ∧ ∀ t, step s c = some t → Fine t (ask s A c) r

/-! ### The plain program -/

theorem stands_steps {l : List Desk.Call} {s : Desk.State} (h : Stands l s) (calls : List Desk.Call) (hp : Desk.Possible (names l).length calls)
    (hn : (names (l ++ calls)).length ≤ 65536) {q : Prog.State} (hq : Prog.steps s.prog (calls.filterMap Desk.Call.inner) = some q) :
    ∃ t, Desk.steps s calls = some t ∧ Stands (l ++ calls) t ∧ t.prog = q := by
  induction calls generalizing l s with
  | nil => exact ⟨s, rfl, by rw [List.append_nil]; exact h, Option.some.inj hq⟩
  | cons c r ih =>
    have hsplit : Prog.steps s.prog ((Desk.Call.inner c).toList ++ r.filterMap Desk.Call.inner) = some q := by
      rw [← hq]
      cases hc : Desk.Call.inner c <;> simp [hc]
    rw [Desk.prog_append] at hsplit
    obtain ⟨p, p1, p2⟩ := Option.bind_eq_some_iff.mp hsplit
    have e : l ++ c :: r = (l ++ [c]) ++ r := by simp
    have hn1 : (names (l ++ [c])).length ≤ 65536 := by
      rw [e] at hn
      unfold names at hn ⊢
      rw [List.filterMap_append, List.length_append] at hn
      omega
    have ht : ∀ i, Desk.target c = some i → i < (names l).length := by
      intro i hi
      cases c with
      | sheet nm => cases hi
      | _ => exact hp.1 i hi
    have hp' : Desk.Possible (names (l ++ [c])).length r := by
      have : names (l ++ [c]) = names l ++ names [c] := by simp [names]
      rw [this, List.length_append]
      cases c with
      | sheet nm => exact hp
      | _ => exact hp.2
    obtain ⟨t, t1, t2, t3⟩ := Desk.stands_step h c hn1 ht p1
    obtain ⟨u, u1, u2, u3⟩ := ih t2 hp' (by rw [← e]; exact hn) (by rw [t3]; exact p2)
    exact ⟨u, by rw [Desk.steps, t1]; exact u1, by rw [e]; exact u2, u3⟩

/-- The plain program `calls` does what `P` does. -/
structure Same (s : Desk.State) (A : Prog.Asked) (n : Nat) (P : List Call) (calls : List Desk.Call) (t : Desk.State) : Prop where
  run : steps s P = some t
  plain : Desk.steps s calls = some t
  inner : Prog.steps s.prog (calls.filterMap Desk.Call.inner) = some t.prog
  fine : Prog.Fine s.prog A (calls.filterMap Desk.Call.inner)
  asked : Prog.asked s.prog A (calls.filterMap Desk.Call.inner) = asked s A P
  possible : Desk.Possible n calls
  core : calls.filter core = (P.flatMap frame).filter core
  spots : ∀ i p, p ∈ calls.filterMap (Desk.Call.spot i) → p ∈ (P.flatMap frame).filterMap (Desk.Call.spot i)
  covers : ∀ i p, p ∈ (P.flatMap frame).filterMap (Desk.Call.spot i) →
    p ∈ calls.filterMap (Desk.Call.spot i) ∨ ∃ d, lastWrite A.look.writes i p.1 p.2 = some d

/-- The places written to are those of the calls. -/
theorem ask_spot (s : Prog.State) (A : Prog.Asked) (c : Prog.Call) (i : Nat) (p : Key) {d : Cell Val}
    (h : lastWrite (Prog.ask s A c).look.writes i p.1 p.2 = some d) :
    (∃ d, lastWrite A.look.writes i p.1 p.2 = some d) ∨ Desk.Call.spot i (.on c) = some p := by
  cases c with
  | page j a => exact .inl ⟨d, h⟩
  | look c =>
    cases c with
    | style a => exact .inl ⟨d, h⟩
    | format a => exact .inl ⟨d, h⟩
    | put j row col v q =>
      simp only [Prog.ask, Look.ask, lastWrite_append] at h
      split at h
      · rename_i e
        right
        simp only [Desk.Call.spot, e.1, if_true, e.2.1, e.2.2]
      · exact .inl ⟨d, h⟩

theorem asked_spot {s : Prog.State} {A : Prog.Asked} {calls : List Prog.Call} (i : Nat) (p : Key) {d : Cell Val}
    (h : lastWrite (Prog.asked s A calls).look.writes i p.1 p.2 = some d) :
    (∃ d, lastWrite A.look.writes i p.1 p.2 = some d) ∨ ∃ c ∈ calls, Desk.Call.spot i (.on c) = some p := by
  induction calls generalizing s A with
  | nil => exact .inl ⟨d, h⟩
  | cons c r ih =>
    rw [Prog.asked] at h
    split at h
    · exact .inl ⟨d, h⟩
    · rcases ih h with ⟨d, h⟩ | ⟨c', h1, h2⟩
      · rcases ask_spot _ _ _ _ _ h with h | h
        · exact .inl h
        · exact .inr ⟨c, by simp, h⟩
      · exact .inr ⟨c', by simp [h1], h2⟩

theorem inner_spot {calls : List Desk.Call} {i : Nat} {p : Key} (h : ∃ c ∈ calls.filterMap Desk.Call.inner, Desk.Call.spot i (.on c) = some p) :
    p ∈ calls.filterMap (Desk.Call.spot i) := by
  obtain ⟨c, h1, h2⟩ := h
  obtain ⟨d, h3, h4⟩ := List.mem_filterMap.mp h1
  refine List.mem_filterMap.mpr ⟨d, h3, ?_⟩
  cases d with
  | on d => rw [← h2]; cases h4; rfl
  | _ => cases h4

/-- One call, then the others. -/
theorem Same.cons {s u t : Desk.State} {A : Prog.Asked} {n m : Nat} {c : Call} {P : List Call} {l r : List Desk.Call} (h1 : step s c = some u)
    (h2 : Desk.steps s l = some u) (h3 : Prog.steps s.prog (l.filterMap Desk.Call.inner) = some u.prog)
    (h4 : Prog.Fine s.prog A (l.filterMap Desk.Call.inner)) (h5 : Prog.asked s.prog A (l.filterMap Desk.Call.inner) = ask s A c)
    (h6 : Desk.Possible n l) (hm : m = n + (names l).length) (h7 : l.filter Area.core = (frame c).filter Area.core)
    (h8 : ∀ i p, p ∈ l.filterMap (Desk.Call.spot i) → p ∈ (frame c).filterMap (Desk.Call.spot i))
    (h9 : ∀ i p, p ∈ (frame c).filterMap (Desk.Call.spot i) → p ∈ l.filterMap (Desk.Call.spot i) ∨ ∃ d, lastWrite A.look.writes i p.1 p.2 = some d)
    (h : Same u (ask s A c) m P r t) : Same s A n (c :: P) (l ++ r) t := by
  obtain ⟨k1, k2⟩ := prog_append _ _ _ _ _ h3 h4 (h5 ▸ h.fine)
  refine ⟨?_, ?_, ?_, ?_, ?_, ?_, ?_, ?_, ?_⟩
  · rw [steps, h1]; exact h.run
  · rw [Desk.steps_append, h2]; exact h.plain
  · rw [List.filterMap_append, Desk.prog_append, h3]; exact h.inner
  · rw [List.filterMap_append]; exact k1
  · rw [List.filterMap_append, k2, h5, h.asked, Area.asked, h1]
  · exact (Desk.possible_append _ _ _).mpr ⟨h6, hm ▸ h.possible⟩
  · rw [List.filter_append, h7, h.core, List.flatMap_cons, List.filter_append]
  · intro i p hp
    rw [List.filterMap_append, List.mem_append] at hp
    rw [List.flatMap_cons, List.filterMap_append, List.mem_append]
    exact hp.imp (h8 i p) (h.spots i p)
  · intro i p hp
    rw [List.flatMap_cons, List.filterMap_append, List.mem_append] at hp
    rw [List.filterMap_append, List.mem_append]
    rcases hp with hp | hp
    · rcases h9 i p hp with h | h
      · exact .inl (.inl h)
      · exact .inr h
    · rcases h.covers i p hp with h | ⟨d, h⟩
      · exact .inl (.inr h)
      · rw [← h5] at h
        rcases asked_spot i p h with h | h
        · exact .inr h
        · exact .inl (.inl (inner_spot h))

theorem goes (P : List Call) {pre : List Desk.Call} {s : Desk.State} {A : Prog.Asked} (S : Stands pre s) (G : Prog.Good s.prog A)
    (hp : Possible (names pre).length P) (hn : (names pre).length + (names (P.flatMap frame)).length ≤ 65536) (hf : Fine s A P) :
    ∃ calls t, Same s A (names pre).length P calls t := by
  have nm : ∀ a b, names (a ++ b) = names a ++ names b := fun a b => by simp [names]
  induction P generalizing pre s A with
  | nil => exact ⟨[], s, rfl, rfl, rfl, trivial, rfl, trivial, rfl, fun _ _ h => h, fun _ _ h => .inl h⟩
  | cons c P ih =>
    obtain ⟨f1, f2, f3⟩ := hf
    rw [List.flatMap_cons, nm, List.length_append] at hn
    cases c with
    | desk c =>
      have hn1 : (names (pre ++ [c])).length ≤ 65536 := by
        rw [nm, List.length_append]
        have : names (frame (.desk c)) = names [c] := rfl
        rw [this] at hn
        omega
      have ht : (∀ i, Desk.target c = some i → i < (names pre).length) ∧ Possible (names (pre ++ [c])).length P ∧ Desk.Possible (names pre).length [c] := by
        rw [nm, List.length_append]
        cases c with
        | sheet nm => exact ⟨fun i h => (by cases h), hp, trivial⟩
        | _ => exact ⟨hp.1, hp.2, hp.1, trivial⟩
      have hpr : ∃ p, Prog.steps s.prog (Desk.Call.inner c).toList = some p ∧ Prog.Good p (ask s A (.desk c)) ∧
          Prog.Fine s.prog A (Desk.Call.inner c).toList ∧ Prog.asked s.prog A (Desk.Call.inner c).toList = ask s A (.desk c) := by
        cases c with
        | on d =>
          obtain ⟨p, p1, p2⟩ := Prog.sim G d f1 f2
          refine ⟨p, ?_, p2, ⟨f1, f2, fun _ _ => trivial⟩, ?_⟩
          · show Prog.steps s.prog [d] = _
            rw [Prog.steps, p1]
            rfl
          · show Prog.asked s.prog A [d] = _
            rw [Prog.asked, p1]
            rfl
        | _ => exact ⟨s.prog, rfl, G, trivial, rfl⟩
      obtain ⟨p, p1, p2, p3, p4⟩ := hpr
      obtain ⟨u, u1, u2, rfl⟩ := Desk.stands_step S c hn1 ht.1 p1
      obtain ⟨calls, t, h⟩ := ih u2 p2 ht.2.1 (by
        rw [nm, List.length_append]
        have : names (frame (.desk c)) = names [c] := rfl
        rw [this] at hn
        omega) (f3 u u1)
      have hin : [c].filterMap Desk.Call.inner = (Desk.Call.inner c).toList := by
        cases hc : Desk.Call.inner c <;> simp [hc]
      refine ⟨[c] ++ calls, t, Same.cons (m := (names (pre ++ [c])).length) u1 ?_ (by rw [hin]; exact p1) (by rw [hin]; exact p3) (by rw [hin]; exact p4) ht.2.2
        (by rw [nm, List.length_append]) rfl (fun _ _ h => h) (fun _ _ h => .inl h) h⟩
      show Desk.steps s [c] = _
      rw [Desk.steps, u1]
      rfl
    | range i r o =>
      obtain ⟨g1, g2, g3, g4⟩ := f1
      have hi : i < s.wb.sheets.length := by rw [S.sheets, List.length_range]; exact hp.1
      obtain ⟨u, l, h1, h2, h3⟩ := range_plain G i hi r g1 g2 o g3 g4
      have hstep : step s (.range i r o) = some u := by rw [step, if_pos hi, h1]
      have hcore : l.filter core = [] := by
        rw [List.filter_eq_nil_iff]
        intro c hc
        rcases h3.only c hc with ⟨k, -, rfl⟩ | ⟨a, rfl⟩ <;> simp [core, blankAt, styled]
      have hcoref : (frame (.range i r o)).filter core = [] := by
        rw [List.filter_eq_nil_iff]
        intro c hc
        obtain ⟨k, -, rfl⟩ := List.mem_map.mp hc
        simp [core, blankAt]
      have hnames : names l = [] := by
        unfold names
        rw [filterMap_core _ (fun _ => rfl), hcore]
        rfl
      have hposs : Desk.Possible (names pre).length l := by
        have : ∀ m : List Desk.Call, (∀ c ∈ m, (∃ k ∈ keys r, c = blankAt i k.1 k.2) ∨ ∃ a, c = styled a) → Desk.Possible (names pre).length m := by
          intro m hm
          induction m with
          | nil => trivial
          | cons c m ih =>
            have ih := ih fun c hc => hm c (by simp [hc])
            rcases hm c (by simp) with ⟨k, -, rfl⟩ | ⟨a, rfl⟩
            · exact ⟨fun j hj => (by cases hj; exact hp.1), ih⟩
            · exact ⟨fun j hj => (by cases hj), ih⟩
        exact this l h3.only
      obtain ⟨u', u1, u2, -⟩ := stands_steps S l hposs (by rw [nm, hnames, List.append_nil]; omega) h2.inner
      rw [h2.run] at u1
      obtain rfl := Option.some.inj u1
      have hnp : names (pre ++ l) = names pre := by rw [nm, hnames, List.append_nil]
      obtain ⟨calls, t, h⟩ := ih u2 h2.good (by rw [hnp]; exact hp.2) (by rw [hnp]; omega) (f3 u hstep)
      refine ⟨l ++ calls, t, Same.cons (m := (names (pre ++ l)).length) hstep h2.run h2.inner h2.fine h2.asked hposs (by rw [nm, List.length_append])
        (by rw [hcore, hcoref]) ?_ ?_ h⟩
      · intro j p hm
        obtain ⟨c, hc, hs⟩ := List.mem_filterMap.mp hm
        rcases h3.only c hc with ⟨k, hk, rfl⟩ | ⟨a, rfl⟩
        · exact List.mem_filterMap.mpr ⟨_, List.mem_map.mpr ⟨k, hk, rfl⟩, hs⟩
        · cases hs
      · intro j p hm
        obtain ⟨c, hc, hs⟩ := List.mem_filterMap.mp hm
        obtain ⟨k, hk, rfl⟩ := List.mem_map.mp hc
        simp only [blankAt, Desk.Call.spot] at hs
        split at hs
        · rename_i e
          subst e
          cases Option.some.inj hs
          cases hw : lastWrite A.look.writes i k.1 k.2 with
          | some d => exact .inr ⟨d, rfl⟩
          | none =>
            refine .inl (List.mem_filterMap.mpr ⟨_, h3.all k hk hw, ?_⟩)
            simp [blankAt, Desk.Call.spot]
        · cases hs

end Xls.Area
