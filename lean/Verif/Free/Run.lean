import Verif.Free.Sim
/-
Programs with operations on ranges, whatever they do with formats and fonts, and plain programs that do the same.
-/
namespace Xls.Free
open Xls.Range (Rect RangeOp Cache each keys keys_nodup each_list colorOps boxTag boxOps)
open Xls.Range.Spec (rangeCalls)
open Xls.Whole Xls.Cells
open Xls.Styles.Spec (Look)
open Xls.Xf (Xf)
open Xls.Mirror (Sound Able AllAble Live Meant Sane Well)
open Xls.Area (blankAt styled making after askPlace Covers callBody fontBody memoBody onRange Possible frame core Alike filterMap_core stands_steps asked_spot inner_spot)
open Xls.Desk (names Stands)

/-- The arguments of an operation on a range have the right types, and its font exists. -/
def RangeAble (s : Styles.State) : RangeOp → Prop
  | .call o => Meant s o
  | .font o => Font.Spec.Valid o
  | .color n => Xf.Spec.Valid (.fg n)
  | .box b => Xf.Spec.Valid (.bstyle .top b.border) ∧ Xf.Spec.Valid (.bcolor .top b.color) ∧ Xf.Spec.Valid (.fg b.fg) ∧
      Xf.Spec.Valid (.fg b.bg) ∧ Xf.Spec.Valid (.fill b.fill)

theorem loop {σ : Type} (i : Nat) (f : Key → Look → Look) (body : Nat → Nat → σ → Option σ) (pr : σ → Desk.State) (I : σ → Prop) (n : Nat)
    (hstep : ∀ k w A, Sound (pr w).prog A → i < (pr w).wb.sheets.length → n ≤ (pr w).prog.look.styles.fonts.length → I w →
      ∃ w', body k.1 k.2 w = some w' ∧ Pass i f k (pr w) A (pr w') ∧ I w')
    (ks : List Key) (hnd : ks.Nodup) (w : σ) (A : Prog.Asked) (G : Sound (pr w).prog A) (hi : i < (pr w).wb.sheets.length)
    (hn : n ≤ (pr w).prog.look.styles.fonts.length) (hI : I w) :
    ∃ w' calls, ks.foldlM (fun w k => body k.1 k.2 w) w = some w' ∧
      Steps (pr w) A calls (pr w') { A with look := (ks.foldl (askPlace i f) ((pr w).prog.look.styles.cells.length, A.look)).2 } ∧ Covers i ks A calls := by
  induction ks generalizing w A with
  | nil => exact ⟨w, [], rfl, Steps.nil G, ⟨by simp, by simp⟩⟩
  | cons k r ih =>
    rw [List.nodup_cons] at hnd
    obtain ⟨w1, h1, ⟨⟨acts, h2⟩, h3, h3'⟩, h4⟩ := hstep k w A G hi hn hI
    obtain ⟨w2, calls, e1, e2, e3⟩ := ih hnd.2 w1 (after i f (pr w) A k) h2.sound (by rw [h2.wb]; exact hi) (Nat.le_trans hn h3') h4
    refine ⟨w2, (making A i k ++ acts.map styled) ++ calls, ?_, ?_, ?_, ?_⟩
    · rw [List.foldlM_cons, h1]
      exact e1
    · have : (r.foldl (askPlace i f) ((pr w1).prog.look.styles.cells.length, (after i f (pr w) A k).look)) =
          (k :: r).foldl (askPlace i f) ((pr w).prog.look.styles.cells.length, A.look) := by
        rw [List.foldl_cons, h3]
        rfl
      rw [this] at e2
      exact h2.append e2
    · intro c hc
      rcases List.mem_append.mp hc with hc | hc
      · rcases List.mem_append.mp hc with hc | hc
        · unfold making at hc
          split at hc
          · cases hc
          · exact .inl ⟨k, by simp, List.mem_singleton.mp hc⟩
        · obtain ⟨a, -, rfl⟩ := List.mem_map.mp hc
          exact .inr ⟨a, rfl⟩
      · rcases e3.only c hc with ⟨k', hk', rfl⟩ | h
        · exact .inl ⟨k', by simp [hk'], rfl⟩
        · exact .inr h
    · intro k' hk' hw
      rcases List.mem_cons.mp hk' with rfl | hk'
      · refine List.mem_append_left _ (List.mem_append_left _ ?_)
        unfold making
        rw [hw]
        simp
      · refine List.mem_append_right _ (e3.all k' hk' ?_)
        rw [← hw]
        exact Area.askPlace_writes _ _ _ _ _ _ (fun h => hnd.1 (h.2 ▸ hk'))

/-- An operation on a range. -/
theorem range_steps {s : Desk.State} {A : Prog.Asked} (G : Sound s.prog A) (i : Nat) (hi : i < s.wb.sheets.length) (r : Rect)
    (h1 : r.lastRow < 2 ^ 32 - 1) (h2 : r.lastCol < 2 ^ 32 - 1) (o : RangeOp) (ho : RangeAble s.prog.look.styles o) :
    ∃ t calls, onRange s i r o = some t ∧ Steps s A calls t (Area.ask s A (.range i r o)) ∧ Covers i (keys r) A calls := by
  have plain : ∀ (st : Styles.State) (o : Xf.Op), Range.CallOk (fun _ => none) o → Meant st o := by
    intro st o h
    refine ⟨h.1, fun p hp => ?_⟩
    obtain ⟨_, hh⟩ := h.2 p hp
    cases hh
  have memo : ∀ (f : Key → Look → Look) (tag : Nat → Nat → Xf → Nat) (ops : Nat → Nat → List Xf.Op)
      (_ : ∀ (k : Key), ∀ o ∈ ops k.1 k.2, Range.CallOk (fun _ => none) o),
      ∃ t calls, (each r (memoBody i tag ops) (s, [])).map (·.1) = some t ∧
        Steps s A calls t { A with look := ((keys r).foldl (askPlace i f) (s.prog.look.styles.cells.length, A.look)).2 } ∧
        Covers i (keys r) A calls := by
    intro f tag ops hops
    obtain ⟨w, calls, w1, w2, w3⟩ := loop i f (memoBody i tag ops) (·.1) (fun w : Desk.State × Cache => ∀ x p, (x, p) ∈ w.2 → p < w.1.prog.look.styles.xfs.length) 0
      (by
        rintro k ⟨s, cache⟩ A' G' hi' - hI
        obtain ⟨t, c', m1, m2, m3⟩ := memo_pass tag ops G' i hi' f k (fun o h => plain _ o (hops k o h)) cache hI
        exact ⟨(t, c'), m1, m2, m3⟩)
      (keys r) (keys_nodup r) (s, []) A G hi (Nat.zero_le _) (by intro x p hm; cases hm)
    refine ⟨w.1, calls, ?_, w2, w3⟩
    rw [each_list r h1 h2, w1]
    rfl
  cases o with
  | call o =>
    obtain ⟨t, calls, t1, t2, t3⟩ := loop i (fun k => rangeCalls A.look.looks.fonts r k (.call o)) (callBody i o) id (fun _ => True) s.prog.look.styles.fonts.length
      (by
        intro k s' A' G' hi' hn _
        obtain ⟨t, m1, m2⟩ := call_pass G' i hi' _ k o ⟨ho.1, fun p hp => Nat.lt_of_lt_of_le (ho.2 p hp) hn⟩
        exact ⟨t, m1, m2, trivial⟩)
      (keys r) (keys_nodup r) s A G hi (Nat.le_refl _) trivial
    exact ⟨t, calls, by rw [onRange, each_list r h1 h2, t1], t2, t3⟩
  | font o =>
    obtain ⟨t, calls, t1, t2, t3⟩ := loop i (fun k => rangeCalls A.look.looks.fonts r k (.font o)) (fontBody i o) id (fun _ => True) 0
      (by
        intro k s' A' G' hi' hn _
        obtain ⟨t, m1, m2⟩ := font_pass G' i hi' _ k o ho
        exact ⟨t, m1, m2, trivial⟩)
      (keys r) (keys_nodup r) s A G hi (Nat.zero_le _) trivial
    exact ⟨t, calls, by rw [onRange, each_list r h1 h2, t1], t2, t3⟩
  | color n => exact memo _ (fun _ _ x => x.flags) (colorOps n) (Area.color_ops ho)
  | box b => exact memo _ (boxTag r) (boxOps r b) (Area.box_ops ho r)

/-! ### Programs -/

/-- The objects a call names exist, and its arguments have the right types. -/
def Can (s : Desk.State) (A : Prog.Asked) : Area.Call → Prop
  | .desk (.on c) => Able s.prog A c
  | .desk _ => True
  | .range _ r o => r.lastRow < 2 ^ 32 - 1 ∧ r.lastCol < 2 ^ 32 - 1 ∧ RangeAble s.prog.look.styles o

/-- The call is no setter on a format that the workbook made for itself (to which `GetXF` of a cell without a format gives a pointer). -/
def Spares : Area.Call → Prop
  | .desk (.on c) => Own c
  | _ => True

/-- Along a program. -/
def AllCan (s : Desk.State) (A : Prog.Asked) : List Area.Call → Prop
  | [] => True
  | c :: r => Can s A c ∧ ∀ t, Area.step s c = some t → AllCan t (Area.ask s A c) r

/-- The plain program `calls` does what `P` does. -/
structure Same (s : Desk.State) (A : Prog.Asked) (n : Nat) (P : List Area.Call) (calls : List Desk.Call) (t : Desk.State) : Prop where
  run : Area.steps s P = some t
  plain : Desk.steps s calls = some t
  inner : Prog.steps s.prog (calls.filterMap Desk.Call.inner) = some t.prog
  able : AllAble s.prog A (calls.filterMap Desk.Call.inner)
  own : (∀ c ∈ P, Spares c) → ∀ c ∈ calls.filterMap Desk.Call.inner, Own c
  asked : Like (Prog.asked s.prog A (calls.filterMap Desk.Call.inner)) (Area.asked s A P)
  possible : Desk.Possible n calls
  core : calls.filter core = (P.flatMap frame).filter core
  spots : ∀ i p, p ∈ calls.filterMap (Desk.Call.spot i) → p ∈ (P.flatMap frame).filterMap (Desk.Call.spot i)
  covers : ∀ i p, p ∈ (P.flatMap frame).filterMap (Desk.Call.spot i) →
    p ∈ calls.filterMap (Desk.Call.spot i) ∨ ∃ d, lastWrite A.look.writes i p.1 p.2 = some d

/-- One call, then the others. -/
theorem Same.cons {s u t : Desk.State} {A : Prog.Asked} {n m : Nat} {c : Area.Call} {P : List Area.Call} {l r : List Desk.Call} (h1 : Area.step s c = some u)
    (h2 : Desk.steps s l = some u) (h3 : Prog.steps s.prog (l.filterMap Desk.Call.inner) = some u.prog)
    (h4 : AllAble s.prog A (l.filterMap Desk.Call.inner)) (h4' : Spares c → ∀ c ∈ l.filterMap Desk.Call.inner, Own c)
    (h5 : Like (Prog.asked s.prog A (l.filterMap Desk.Call.inner)) (Area.ask s A c))
    (h6 : Desk.Possible n l) (hm : m = n + (names l).length) (h7 : l.filter Area.core = (frame c).filter Area.core)
    (h8 : ∀ i p, p ∈ l.filterMap (Desk.Call.spot i) → p ∈ (frame c).filterMap (Desk.Call.spot i))
    (h9 : ∀ i p, p ∈ (frame c).filterMap (Desk.Call.spot i) → p ∈ l.filterMap (Desk.Call.spot i) ∨ ∃ d, lastWrite A.look.writes i p.1 p.2 = some d)
    (h : Same u (Area.ask s A c) m P r t) : Same s A n (c :: P) (l ++ r) t := by
  obtain ⟨m1, m2⟩ := h5.symm.all h.able
  obtain ⟨k1, k2⟩ := all_append h3 h4 m1
  refine ⟨?_, ?_, ?_, ?_, ?_, ?_, ?_, ?_, ?_, ?_⟩
  · rw [Area.steps, h1]; exact h.run
  · rw [Desk.steps_append, h2]; exact h.plain
  · rw [List.filterMap_append, Desk.prog_append, h3]; exact h.inner
  · rw [List.filterMap_append]; exact k1
  · intro hP c hc
    rw [List.filterMap_append, List.mem_append] at hc
    exact hc.elim (h4' (hP _ (by simp)) c) (h.own (fun c hc => hP c (by simp [hc])) c)
  · rw [List.filterMap_append, k2, Area.asked, h1]
    exact m2.symm.trans h.asked
  · exact (Desk.possible_append _ _ _).mpr ⟨h6, hm ▸ h.possible⟩
  · rw [List.filter_append, h7, h.core, List.flatMap_cons, List.filter_append]
  · intro i p hp
    rw [List.filterMap_append, List.mem_append] at hp
    rw [List.flatMap_cons, List.filterMap_append, List.mem_append]
    exact hp.imp (h8 i p) (h.spots i p)
  · intro i p hp
    rw [List.flatMap_cons, List.filterMap_append, List.mem_append] at hp
    rw [List.filterMap_append, List.mem_append]
    rcases hp with hp | hp
    · rcases h9 i p hp with h | h
      · exact .inl (.inl h)
      · exact .inr h
    · rcases h.covers i p hp with h | ⟨d, h⟩
      · exact .inl (.inr h)
      · rw [← h5.writes] at h
        rcases asked_spot i p h with h | h
        · exact .inr h
        · exact .inl (.inl (inner_spot h))

theorem goes (P : List Area.Call) {pre : List Desk.Call} {s : Desk.State} {A : Prog.Asked} (S : Stands pre s) (G : Sound s.prog A)
    (hp : Possible (names pre).length P) (hn : (names pre).length + (names (P.flatMap frame)).length ≤ 65536) (hf : AllCan s A P) :
    ∃ calls t, Same s A (names pre).length P calls t := by
  have nm : ∀ a b, names (a ++ b) = names a ++ names b := fun a b => by simp [names]
  induction P generalizing pre s A with
  | nil => exact ⟨[], s, rfl, rfl, rfl, trivial, (fun _ _ h => by cases h), .refl _, trivial, rfl, fun _ _ h => h, fun _ _ h => .inl h⟩
  | cons c P ih =>
    obtain ⟨f1, f3⟩ := hf
    rw [List.flatMap_cons, nm, List.length_append] at hn
    cases c with
    | desk c =>
      have hn1 : (names (pre ++ [c])).length ≤ 65536 := by
        rw [nm, List.length_append]
        have : names (frame (.desk c)) = names [c] := rfl
        rw [this] at hn
        omega
      have ht : (∀ i, Desk.target c = some i → i < (names pre).length) ∧ Possible (names (pre ++ [c])).length P ∧ Desk.Possible (names pre).length [c] := by
        rw [nm, List.length_append]
        cases c with
        | sheet nm => exact ⟨fun i h => (by cases h), hp, trivial⟩
        | _ => exact ⟨hp.1, hp.2, hp.1, trivial⟩
      have hpr : ∃ p, Prog.steps s.prog (Desk.Call.inner c).toList = some p ∧ Sound p (Area.ask s A (.desk c)) ∧
          AllAble s.prog A (Desk.Call.inner c).toList ∧ (Spares (.desk c) → ∀ e ∈ (Desk.Call.inner c).toList, Own e) ∧
          Like (Prog.asked s.prog A (Desk.Call.inner c).toList) (Area.ask s A (.desk c)) := by
        cases c with
        | on d =>
          obtain ⟨p, p1, p2⟩ := G.step d f1
          refine ⟨p, ?_, p2, ⟨f1, fun _ _ => trivial⟩, ?_, ?_⟩
          · show Prog.steps s.prog [d] = _
            rw [Prog.steps, p1]
            rfl
          · intro hd c hc
            cases List.mem_singleton.mp hc
            exact hd
          · show Like (Prog.asked s.prog A [d]) _
            rw [Prog.asked, p1]
            exact .refl _
        | _ => exact ⟨s.prog, rfl, G, trivial, (fun _ _ h => by cases h), .refl _⟩
      obtain ⟨p, p1, p2, p3, p3', p4⟩ := hpr
      obtain ⟨u, u1, u2, rfl⟩ := Desk.stands_step S c hn1 ht.1 p1
      obtain ⟨calls, t, h⟩ := ih u2 p2 ht.2.1 (by
        rw [nm, List.length_append]
        have : names (frame (.desk c)) = names [c] := rfl
        rw [this] at hn
        omega) (f3 u u1)
      have hin : [c].filterMap Desk.Call.inner = (Desk.Call.inner c).toList := by
        cases hc : Desk.Call.inner c <;> simp [hc]
      refine ⟨[c] ++ calls, t, Same.cons (m := (names (pre ++ [c])).length) u1 ?_ (by rw [hin]; exact p1) (by rw [hin]; exact p3) (by rw [hin]; exact p3')
        (by rw [hin]; exact p4) ht.2.2 (by rw [nm, List.length_append]) rfl (fun _ _ h => h) (fun _ _ h => .inl h) h⟩
      show Desk.steps s [c] = _
      rw [Desk.steps, u1]
      rfl
    | range i r o =>
      obtain ⟨g1, g2, g3⟩ := f1
      have hi : i < s.wb.sheets.length := by rw [S.sheets, List.length_range]; exact hp.1
      obtain ⟨u, l, h1, h2, h3⟩ := range_steps G i hi r g1 g2 o g3
      have hstep : Area.step s (.range i r o) = some u := by rw [Area.step, if_pos hi, h1]
      have hcore : l.filter core = [] := by
        rw [List.filter_eq_nil_iff]
        intro c hc
        rcases h3.only c hc with ⟨k, -, rfl⟩ | ⟨a, rfl⟩ <;> simp [core, blankAt, styled]
      have hcoref : (frame (.range i r o)).filter core = [] := by
        rw [List.filter_eq_nil_iff]
        intro c hc
        obtain ⟨k, -, rfl⟩ := List.mem_map.mp hc
        simp [core, blankAt]
      have hnames : names l = [] := by
        unfold names
        rw [filterMap_core _ (fun _ => rfl), hcore]
        rfl
      have hposs : Desk.Possible (names pre).length l := by
        have : ∀ m : List Desk.Call, (∀ c ∈ m, (∃ k ∈ keys r, c = blankAt i k.1 k.2) ∨ ∃ a, c = styled a) → Desk.Possible (names pre).length m := by
          intro m hm
          induction m with
          | nil => trivial
          | cons c m ih =>
            have ih := ih fun c hc => hm c (by simp [hc])
            rcases hm c (by simp) with ⟨k, -, rfl⟩ | ⟨a, rfl⟩
            · exact ⟨fun j hj => (by cases hj; exact hp.1), ih⟩
            · exact ⟨fun j hj => (by cases hj), ih⟩
        exact this l h3.only
      obtain ⟨u', u1, u2, -⟩ := stands_steps S l hposs (by rw [nm, hnames, List.append_nil]; omega) h2.inner
      rw [h2.run] at u1
      obtain rfl := Option.some.inj u1
      have hnp : names (pre ++ l) = names pre := by rw [nm, hnames, List.append_nil]
      obtain ⟨calls, t, h⟩ := ih u2 h2.sound (by rw [hnp]; exact hp.2) (by rw [hnp]; omega) (f3 u hstep)
      refine ⟨l ++ calls, t, Same.cons (m := (names (pre ++ l)).length) hstep h2.run h2.inner h2.able (fun _ => h2.own) h2.asked hposs (by rw [nm, List.length_append])
        (by rw [hcore, hcoref]) ?_ ?_ h⟩
      · intro j p hm
        obtain ⟨c, hc, hs⟩ := List.mem_filterMap.mp hm
        rcases h3.only c hc with ⟨k, hk, rfl⟩ | ⟨a, rfl⟩
        · exact List.mem_filterMap.mpr ⟨_, List.mem_map.mpr ⟨k, hk, rfl⟩, hs⟩
        · cases hs
      · intro j p hm
        obtain ⟨c, hc, hs⟩ := List.mem_filterMap.mp hm
        obtain ⟨k, hk, rfl⟩ := List.mem_map.mp hc
        simp only [blankAt, Desk.Call.spot] at hs
        split at hs
        · rename_i e
          subst e
          cases Option.some.inj hs
          cases hw : lastWrite A.look.writes i k.1 k.2 with
          | some d => exact .inr ⟨d, rfl⟩
          | none =>
            refine .inl (List.mem_filterMap.mpr ⟨_, h3.all k hk hw, ?_⟩)
            simp [blankAt, Desk.Call.spot]
        · cases hs

theorem begin_sound {p0 : Prog.State} (h0 : Prog.init = some p0) : Sound (Desk.start p0).prog Prog.nothing := by
  obtain ⟨p, h1, G0⟩ := Mirror.init_sound
  rw [h0] at h1
  cases Option.some.inj h1
  exact G0

theorem from_start (P : List Area.Call) (p0 : Prog.State) (h0 : Prog.init = some p0) (hp : Possible 0 P) (hf : AllCan (Desk.start p0) Prog.nothing P)
    (hn1 : (names (P.flatMap frame)).length ≤ 1000) : ∃ calls t, Same (Desk.start p0) Prog.nothing 0 P calls t ∧ Alike calls (P.flatMap frame) := by
  obtain ⟨calls, t, h⟩ := goes P (Desk.stands_init p0) (begin_sound h0) hp (by show 0 + _ ≤ _; omega) hf
  refine ⟨calls, t, h, h.core, fun i p => ⟨h.spots i p, fun hm => ?_⟩⟩
  rcases h.covers i p hm with h | ⟨d, hd⟩
  · exact h
  · exact absurd hd (by simp [Prog.nothing, Look.nothing, lastWrite])

/-! ### The formats of the workbook itself -/

theorem same_prog {s t : Prog.State} {A : Prog.Asked} (G : Sound s A) {c : Prog.Call} (hc : Own c) (h : Prog.step s c = some t) :
    Desk.Same s.look.styles t.look.styles := by
  have hs := G.styles.many
  cases c with
  | look c =>
    obtain ⟨l, h1, rfl⟩ := Option.map_eq_some_iff.mp h
    cases c with
    | put i row col v q =>
      obtain ⟨b, -, h1⟩ := Option.bind_eq_some_iff.mp (show (s.look.book.put i _).bind _ = some l from h1)
      obtain ⟨u, h2, rfl⟩ := Option.map_eq_some_iff.mp h1
      exact (Desk.same_new _ _).trans (Desk.same_fold h2)
    | style a =>
      obtain ⟨u, h2, rfl⟩ := Option.map_eq_some_iff.mp (show (Styles.step s.look.styles a).map _ = some l from h1)
      refine Desk.same_step hs ?_ h2
      rintro q o rfl
      exact hc
    | format code => cases h1; exact .refl _
  | page i a =>
    obtain ⟨u, h1, rfl⟩ := Option.map_eq_some_iff.mp h
    cases hk : Prog.slotOf i a with
    | none => rw [hk] at h1; cases h1; exact .refl _
    | some k =>
      obtain ⟨k, x⟩ := k
      rw [hk] at h1
      have : Desk.Same s.look.styles u.look.styles := Desk.same_give (k := k) (x := x) h1
      exact this

theorem same_steps {s t : Prog.State} {A : Prog.Asked} (G : Sound s A) {calls : List Prog.Call} (hf : AllAble s A calls) (ho : ∀ c ∈ calls, Own c)
    (h : Prog.steps s calls = some t) : Desk.Same s.look.styles t.look.styles := by
  induction calls generalizing s A with
  | nil => cases h; exact .refl _
  | cons c r ih =>
    obtain ⟨u, u1, u2⟩ := G.step c hf.1
    rw [Prog.steps, u1, Option.bind_some] at h
    exact (same_prog G (ho c (by simp)) u1).trans (ih u2 (hf.2 u u1) (fun c hc => ho c (by simp [hc])) h)

end Xls.Free
