import Verif.Page.Steady
/-
C59 with nothing assumed but the program.
-/
namespace Xls.Page
open Xls.Biff Xls.Sheet Xls.Cells Xls.Book Xls.Save Xls.Whole

variable {α : Type}

/-- The call sets a row's height. -/
def Act.isHeight : Act → Bool
  | .call (.rowheight ..) => true
  | _ => false

/-- The call puts a comment on a cell. -/
def Act.isComment : Act → Bool
  | .comment .. => true
  | _ => false

/-- Links and validations whose records need no CONTINUE. -/
def Short : Act → Prop
  | .call (.hyperLink _ _ u m) => u.length + m.length ≤ 4000
  | .call (.validate v) => (dvPayload v).length ≤ 8224
  | _ => True

/-- Sheet `i` of a book after these calls. -/
def settled (b : Whole.Book) (acts : Nat → List Act) (i : Nat) : Data (Nat × Val) Note.Note × Sheet.St (Nat × Val) :=
  (applyAll (new (plainSheet b i).1) (acts i),
   { (plainSheet b i).2 with idxs := List.replicate (applyAll (new (plainSheet b i).1) (acts i)).notes.length 0 })

/-- What the calls leave alone. -/
theorem apply_keeps (D : Data α Note.Note) (a : Act) :
    (apply D a).cells = D.cells ∧ (apply D a).dimension = D.dimension ∧ (apply D a).active = D.active ∧ (apply D a).index = D.index := by
  cases a with
  | call c =>
    cases c with
    | colwidth k w x => show (D.colwidth k w x).cells = _ ∧ _; unfold Data.colwidth; simp only [apply, Data.call, Data.colwidth]; split <;> exact ⟨rfl, rfl, rfl, rfl⟩
    | rowheight k w x => show (D.rowheight k w x).cells = _ ∧ _; unfold Data.rowheight; simp only [apply, Data.call, Data.rowheight]; split <;> exact ⟨rfl, rfl, rfl, rfl⟩
    | _ => exact ⟨rfl, rfl, rfl, rfl⟩
  | comment r c a t =>
    obtain ⟨n, hmk, -⟩ := Note.c47_call r c a t
    simp only [apply, hmk]
    exact ⟨trivial, trivial, trivial, trivial⟩
  | _ => exact ⟨rfl, rfl, rfl, rfl⟩

theorem applyAll_keeps (D : Data α Note.Note) (l : List Act) :
    (applyAll D l).cells = D.cells ∧ (applyAll D l).dimension = D.dimension ∧ (applyAll D l).active = D.active ∧ (applyAll D l).index = D.index := by
  induction l using snoc_induction with
  | h0 => exact ⟨rfl, rfl, rfl, rfl⟩
  | h1 l a ih =>
    rw [applyAll_snoc]
    obtain ⟨k1, k2, k3, k4⟩ := apply_keeps (applyAll D l) a
    exact ⟨k1.trans ih.1, k2.trans ih.2.1, k3.trans ih.2.2.1, k4.trans ih.2.2.2⟩

theorem replaced_length {β : Type} (key : β → Key) (x : β) (l : List β) :
    (match setFind key (key x) l with
      | some _ => (setInsert key x (setErase key (key x) l)).1
      | none => (setInsert key x l).1).length ≤ l.length + 1 := by
  split
  · have := (setInsert_length key x (setErase key (key x) l)).1
    have := setErase_length key (key x) l
    omega
  · exact (setInsert_length key x l).1

theorem apply_lengths (D : Data α Note.Note) (a : Act) :
    (apply D a).heights.length ≤ D.heights.length + (if a.isHeight then 1 else 0) ∧
      (apply D a).notes.length ≤ D.notes.length + (if a.isComment then 1 else 0) ∧
      (Ordered heightKey D.heights → Ordered heightKey (apply D a).heights) := by
  cases a with
  | call c =>
    cases c with
    | colwidth k w x =>
      have e : (D.colwidth k w x).heights = D.heights ∧ (D.colwidth k w x).notes = D.notes := by
        unfold Data.colwidth; simp only; split <;> exact ⟨rfl, rfl⟩
      simp only [apply, Data.call]
      rw [e.1, e.2]
      exact ⟨by simp, by simp, id⟩
    | rowheight k w x =>
      refine ⟨?_, ?_, fun h => (rowheight_heights D k w x h).1⟩
      · have := replaced_length heightKey ⟨k.toNat, w.toNat, x⟩ D.heights
        simp only [apply, Data.call, Data.rowheight, Act.isHeight, if_true]
        cases hs : setFind heightKey (heightKey ⟨k.toNat, w.toNat, x⟩) D.heights with
        | none => rw [hs] at this; exact this
        | some y => rw [hs] at this; exact this
      · have e : (D.rowheight k w x).notes = D.notes := by
          unfold Data.rowheight; simp only; split <;> rfl
        simp only [apply, Data.call]
        rw [e]; simp
    | _ => exact ⟨Nat.le_add_right _ _, Nat.le_add_right _ _, id⟩
  | comment r c a t =>
    obtain ⟨n, hmk, -⟩ := Note.c47_call r c a t
    simp only [apply, hmk, Act.isComment, if_true]
    exact ⟨by simp, by
      have := replaced_length noteKey n D.notes
      unfold place
      cases hs : setFind noteKey (noteKey n) D.notes with
      | none => rw [hs] at this; exact this
      | some y => rw [hs] at this; exact this, id⟩
  | box r c e => exact ⟨Nat.le_add_right _ _, by simp [apply, Act.isComment], id⟩
  | _ => exact ⟨Nat.le_add_right _ _, Nat.le_add_right _ _, id⟩

theorem applyAll_lengths (D : Data α Note.Note) (l : List Act) :
    (applyAll (new D) l).heights.length ≤ l.countP Act.isHeight ∧ (applyAll (new D) l).notes.length ≤ l.countP Act.isComment ∧
      Ordered heightKey (applyAll (new D) l).heights := by
  induction l using snoc_induction with
  | h0 => exact ⟨by simp [applyAll, new, Data.fresh], by simp [applyAll, new], by simp [applyAll, new, Data.fresh, Ordered]⟩
  | h1 l a ih =>
    rw [applyAll_snoc, List.countP_append, List.countP_append, List.countP_singleton, List.countP_singleton]
    obtain ⟨k1, k2, k3⟩ := apply_lengths (applyAll (new D) l) a
    exact ⟨by omega, by omega, k3 ih.2.2⟩

/-- The dump state of a sheet that was never saved, sheetrec.cpp 75-124. -/
def unsaved (D : Data (Nat × Val) Note.Note) : Sheet.St (Nat × Val) :=
  ⟨.init, [], ⟨.init, [], [], [], 0, 0, 0, 0, []⟩, 0, 0, List.replicate D.notes.length 0, [], [], [], 0⟩

theorem unsaved_ready (D : Data (Nat × Val) Note.Note) : Ready D (unsaved D) := ⟨rfl, rfl, by simp [unsaved]⟩

/-- With fewer than 16 row heights the library always gets past the rows. -/
theorem few_steady (W : Nat → Nat → Prop) (acts : List Act) (hh : acts.countP Act.isHeight < 16) : Steady W acts := by
  intro R hR hmem k n hk
  left
  refine Classical.byContradiction fun hno => ?_
  have hlen : ((R.drop (16 * k)).take 16).length = 16 := by
    have := (List.getElem?_eq_some_iff.mp hk).1
    rw [List.length_take, List.length_drop]; omega
  have hsub : ((R.drop (16 * k)).take 16).Sublist R := (List.take_sublist _ _).trans (List.drop_sublist _ _)
  have hnd : ((R.drop (16 * k)).take 16).Nodup := (hR.sublist hsub).imp (fun h => by omega)
  let f : Act → Option Nat := fun a => match a with
    | .call (.rowheight r _ _) => some r.toNat
    | _ => none
  have hf : (acts.filterMap f).length = acts.countP Act.isHeight := by
    rw [List.length_filterMap_eq_countP]
    refine congrFun (congrArg _ (funext fun a => ?_)) _
    cases a with
    | call c => cases c <;> rfl
    | _ => rfl
  have := hnd.length_le_of_subset (l₂ := acts.filterMap f) (fun m hm => by
    rcases (hmem m).mp (hsub.subset hm) with ⟨c, hc⟩ | ⟨hl, _⟩
    · exact absurd ⟨m, hm, c, hc⟩ hno
    · obtain ⟨x, hx⟩ := Option.ne_none_iff_exists'.mp hl
      obtain ⟨a, ha, he⟩ := latest_mem hx
      refine List.mem_filterMap.mpr ⟨a, ha, ?_⟩
      cases a with
      | call c =>
        cases c with
        | rowheight r w x =>
          simp only [Act.height] at he
          by_cases e : r.toNat = m
          · exact congrArg some e
          · rw [if_neg e] at he; cases he
        | _ => cases he
      | _ => cases he)
  rw [hlen, hf] at this
  omega

theorem tame_of {h : List (Nat × Cell Val)} {b : Whole.Book} (r : Reach h b) (i : Nat) (D0 : Data (Nat × Val) Note.Note)
    (hD : D0.cells = (b.sheets i).cells) (hd : D0.dimension.length ≤ 8224)
    (acts : List Act) (hfit : ∀ a ∈ acts, InLimits a ∧ Short a) (hh : Steady (Written h i) acts) (hc : acts.countP Act.isComment ≤ 65535)
    (st : Sheet.St (Nat × Val)) (hst : Ready (applyAll (new D0) acts) st) : Tame b i (applyAll (new D0) acts, st) := by
  have hA := after_all D0 acts
  obtain ⟨k1, k2, -, -⟩ := applyAll_keeps (new D0) acts
  obtain ⟨m1, m2, m3⟩ := applyAll_lengths D0 acts
  have hsorted := sorted_of_ordered m3
  refine ⟨k1.trans hD, hst, Nat.le_trans m2 hc, ?_, ?_, ?_, ?_, hsorted, ?_⟩
  · intro n hn
    obtain ⟨a, ha, he⟩ := latest_mem (hA.notes n hn)
    have hf := (hfit a ha).1
    cases a with
    | comment r c a t =>
      simp only [Act.remark] at he
      by_cases hk : r.toNat = n.row.toNat ∧ c.toNat = n.col.toNat
      · rw [if_pos hk] at he
        simp only [Option.some.injEq, Prod.mk.injEq] at he
        have f1 := signed_length a
        have f2 := worded_length t
        have e : n.full = n.author ++ [58, 10] ++ n.text := rfl
        rw [e, ← he.1, ← he.2]
        simp only [List.length_append, List.length_cons, List.length_nil]
        omega
      · rw [if_neg hk] at he; cases he
    | _ => cases he
  · show (applyAll (new D0) acts).dimension.length ≤ _
    rw [k2]; exact hd
  · intro l hl
    have hl' : l ∈ (applyAll (new D0) acts).links := hl
    rw [hA.links] at hl'
    obtain ⟨a, ha, he⟩ := List.mem_filterMap.mp hl'
    have hf := (hfit a ha).2
    cases a with
    | call k =>
      cases k with
      | hyperLink r c u m =>
        simp only [Act.link, Option.map_some, Option.some.injEq] at he
        subst he
        exact hf
      | _ => cases he
    | _ => cases he
  · intro v hv
    exact (hfit _ (hA.dvalsMem v hv)).2
  · have hcell := hasCell_iff r (D := applyAll (new D0) acts) (k1.trans hD)
    refine (steady_iff (acts := acts) ?_ hsorted (heights_after D0 acts).2).mp (hcell ▸ hh)
    rw [show (applyAll (new D0) acts).cells = (b.sheets i).cells from k1.trans hD]
    exact (reach_sheets r i).ordered

theorem settled_tame {h : List (Nat × Cell Val)} {b : Whole.Book} (r : Reach h b) (acts : Nat → List Act) (hfit : ∀ i, ∀ a ∈ acts i, InLimits a ∧ Short a)
    (hh : ∀ i, Steady (Written h i) (acts i)) (hc : ∀ i, (acts i).countP Act.isComment ≤ 65535) (i : Nat) : Tame b i (settled b acts i) :=
  tame_of r i (plainSheet b i).1 rfl (by simp [plainSheet]) (acts i) (hfit i) (hh i) (hc i) _ (unsaved_ready _)

/-- Such a workbook is saved. -/
theorem settled_saves {ar : Nat → Option Nat} (hA : Formula.KnowsArity ar) (h : List (Nat × Cell Val)) (hd : (h.map (·.2.id)).Nodup)
    (hf : All Sound h) (hlen : h.length < 2 ^ 32) (hrow : FewRows h) (xf : WCell → Nat) (hx : ∀ c, xf c < 65536) (cs : WCell → Nat)
    (names : List (List UInt16)) (hn0 : names ≠ []) (hn1 : names.length ≤ 1000) (hn2 : ∀ n ∈ names, n.length < 256)
    (acts : Nat → List Act) (hfit : ∀ i, ∀ a ∈ acts i, InLimits a ∧ Short a)
    (hh : ∀ i, Steady (Written h i) (acts i)) (hc : ∀ i, (acts i).countP Act.isComment ≤ 65535) :
    ∃ b D fuel us s', D.bounds.map (·.name) = names ∧ Reach h b ∧ Pours b D ((List.range names.length).map (settled b acts)) ∧
      Saveable (fun c => cellBytes b.labels (xf c) c) D demoGs ((List.range names.length).map (settled b acts)) ∧
      start (D, demoGs) ((List.range names.length).map (settled b acts)) (plainStart D ((List.range names.length).map (settled b acts))) ∧
      Book.run Globals.next (Sheet.next (Note.env (fun c => cellBytes b.labels (xf c) c) cs)) fuel
        (plainStart D ((List.range names.length).map (settled b acts))) = .done us s' ∧ SmallGlobals D ∧
      (∀ sh ∈ (List.range names.length).map (settled b acts), SmallSheet (fun c => cellBytes b.labels (xf c) c) sh.1) ∧
      Set acts ((List.range names.length).map (settled b acts)) := by
  obtain ⟨b, r, -⟩ := reach_of h hd
  obtain ⟨table, ht⟩ := labels_text r
  have hget : ∀ (i : Nat) sh, ((List.range names.length).map (settled b acts))[i]? = some sh → sh = settled b acts i := by
    intro i sh hi
    rw [List.getElem?_map] at hi
    obtain ⟨j, hj, rfl⟩ := Option.map_eq_some_iff.mp hi
    have := (List.getElem?_eq_some_iff.mp hj).2
    simp only [List.getElem_range] at this
    subst this
    rfl
  obtain ⟨n, us, s', hp, hok, hrun, hsm, hsh⟩ := tame_saves hA h b r hf hlen hrow xf hx cs names hn0 hn1 hn2
    (demoGlobals (names.map fun n => ⟨n, 0⟩) table) (by simp [demoGlobals, Function.comp_def]) ht (by simp [demoGlobals]) (by simp [demoGlobals]) (by
      intro p hp
      simp only [demoGlobals, List.mem_append, List.mem_cons, List.not_mem_nil, or_false] at hp
      rcases hp with (((rfl | rfl) | rfl) | rfl) <;> decide) ((List.range names.length).map (settled b acts)) (by simp)
    (fun i sh hi => by rw [hget i sh hi]; exact settled_tame r acts hfit hh hc i) demoGs rfl
    (plainStart (demoGlobals (names.map fun n => ⟨n, 0⟩) table) _) ⟨rfl, rfl, rfl, rfl⟩
  exact ⟨b, _, n, us, s', by simp [demoGlobals, Function.comp_def], r, hp, hok, ⟨rfl, rfl, rfl, rfl⟩, hrun, hsm, hsh,
    fun i sh hi => ⟨(plainSheet b i).1, by rw [hget i sh hi]; rfl⟩⟩

/-- C59, nothing assumed but the program: any writes of cells (as in C55) and any calls that fit, with rows that do not stall, on the sheets
    of a new workbook are saved without undefined behaviour, and a reader finds the cells and everything else as asked. -/
theorem c59_plain {ar : Nat → Option Nat} (hA : Formula.KnowsArity ar) (h : List (Nat × Cell Val)) (hd : (h.map (·.2.id)).Nodup)
    (hf : All Whole.Fine h) (hlen : h.length < 2 ^ 32) (hrow : FewRows h) (xf : WCell → Nat) (hx : ∀ c, xf c < 65536) (cs : WCell → Nat)
    (names : List (List UInt16)) (hn0 : names ≠ []) (hn1 : names.length ≤ 1000) (hn2 : ∀ n ∈ names, n.length < 256)
    (acts : Nat → List Act) (hfit : ∀ i, ∀ a ∈ acts i, Fit a ∧ Short a) (hl : ∀ i, (acts i).length < 2 ^ 32)
    (hh : ∀ i, Steady (Written h i) (acts i)) (hc : ∀ i, (acts i).countP Act.isComment ≤ 65535) :
    ∃ b D fuel us s' bs, Reach h b ∧
      Book.run Globals.next (Sheet.next (Note.env (fun c => cellBytes b.labels (xf c) c) cs)) fuel
        (plainStart D ((List.range names.length).map (settled b acts))) = .done us s' ∧
      stream us s'.bpos = some bs ∧ (bs.length < 2 ^ 32 → ∃ L M, openCells bs = some (names.zip L) ∧ openPages bs = some (names.zip M) ∧
        L.length = names.length ∧ M.length = names.length ∧ (∀ (i : Nat) xs, L[i]? = some xs → ReadsBack (Holds ar) h xf i xs) ∧
        ∀ (i : Nat) P, M[i]? = some P → Asked (acts i) P ∧ P.selected = (i == 0) ∧ P.displayed = (i == 0)) := by
  obtain ⟨b, D, n, us, s', hN, r, hp, hok, hs, hrun, hsm, hsh, hset⟩ := settled_saves hA h hd hf.sound hlen hrow xf hx cs names hn0 hn1 hn2 acts
    (fun i a ha => ⟨(hfit i a ha).1.1, (hfit i a ha).2⟩) hh hc
  obtain ⟨bs, e1, e2⟩ := c55_open_partial hA h b r hf xf hx cs _ demoGs _ _ s' us n hp hok hs hrun hsm hsh
  obtain ⟨bs', f1, f2⟩ := c59_open_partial hA h b r hf.sound xf hx cs _ demoGs _ _ s' us n hp hok hs hrun hsm hsh acts hset
    (fun i a ha => (hfit i a ha).1) hl
  rw [e1] at f1
  obtain rfl := Option.some.inj f1
  refine ⟨b, _, n, us, s', bs, r, hrun, e1, fun h32 => ?_⟩
  obtain ⟨L, l1, l2, l3⟩ := e2 h32 []
  obtain ⟨M, m1, m2, m3⟩ := f2 h32 []
  rw [List.append_nil, hN] at l1 m1
  refine ⟨L, M, l1, m1, by simpa using l2, by simpa using m2, l3, fun i P hi => ?_⟩
  obtain ⟨g1, g2⟩ := m3 i P hi
  have hlt : i < names.length := by
    have := (List.getElem?_eq_some_iff.mp hi).1
    rw [m2] at this; simpa using this
  have hact : (settled b acts i).1.active = (i == 0) := (applyAll_keeps (new (plainSheet b i).1) (acts i)).2.2.1
  have := g2 (settled b acts i) (by rw [List.getElem?_map, List.getElem?_range hlt]; rfl)
  rw [hact] at this
  exact ⟨g1, this⟩

/-- A program that meets the conditions: on the second sheet the width of a column twice, a merged rectangle, frozen panes, a link, a validation,
    default sizes, a row height, and two comments on one cell. -/
def sampleActs : Nat → List Act
  | 1 => [.call (.colwidth 3 2560 none), .call (.merge 1 1 2 4), .call (.colwidth 3 5120 (some 21)), .split 2 1, .call (.hyperLink 5 6 [104] []),
      .call (.validate ⟨⟨0, 9, 0, 0⟩, 3, [65], [], [66], [], some (3, [0x1E, 1, 0]), none⟩), .call (.defRowHeight 20), .call (.defColWidth 12),
      .call (.rowheight 4 600 none), .comment 7 7 [65] [66], .comment 7 7 [67] [68, 10, 69]]
  | _ => []

example (t : List UInt16) (ht : t.length = 400) : latest (Act.remark 7 7) (sampleActs 1) = some ([67], [68, 10, 69]) ∧
    latest (Act.column 3) (sampleActs 1) = some (5120, some 21) ∧
    ∃ b D fuel us s' bs, Reach (sampleHist t) b ∧
      Book.run Globals.next (Sheet.next (Note.env (fun c => cellBytes b.labels 15 c) fun _ => 0)) fuel
        (plainStart D ((List.range 2).map (settled b sampleActs))) = .done us s' ∧
      stream us s'.bpos = some bs ∧ (bs.length < 2 ^ 32 → ∃ L M, openCells bs = some ([[65], [66]].zip L) ∧ openPages bs = some ([[65], [66]].zip M) ∧
        L.length = 2 ∧ M.length = 2 ∧ (∀ (i : Nat) xs, L[i]? = some xs → ReadsBack (Holds Formula.tableArity) (sampleHist t) (fun _ => 15) i xs) ∧
        ∀ (i : Nat) P, M[i]? = some P → Asked (sampleActs i) P ∧ P.selected = (i == 0) ∧ P.displayed = (i == 0)) := by
  have hfit : ∀ i, ∀ a ∈ sampleActs i, Fit a ∧ Short a := by
    intro i a ha
    unfold sampleActs at ha
    split at ha
    · simp only [List.mem_cons, List.not_mem_nil, or_false] at ha
      rcases ha with rfl | rfl | rfl | rfl | rfl | rfl | rfl | rfl | rfl | rfl | rfl <;> simp [Fit, InLimits, Short, Act.rowHeight]
      decide
    · cases ha
  have hc : ∀ i, (sampleActs i).length < 16 ∧ (sampleActs i).countP Act.isHeight < 16 ∧ (sampleActs i).countP Act.isComment ≤ 65535 := by
    intro i
    unfold sampleActs
    split <;> decide
  exact ⟨rfl, rfl, c59_plain Formula.tableArity_knows (sampleHist t) (by simp [sampleHist]) (sample_fine t ht) (by simp [sampleHist])
    (fewRows_of <| by
        intro p hp; simp only [sampleHist, List.mem_cons, List.not_mem_nil, or_false] at hp
        rcases hp with rfl | rfl | rfl | rfl | rfl | rfl | rfl | rfl | rfl | rfl <;> simp)
    (fun _ => 15) (fun _ => by decide) (fun _ => 0) [[65], [66]] (by decide) (by decide) (by decide) sampleActs hfit
    (fun i => by have := (hc i).1; omega) (fun i => few_steady _ _ (hc i).2.1) (fun i => (hc i).2.2)⟩

/-- The hypotheses of `c59_default_rows_lost` can be met: rows asked to be hidden by default. -/
example : ∃ b D fuel us s' bs rs G Rs R P, Reach [] b ∧
    Book.run Globals.next (Sheet.next (Note.env (fun c => cellBytes b.labels 15 c) fun _ => 0)) fuel
      (plainStart D ((List.range 1).map (settled b fun _ => [.defRow 20 true]))) = .done us s' ∧
    stream us s'.bpos = some bs ∧ records bs = some rs ∧ substreams rs = some (G :: Rs) ∧ Rs[0]? = some R ∧
      readPage R = some P ∧ P.rowsHidden = false ∧ P.rowHeight = 400 ∧ ¬ Asked [.defRow 20 true] P := by
  have hf : All Sound [] := by
    intro i row col c hw
    unfold lastWrite at hw
    simp at hw
  have hfit : ∀ i : Nat, ∀ a ∈ (fun _ : Nat => [Act.defRow 20 true]) i, InLimits a ∧ Short a := by
    intro i a ha
    simp only [List.mem_singleton] at ha
    subst ha
    exact ⟨trivial, trivial⟩
  obtain ⟨b, D, n, us, s', hN, r, hp, hok, hs, hrun, hsm, hsh, hset⟩ := settled_saves Formula.tableArity_knows [] (by simp) hf (by simp) (fewRows_of (by simp))
    (fun _ => 15) (fun _ => by decide) (fun _ => 0) [[65]] (by decide) (by decide) (by decide) _ hfit (fun _ => few_steady _ _ (by decide)) (fun _ => by decide)
  obtain ⟨bs, rs, G, Rs, R, P, h1⟩ := c59_default_rows_lost Formula.tableArity_knows _ b r hf (fun _ => 15) (fun _ => by decide) (fun _ => 0) D demoGs _ _ s' us n
    hp hok hs hrun _ hset (fun i a ha => (hfit i a ha).1) (fun _ => by decide) (i := 0) (by simp) rfl (.inl rfl)
  exact ⟨b, D, n, us, s', bs, rs, G, Rs, R, P, r, hrun, h1⟩

end Xls.Page
