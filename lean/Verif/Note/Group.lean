import Verif.Note.Props
import Verif.Cells.Props
/-
C36, the workbook's drawing group: the numbers it announces against the comments that are there.
-/
namespace Xls.Note
open Xls.Biff Xls.Unit Xls.Spec Xls.Cells

/-- Whether a call is a call of `note`. -/
def isNote {α : Type} : GridOp α → Bool
  | .note _ => true
  | .cell _ => false

/-- The number of comments that the workbook keeps for a sheet: `note()` adds one in every call, sheetrec.cpp 881-897 with
    `BumpNoteCount`, globalrec.cpp 702-707; 16 bits, recdef.h 329. -/
def bumps {α : Type} (ops : List (GridOp α)) : Nat := ops.countP isNote % 65536

/-- What the group must say about sheets with these numbers of comments: the largest identifier, the number of
    shapes, of sheets with a drawing, and of shapes in each. -/
structure Describes (counts : List Nat) (g : Group) : Prop where
  drawings : g.drawings = (counts.filter (· ≠ 0)).length
  shapes : g.shapes = ((counts.filter (· ≠ 0)).map (· + 1)).sum
  clusters : g.clusters = (counts.filter (· ≠ 0)).zipIdx.map fun p => (p.2 + 1, p.1 + 1)

theorem withNotes_snd (l : List Nat) : ∀ i, (withNotes i l).map (·.2) = l.filter (· ≠ 0) := by
  induction l with
  | nil => intro i; rfl
  | cons c r ih =>
    intro i
    rw [withNotes]
    by_cases h : c ≠ 0
    · rw [if_pos h, List.map_cons, ih, List.filter_cons, if_pos (by simpa using h)]
    · rw [if_neg h, ih, List.filter_cons, if_neg (by simpa using h)]

theorem withNotes_mem (l : List Nat) : ∀ i (sc : Nat × Nat), sc ∈ withNotes i l → i + l.length ≤ 65536 →
    i ≤ sc.1 ∧ l[sc.1 - i]? = some sc.2 ∧ sc.2 ≠ 0 := by
  induction l with
  | nil => intro i sc h; simp [withNotes] at h
  | cons c r ih =>
    intro i sc h hl
    rw [List.length_cons] at hl
    have step : sc ∈ withNotes (i + 1) r → i ≤ sc.1 ∧ (c :: r)[sc.1 - i]? = some sc.2 ∧ sc.2 ≠ 0 := by
      intro h
      obtain ⟨a, b, d⟩ := ih (i + 1) sc h (by omega)
      refine ⟨by omega, ?_, d⟩
      rw [show sc.1 - i = sc.1 - (i + 1) + 1 by omega, List.getElem?_cons_succ, b]
    rw [withNotes] at h
    by_cases hc : c ≠ 0
    · rw [if_pos hc, List.mem_cons] at h
      rcases h with rfl | h
      · simp only [Nat.mod_eq_of_lt (show i < 65536 by omega)]
        refine ⟨Nat.le_refl _, by simp, hc⟩
      · exact step h
    · rw [if_neg hc] at h
      exact step h

theorem clusters_length (l : List (Nat × Nat)) : ∀ i, (clusters i l).length = 8 * l.length := by
  induction l with
  | nil => intro i; rfl
  | cons a r ih =>
    intro i
    simp only [clusters, List.length_append, leN_length, ih, List.length_cons]
    omega

theorem clusters_read (l : List (Nat × Nat)) : ∀ i, i + l.length < 2 ^ 32 → (∀ a ∈ l, a.2 < 65536) →
    readClusters l.length (clusters i l) = some ((l.map (·.2)).zipIdx i |>.map fun p => (p.2 + 1, p.1 + 1)) := by
  induction l with
  | nil => intro i _ _; rfl
  | cons a r ih =>
    intro i hi h
    rw [List.length_cons] at hi
    have ha := h a (by simp)
    simp only [List.length_cons, clusters, readClusters, List.append_assoc, takeLE_leN_append]
    rw [ih (i + 1) (by omega) (fun y hy => h y (by simp [hy])), List.map_cons, List.zipIdx_cons, List.map_cons, Option.map_some,
      Nat.mod_eq_of_lt (by omega), Nat.mod_eq_of_lt (by omega), Nat.add_comm 1 a.2]

theorem sum_succ (l : List Nat) : (l.map (· + 1)).sum = l.length + l.sum := by
  induction l with
  | nil => rfl
  | cons a r ih => simp only [List.map_cons, List.sum_cons, ih, List.length_cons]; omega

theorem filter_sum (l : List Nat) : (l.filter (· ≠ 0)).sum = l.sum := by
  induction l with
  | nil => rfl
  | cons a r ih =>
    rw [List.filter_cons]
    split
    · rw [List.sum_cons, List.sum_cons, ih]
    · rename_i h
      simp only [ne_eq, decide_eq_true_eq, Decidable.not_not] at h
      rw [ih, h, List.sum_cons, Nat.zero_add]

theorem sum_bound (l : List Nat) (h : ∀ c ∈ l, c < 65536) : l.sum ≤ 65535 * l.length := by
  induction l with
  | nil => simp
  | cons a r ih =>
    have := h a (by simp)
    have := ih (fun c hc => h c (by simp [hc]))
    rw [List.sum_cons, List.length_cons]
    omega

theorem drawingGroup_read (notes : List (Nat × Nat)) (last : Nat × Nat) (hlast : notes.getLast? = some last) (hlen : notes.length ≤ 8000)
    (h : ∀ a ∈ notes, a.2 < 65536) :
    ∃ p, drawingGroup notes = some (enc (0xEB, p)) ∧ p.length = 82 + 8 * notes.length ∧
      readGroup p = some ⟨makeSPID last.1 last.2, notes.length + (notes.map (·.2)).sum, notes.length,
        (notes.map (·.2)).zipIdx.map fun p => (p.2 + 1, p.1 + 1)⟩ := by
  have hs : (notes.map (·.2)).sum ≤ 65535 * notes.length := by
    have := sum_bound (notes.map (·.2)) (by intro c hc; obtain ⟨a, ha, rfl⟩ := List.mem_map.mp hc; exact h a ha)
    rwa [List.length_map] at this
  have hm : makeSPID last.1 last.2 < 2 ^ 32 := by unfold makeSPID; omega
  unfold drawingGroup
  rw [hlast]
  simp only
  generalize hT : (notes.map (·.2)).sum = T at hs ⊢
  generalize hf : leN 4 (makeSPID last.1 last.2) ++ leN 4 (notes.length + 1) ++ leN 4 (notes.length + T) ++ leN 4 notes.length ++
    clusters 0 notes = f
  have hfl : f.length = 16 + 8 * notes.length := by
    rw [← hf]; simp only [List.length_append, leN_length, clusters_length]
  rw [drawData_nil 0 0 0xf006 _ f, drawData_nil 3 3 _ _ draw001, drawData_nil 0 4 _ _ draw002]
  generalize hb : drawData 0 0 0xf006 f.length [] ++ f ++ (drawData 3 3 0xf00b 18 [] ++ draw001) ++ (drawData 0 4 0xf11e 16 [] ++ draw002) = body
  have hbl : body.length = 74 + 8 * notes.length := by
    rw [← hb]
    simp only [List.length_append, drawData_length, hfl, List.length_nil, show draw001.length = 18 from rfl, show draw002.length = 16 from rfl]
    omega
  have e1 : Reads (drawData 0 4 0xf11e 16 [] ++ (draw002 ++ [])) _ := Reads.draw (by decide) (by decide) (by decide) rfl (by decide) .nil
  have e2 := Reads.draw (v := 3) (i := 3) (t := 0xf00b) (len := 18) (body := draw001) (by decide) (by decide) (by decide) rfl (by decide) e1
  have e3 := Reads.draw (v := 0) (i := 0) (t := 0xf006) (body := f) (by decide) (by decide) (by decide) rfl (by omega) e2
  have e4 : Reads body [.atom 0 0 0xf006 f, .atom 3 3 0xf00b draw001, .atom 0 4 0xf11e draw002] := by
    rw [← hb]
    simp only [List.append_assoc, List.append_nil] at e3 ⊢
    exact e3
  have e5 := (Reads.drawC (i := 0) (t := 0xf000) (by decide) (by decide) rfl (by omega) e4 .nil).nodes
  rw [List.append_nil] at e5
  refine ⟨_, rfl, by rw [drawData_length]; omega, ?_⟩
  unfold readGroup
  rw [drawData_nil 0xf 0 0xf000 _ body, e5]
  simp only [← hf, List.append_assoc, takeLE_leN_append]
  rw [Nat.mod_eq_of_lt (show notes.length + 1 < 256 ^ 4 by omega), Nat.add_sub_cancel,
    clusters_read notes 0 (by omega) h, Option.map_some, Nat.mod_eq_of_lt hm, Nat.mod_eq_of_lt (show notes.length < 256 ^ 4 by omega),
    Nat.mod_eq_of_lt (show notes.length + T < 256 ^ 4 by omega)]

/-- C36 (group): for any numbers of comments that the workbook keeps for its sheets, at most 8000 of them not zero, the group can be read
    and describes exactly these numbers: drawings, shapes (one more than comments in each) and clusters.  Without
    comments there is no group. -/
theorem c36_group (counts : List Nat) (h : ∀ c ∈ counts, c < 65536) (hw : (counts.filter (· ≠ 0)).length ≤ 8000) :
    (counts.filter (· ≠ 0) = [] ∧ makeDrawingGroup counts = some none) ∨
    (∃ p g, makeDrawingGroup counts = some (some (enc (0xEB, p))) ∧ p.length = 82 + 8 * (counts.filter (· ≠ 0)).length ∧ readGroup p = some g ∧ Describes counts g) := by
  have hf : ∀ c ∈ counts.filter (· ≠ 0), c < 65536 := fun c hc => h c (List.mem_filter.mp hc).1
  have hb := sum_bound _ hf
  rw [filter_sum] at hb
  have hsnd := withNotes_snd counts 0
  have hlen : (withNotes 0 counts).length = (counts.filter (· ≠ 0)).length := by rw [← hsnd, List.length_map]
  unfold makeDrawingGroup
  by_cases hz : counts.filter (· ≠ 0) = []
  · refine .inl ⟨hz, ?_⟩
    have : counts.sum = 0 := by rw [← filter_sum, hz]; rfl
    rw [this]; rfl
  · right
    have hpos : counts.sum ≠ 0 := by
      rw [← filter_sum]
      cases hc : counts.filter (· ≠ 0) with
      | nil => exact absurd hc hz
      | cons a r =>
        have : a ∈ counts.filter (· ≠ 0) := by rw [hc]; simp
        simp only [List.mem_filter, ne_eq, decide_eq_true_eq] at this
        rw [List.sum_cons]
        omega
    have hw2 : withNotes 0 counts ≠ [] := by intro e; rw [e] at hlen; exact hz (List.length_eq_zero_iff.mp hlen.symm)
    obtain ⟨p, h1, h2, h3⟩ := drawingGroup_read (withNotes 0 counts) _ (List.getLast?_eq_some_getLast hw2) (by omega)
      (fun a ha => hf _ (by rw [← hsnd]; exact List.mem_map_of_mem ha))
    rw [if_pos (by omega), h1]
    refine ⟨p, _, rfl, hlen ▸ h2, h3, ?_⟩
    rw [hsnd, hlen]
    exact ⟨rfl, (sum_succ _).symm, rfl⟩

/-- C36 (largest identifier): in a first save of at most 999 comments per sheet the group's largest identifier is in use, by the last
    shape of some sheet, and no shape of any sheet has a larger one. -/
theorem c36_largest_id (counts : List Nat) (h : ∀ c ∈ counts, c ≤ 999) (hl : counts.length ≤ 65536) (hw : (counts.filter (· ≠ 0)).length ≤ 8000)
    (p : Bytes) (hp : makeDrawingGroup counts = some (some (enc (0xEB, p)))) (hpl : p.length < 65536) :
    ∃ g, readGroup p = some g ∧
      (∃ i c, counts[i]? = some c ∧ c ≠ 0 ∧ g.maxId = (i + 1) * 1000 + 24 + c) ∧
      (∀ i c j, counts[i]? = some c → c ≠ 0 → j ≤ c → (i + 1) * 1000 + 24 + j ≤ g.maxId) := by
  have hsnd := withNotes_snd counts 0
  have hlen : (withNotes 0 counts).length = (counts.filter (· ≠ 0)).length := by rw [← hsnd, List.length_map]
  have hw2 : withNotes 0 counts ≠ [] := by
    intro e
    unfold makeDrawingGroup at hp
    rw [e] at hp
    simp [drawingGroup] at hp
  have hlast := List.getLast?_eq_some_getLast hw2
  generalize (withNotes 0 counts).getLast hw2 = last at hlast
  obtain ⟨p', h1, h2, h3⟩ := drawingGroup_read (withNotes 0 counts) last hlast (by omega)
    (fun a ha => by
      have : a.2 ∈ counts.filter (· ≠ 0) := by rw [← hsnd]; exact List.mem_map_of_mem ha
      have := h _ (List.mem_filter.mp this).1
      omega)
  have hpp : p' = p := by
    unfold makeDrawingGroup at hp
    by_cases hz : counts.sum % 2 ^ 32 ≠ 0
    · rw [if_pos hz, h1] at hp
      simp only [Option.map_some, Option.some.injEq] at hp
      unfold enc at hp
      simp only [List.append_assoc] at hp
      have := List.append_inj (List.append_inj hp (by simp only [leN_length])).2 (by simp only [leN_length])
      exact this.2
    · rw [if_neg hz] at hp; simp at hp
  subst hpp
  obtain ⟨-, hc, hcz⟩ := withNotes_mem counts 0 last (List.mem_of_getLast? hlast) (by omega)
  rw [Nat.sub_zero] at hc
  have hi : last.1 < counts.length := (List.getElem?_eq_some_iff.mp hc).1
  have hc9 := h _ (List.mem_of_getElem? hc)
  refine ⟨_, h3, ⟨last.1, last.2, hc, hcz, ?_⟩, ?_⟩
  · simp only [makeSPID]
    rw [Nat.mod_eq_of_lt (by omega)]
  · intro i c j hic hcz' hj
    have hi' : i < counts.length := (List.getElem?_eq_some_iff.mp hic).1
    have hc9' := h _ (List.mem_of_getElem? hic)
    have hle : i < last.1 ∨ (i = last.1 ∧ c = last.2) := by
      have gen : ∀ (l : List Nat) (k i : Nat) (c : Nat), l[i]? = some c → c ≠ 0 → k + l.length ≤ 65536 → (withNotes k l).getLast? = some last →
          k + i < last.1 ∨ (k + i = last.1 ∧ c = last.2) := by
        intro l
        induction l with
        | nil => intro k i c h; simp at h
        | cons a r ih =>
          intro k i c h1 h2 h3 h4
          rw [List.length_cons] at h3
          cases i with
          | succ i =>
            rw [List.getElem?_cons_succ] at h1
            have h4' : (withNotes (k + 1) r).getLast? = some last := by
              rw [withNotes] at h4
              split at h4
              · cases hr : withNotes (k + 1) r with
                | nil =>
                  exfalso
                  have : c ∈ r.filter (· ≠ 0) := List.mem_filter.mpr ⟨List.mem_of_getElem? h1, by simpa using h2⟩
                  rw [← withNotes_snd r (k + 1), hr] at this
                  simp at this
                | cons b t => rw [hr, List.getLast?_cons_cons] at h4; exact h4
              · exact h4
            have := ih (k + 1) i c h1 h2 (by omega) h4'
            omega
          | zero =>
            simp only [List.getElem?_cons_zero, Option.some.injEq] at h1
            subst h1
            rw [withNotes, if_pos h2] at h4
            cases hr : withNotes (k + 1) r with
            | nil =>
              rw [hr] at h4
              simp only [List.getLast?_singleton, Option.some.injEq] at h4
              right
              rw [← h4]
              exact ⟨by simp only; omega, rfl⟩
            | cons b t =>
              rw [hr, List.getLast?_cons_cons, ← hr] at h4
              have := (withNotes_mem r (k + 1) last (List.mem_of_getLast? h4) (by omega)).1
              omega
      have := gen counts 0 i c hic hcz' (by omega) hlast
      rwa [Nat.zero_add] at this
    simp only [makeSPID]
    rw [Nat.mod_eq_of_lt (by omega)]
    rcases hle with hlt | ⟨rfl, rfl⟩ <;> omega

/-- The cells that comments were put on, in the order of the calls. -/
def noteKeys {α : Type} : List (GridOp α) → List Key
  | [] => []
  | .note c :: r => c.key :: noteKeys r
  | .cell _ :: r => noteKeys r

theorem noteKeys_length {α : Type} (ops : List (GridOp α)) : (noteKeys ops).length = ops.countP isNote := by
  induction ops with
  | nil => rfl
  | cons o r ih =>
    cases o with
    | cell c => rw [noteKeys, ih, List.countP_cons]; rfl
    | note c => rw [noteKeys, List.length_cons, ih, List.countP_cons]; rfl

theorem run_notes {α : Type} (ops : List (GridOp α)) : ∀ (s0 s : Cells.Sheet α), Ordered Cell.key s0.notes → ops.foldlM Sheet.apply s0 = some s →
    Ordered Cell.key s.notes ∧ ∀ k, k ∈ s.notes.map Cell.key ↔ k ∈ s0.notes.map Cell.key ∨ k ∈ noteKeys ops := by
  induction ops with
  | nil =>
    intro s0 s h0 h
    simp only [List.foldlM_nil, Option.pure_def, Option.some.injEq] at h
    subst h
    exact ⟨h0, fun k => by simp [noteKeys]⟩
  | cons o r ih =>
    intro s0 s h0 h
    rw [List.foldlM_cons] at h
    cases o with
    | cell c =>
      cases ha : s0.addCell c with
      | none => simp [Sheet.apply, ha] at h
      | some q =>
        simp only [Sheet.apply, ha, Option.map_some, Option.bind_eq_bind, Option.bind_some] at h
        have hq : q.1.notes = s0.notes := by
          unfold Sheet.addCell at ha
          obtain ⟨w, -, rfl⟩ := Option.map_eq_some_iff.mp ha
          rfl
        obtain ⟨a, b⟩ := ih q.1 s (by rw [hq]; exact h0) h
        rw [hq] at b
        exact ⟨a, b⟩
    | note c =>
      obtain ⟨l', d, e1, e2, e3, -, -⟩ := addLoop_spec c h0 s0.notes.length
      simp only [Sheet.apply, Sheet.addNote, e1, Option.map_some, Option.bind_eq_bind, Option.bind_some] at h
      obtain ⟨a, b⟩ := ih _ s e2 h
      refine ⟨a, fun k => ?_⟩
      rw [b k, noteKeys, List.mem_cons]
      have : k ∈ l'.map Cell.key ↔ k = c.key ∨ k ∈ s0.notes.map Cell.key := by
        simp only [List.mem_map]
        constructor
        · rintro ⟨y, hy, rfl⟩
          rcases (e3 y).mp hy with rfl | ⟨hy', -⟩
          · exact .inl rfl
          · exact .inr ⟨y, hy', rfl⟩
        · rintro (rfl | ⟨y, hy, rfl⟩)
          · exact ⟨c, (e3 c).mpr (.inl rfl), rfl⟩
          · by_cases hk : y.key = c.key
            · exact ⟨c, (e3 c).mpr (.inl rfl), hk.symm⟩
            · exact ⟨y, (e3 y).mpr (.inr ⟨hy, hk⟩), rfl⟩
      simp only [this]
      constructor
      · rintro ((h | h) | h)
        · exact .inr (.inl h)
        · exact .inl h
        · exact .inr (.inr h)
      · rintro (h | h | h)
        · exact .inl (.inr h)
        · exact .inl (.inl h)
        · exact .inr h

theorem ordered_nodup {α : Type} {l : List (Cell α)} (h : Ordered Cell.key l) : (l.map Cell.key).Nodup := by
  rw [List.Nodup, List.pairwise_map]
  refine List.Pairwise.imp ?_ h
  intro a b hab e
  rw [e] at hab
  simp [klt_irrefl] at hab

/-- C36 (numbers of comments): the number that the workbook keeps for a sheet is the number of comments of that sheet as long as no
    comment is replaced by a later one for the same cell.  The full claim, without that condition, is false:
    `c36_count_replaced`. -/
theorem c36_count_partial {α : Type} (ops : List (GridOp α)) (s : Cells.Sheet α) (hrun : Sheet.run ops = some s) (hdist : (noteKeys ops).Nodup)
    (h16 : (noteKeys ops).length < 65536) : bumps ops = s.notes.length := by
  obtain ⟨a, b⟩ := run_notes ops {} s .nil hrun
  have hp : (s.notes.map Cell.key).Perm (noteKeys ops) :=
    (List.perm_ext_iff_of_nodup (ordered_nodup a) hdist).mpr fun k => by rw [b k]; simp
  have := hp.length_eq
  rw [List.length_map, noteKeys_length] at this
  rw [noteKeys_length] at h16
  rw [bumps, Nat.mod_eq_of_lt h16, this]

/-- C36 is false when a comment is replaced: the workbook counts 2, the sheet has 1, and so the group announces 3 shapes while the
    sheet's drawing has 2. -/
theorem c36_count_replaced : ∃ (ops : List (GridOp Unit)) (s : Cells.Sheet Unit) (p : Bytes) (g : Group),
    Sheet.run ops = some s ∧ s.notes.length = 1 ∧ makeDrawingGroup [bumps ops] = some (some (enc (0xEB, p))) ∧
    readGroup p = some g ∧ g.shapes = 3 ∧ g.clusters = [(1, 3)] := by
  obtain ⟨s, hs, -⟩ := run_good [GridOp.note ⟨0, 4, 4, ()⟩, GridOp.note ⟨1, 4, 4, ()⟩]
  have h1 : s.notes.length = 1 := by
    have : (Sheet.run [GridOp.note ⟨0, 4, 4, ()⟩, GridOp.note ⟨1, 4, 4, ()⟩]).map (·.notes.length) = some 1 := by decide
    rw [hs] at this
    exact Option.some.inj this
  rcases c36_group [2] (by decide) (by decide) with ⟨h, -⟩ | ⟨p, g, a, -, c, d⟩
  · simp at h
  · exact ⟨_, s, p, g, hs, h1, a, c, d.shapes, d.clusters⟩

/-- Three sheets, the second without comments: the group announces two drawings with 3 and 6 shapes, and the largest
    identifier is the last shape's in the third sheet. -/
example : ∃ p g, makeDrawingGroup [2, 0, 5] = some (some (enc (0xEB, p))) ∧ readGroup p = some g ∧
    g = ⟨3029, 9, 2, [(1, 3), (2, 6)]⟩ := by
  obtain ⟨p, a, -, c⟩ := drawingGroup_read [(0, 2), (2, 5)] (2, 5) rfl (by decide) (by decide)
  exact ⟨p, _, by unfold makeDrawingGroup; rw [if_pos (by decide), show withNotes 0 [2, 0, 5] = [(0, 2), (2, 5)] from rfl, a]; rfl, c, rfl⟩

/-- Two comments on different cells, and one on a cell that has contents: the hypotheses of `c36_count_partial` hold. -/
example : (noteKeys [GridOp.note ⟨0, 4, 4, ()⟩, GridOp.cell ⟨1, 4, 5, ()⟩, GridOp.note ⟨2, 4, 5, ()⟩]).Nodup := by decide

end Xls.Note
