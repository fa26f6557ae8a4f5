import Verif.Again.Props
/-
C66: the numbers of shapes in successive saves, and the files.
-/
namespace Xls.Again
open Xls.Biff Xls.Book Xls.Cells Xls.Save Xls.Whole
open Xls.Desk (Call names ArrangedFrom Remarks remarkAt openDrawings openDesk)

/-- The drawing of a sheet with comments. -/
theorem drawing_of {first : Nat → Nat} {c : List Call} {w : Bytes} (h : ArrangedFrom first c w) {i n : Nat} (hi : i < (names c).length) (hr : Remarks i c n) (hn : n ≠ 0) :
    ∃ draws d, openDrawings w = some ((names c).zip draws) ∧ draws[i]? = some (some d) ∧
      d.ids = (List.range (n + 1)).map fun j => ((i + 1) * 1000 + 24 + first i + j) % 2 ^ 32 := by
  obtain ⟨K, recs, M, dims, draws, k1, -, k3, -, k5, l1, l2, l3, -, -, -, -, -, -, -, hg, -, -, hd, -⟩ := h
  obtain ⟨e1, e2⟩ := hd i M[i] draws[i] (by simp [l1, hi]) (by simp [l3, hi])
  rw [Desk.remarks_unique e1 hr] at e2
  cases hq : draws[i] with
  | none => rw [hq] at e2; exact absurd e2 hn
  | some d =>
    rw [hq] at e2
    exact ⟨draws, d, k5, by rw [List.getElem?_eq_getElem (by omega), hq], e2.2.2.1⟩

theorem renumbered {ar : Nat → Option Nat} {cs : WCell → Nat} {p0 : Prog.State} {c c' : List Call} {w w' : List Bytes} {f g h : Nat → Nat}
    (h1 : Saved ar cs p0 c w f g) (h2 : Saved ar cs p0 c' w' g h) (hw : w.flatten.length < 2 ^ 32) (hw' : w'.flatten.length < 2 ^ 32) {i n n' : Nat}
    (hi : i < (names c).length) (hi' : i < (names c').length) (hr : Remarks i c n) (hr' : Remarks i c' n') (hn : n ≠ 0) (hn' : n' ≠ 0) (hs : n + n' + 1 < 2 ^ 32) :
    ∃ draws draws' d d', openDrawings w.flatten = some ((names c).zip draws) ∧ openDrawings w'.flatten = some ((names c').zip draws') ∧
      draws[i]? = some (some d) ∧ draws'[i]? = some (some d') ∧ d.ids.length = n + 1 ∧ d'.ids.length = n' + 1 ∧ ∀ x ∈ d.ids, x ∉ d'.ids := by
  obtain ⟨a1, -, a3⟩ := h1
  obtain ⟨-, -, b3⟩ := h2
  have a4 := (a3 hw []).2
  have b4 := (b3 hw' []).2
  rw [List.append_nil] at a4 b4
  obtain ⟨draws, d, x1, x2, x3⟩ := drawing_of a4 hi hr hn
  obtain ⟨draws', d', y1, y2, y3⟩ := drawing_of b4 hi' hr' hn'
  refine ⟨draws, draws', d, d', x1, y1, x2, y2, by rw [x3]; simp, by rw [y3]; simp, fun x hx hx' => ?_⟩
  obtain ⟨m, m1, m2⟩ := a1 i
  rw [Desk.remarks_unique m1 hr, if_neg hn] at m2
  rw [x3, List.mem_map] at hx
  rw [y3, List.mem_map] at hx'
  obtain ⟨j, j1, rfl⟩ := hx
  obtain ⟨j', j2, j3⟩ := hx'
  rw [List.mem_range] at j1 j2
  rw [m2] at j3
  omega

/-- C66, the numbers of shapes: a sheet with comments that is saved twice has other shape numbers the second time, none as before; so the bytes that are written
    differ. -/
theorem c66_shapes_renumbered {ar : Nat → Option Nat} (hA : Formula.KnowsArity ar) (evs : List Event) (p0 : Prog.State) (h0 : Prog.init = some p0)
    (hp : Desk.Possible 0 (calls evs)) (hf : Prog.Fine p0 Prog.nothing ((calls evs).filterMap Call.inner)) (hw : ∀ c ∈ saves [] evs, Within p0 c)
    (cs : WCell → Nat) (hn1 : (names (calls evs)).length ≤ 1000) (hn2 : ∀ n ∈ names (calls evs), n.length < 256) :
    ∃ (s0 : State) (N : Nat) (ws : List (List Bytes)) (s : State), init = some s0 ∧ (∀ fuel, N ≤ fuel → run cs fuel s0 evs = some (ws, s)) ∧
      ws.length = (saves [] evs).length ∧
      ∀ (k : Nat) c c' w w', (saves [] evs)[k]? = some c → (saves [] evs)[k + 1]? = some c' → ws[k]? = some w → ws[k + 1]? = some w' →
        w.flatten.length < 2 ^ 32 → w'.flatten.length < 2 ^ 32 →
        ∀ i n n', i < (names c).length → i < (names c').length → Remarks i c n → Remarks i c' n' → n ≠ 0 → n' ≠ 0 → n + n' + 1 < 2 ^ 32 →
          ∃ draws draws' d d', openDrawings w.flatten = some ((names c).zip draws) ∧ openDrawings w'.flatten = some ((names c').zip draws') ∧
            draws[i]? = some (some d) ∧ draws'[i]? = some (some d') ∧ d.ids.length = n + 1 ∧ d'.ids.length = n' + 1 ∧ ∀ x ∈ d.ids, x ∉ d'.ids := by
  obtain ⟨s0, N, ws, s, count, a1, a2, -, a3, a4, a5⟩ := c66_saves_partial hA evs p0 h0 hp hf hw cs hn1 hn2
  exact ⟨s0, N, ws, s, a1, a2, a3, fun k c c' w w' e1 e2 e3 e4 s1 s2 i n n' i1 i2 r1 r2 n1 n2 hs =>
    renumbered (a5 k c w e1 e3) (a5 (k + 1) c' w' e2 e4) s1 s2 i1 i2 r1 r2 n1 n2 hs⟩

theorem remarkAt_iff (i : Nat) (c : Call) : (remarkAt i c).isSome = Call.isRemark i c := by
  cases c with
  | on d =>
    cases d with
    | look k => rfl
    | page j a =>
      cases a with
      | comment r c' au t =>
        by_cases e : j = i <;> simp [remarkAt, Call.isRemark, e]
      | _ => rfl
  | _ => rfl

/-- When each comment has its own place, there are as many as calls for them. -/
theorem remarks_all {i : Nat} {c : List Call} (h : (c.filterMap (remarkAt i)).Nodup) : Remarks i c (c.countP (Call.isRemark i)) := by
  refine ⟨_, h, fun _ => Iff.rfl, ?_⟩
  rw [List.length_filterMap_eq_countP]
  exact congrFun (congrArg _ (funext fun c => remarkAt_iff i c)) _

theorem exceeded {ar : Nat → Option Nat} {cs : WCell → Nat} {p0 : Prog.State} {c : List Call} {w w' : List Bytes} {f g h : Nat → Nat}
    (hf : ∀ i, f i = 0) (h1 : Saved ar cs p0 c w f g) (h2 : Saved ar cs p0 c w' g h) (hw' : w'.flatten.length < 2 ^ 32)
    (hn : (names c).length ≤ 1000) (hc : ∀ i, c.countP (Call.isRemark i) ≤ 999) (hd : ∀ i, (c.filterMap (remarkAt i)).Nodup)
    {i0 : Nat} (hi0 : i0 < (names c).length) (hs : c.countP (Call.isRemark i0) ≠ 0) :
    ∃ K G draws, ∃ (i : Nat) (d : Spec.Drawing) (x : Nat), openDesk w'.flatten = some K ∧ K.group = some G ∧ openDrawings w'.flatten = some ((names c).zip draws) ∧ draws[i]? = some (some d) ∧
      x ∈ d.ids ∧ G.maxId < x := by
  obtain ⟨a1, -, -⟩ := h1
  obtain ⟨-, -, b3⟩ := h2
  have b4 := (b3 hw' []).2
  rw [List.append_nil] at b4
  have b5 := b4
  obtain ⟨K, recs, M, dims, draws, k1, -, k3, -, k5, l1, l2, l3, -, -, -, -, -, -, -, hg, -, -, -, -⟩ := b4
  have hcounts : ∀ i x, ((List.range (names c).length).map fun i => c.countP (Call.isRemark i))[i]? = some x → i < (names c).length ∧ x = c.countP (Call.isRemark i) := by
    intro i x hx
    have hlt := (List.getElem?_eq_some_iff.mp hx).1
    rw [List.length_map, List.length_range] at hlt
    refine ⟨hlt, ?_⟩
    rw [List.getElem?_map, List.getElem?_eq_getElem (by simpa using hlt)] at hx
    simpa using hx.symm
  cases hK : K.group with
  | none =>
    rw [hK] at hg
    exact absurd (hg _ (List.mem_map.mpr ⟨i0, List.mem_range.mpr hi0, rfl⟩)) hs
  | some G =>
    rw [hK] at hg
    obtain ⟨⟨i, x, c1, c2, c3⟩, -⟩ := hg.2.2 (by
      intro x hx
      obtain ⟨i, -, rfl⟩ := List.mem_map.mp hx
      exact hc i)
    obtain ⟨e1, rfl⟩ := hcounts i x c1
    obtain ⟨draws', d, y1, y2, y3⟩ := drawing_of b5 e1 (remarks_all (hd i)) c2
    obtain ⟨m, m1, m2⟩ := a1 i
    rw [Desk.remarks_unique m1 (remarks_all (hd i)), if_neg c2, hf] at m2
    have := hc i
    refine ⟨K, G, draws', i, d, ((i + 1) * 1000 + 24 + g i + c.countP (Call.isRemark i)) % 2 ^ 32, k1, hK, y1, y2, ?_, ?_⟩
    · rw [y3, List.mem_map]
      exact ⟨_, List.mem_range.mpr (Nat.lt_succ_self _), rfl⟩
    · rw [c3, m2]
      omega

theorem calls_map (c : List Call) (r : List Event) : calls (c.map .call ++ r) = c ++ calls r := by
  induction c with
  | nil => rfl
  | cons a c ih => exact congrArg (a :: ·) ih

theorem saves_map (c before : List Call) (r : List Event) : saves before (c.map .call ++ r) = saves (before ++ c) r := by
  induction c generalizing before with
  | nil => simp
  | cons a c ih =>
    rw [List.map_cons, List.cons_append, saves, ih]
    simp

/-- The claim that saving again gives a workbook as good as the first one fails: in every workbook with comments (at most 999 on a sheet, each on its own
    cell) that is saved twice, the second stream has a shape with a number above the one that it says is the largest. -/
theorem c66_largest_exceeded {ar : Nat → Option Nat} (hA : Formula.KnowsArity ar) (c : List Call) (p0 : Prog.State) (h0 : Prog.init = some p0)
    (hp : Desk.Possible 0 c) (hf : Prog.Fine p0 Prog.nothing (c.filterMap Call.inner)) (hw : Within p0 c)
    (cs : WCell → Nat) (hn1 : (names c).length ≤ 1000) (hn2 : ∀ n ∈ names c, n.length < 256)
    (hc : ∀ i, c.countP (Call.isRemark i) ≤ 999) (hd : ∀ i, (c.filterMap (remarkAt i)).Nodup)
    {i0 : Nat} (hi0 : i0 < (names c).length) (hs : c.countP (Call.isRemark i0) ≠ 0) (ix ix' : Nat → Nat → Nat) :
    ∃ (s0 : State) (N : Nat) (w w' : List Bytes) (s : State), init = some s0 ∧
      (∀ fuel, N ≤ fuel → run cs fuel s0 (c.map .call ++ [.save true ix, .save true ix']) = some ([w, w'], s)) ∧
      (w'.flatten.length < 2 ^ 32 → ∃ K G draws, ∃ (i : Nat) (d : Spec.Drawing) (x : Nat), openDesk w'.flatten = some K ∧ K.group = some G ∧
        openDrawings w'.flatten = some ((names c).zip draws) ∧ draws[i]? = some (some d) ∧ x ∈ d.ids ∧ G.maxId < x) := by
  have hn0 : names c ≠ [] := fun e => by rw [e] at hi0; cases hi0
  have e1 : calls (c.map .call ++ [.save true ix, .save true ix']) = c := by rw [calls_map]; simp [calls, Event.call?]
  have e2 : saves [] (c.map .call ++ [.save true ix, .save true ix']) = [c, c] := by
    rw [saves_map, List.nil_append]
    simp [saves, hn0]
  obtain ⟨s0, N, ws, s, count, a1, a2, -, a3, a4, a5⟩ := c66_saves_partial hA (c.map .call ++ [.save true ix, .save true ix']) p0 h0 (by rwa [e1]) (by rwa [e1])
    (by
      rw [e2]
      intro c' h
      rcases List.mem_cons.mp h with rfl | h
      · exact hw
      · rw [List.mem_singleton.mp h]; exact hw) cs (by rwa [e1]) (by rwa [e1])
  rw [e2] at a3 a5
  match ws, a3 with
  | [w, w'], _ =>
    exact ⟨s0, N, w, w', s, a1, a2, fun hsz => exceeded a4 (a5 0 c w rfl rfl) (a5 1 c w' rfl rfl) hsz hn1 hc hd hi0 hs⟩

/-- C66 for the files: each saved file is complete, and a compound-file reader finds the stream of that save in it, with the document properties as they
    were asked for (`props` are the calls for them before the save).
    Missing for the full claim: as in `c65_file_partial`, at each save. -/
theorem c66_file_partial {ar : Nat → Option Nat} {cs : WCell → Nat} {p0 : Prog.State} {c : List Call} {w : List Bytes} {f g : Nat → Nat}
    (h : Saved ar cs p0 c w f g) (time : Nat) (htime : time ≤ 1000000000000) (pkg : Bytes) (props : List (Nat × Bytes)) :
    ∃ r0 r, Hpsf.Props.init time pkg = some r0 ∧ r0.run props = some r ∧ (Hpsf.need r.summary ≤ 4096 → Hpsf.need r.doc ≤ 4096 →
      ∃ si di bs bd, Hpsf.build .summary r.summary = some si ∧ Unit.contents si = some bs ∧ Hpsf.build .docSummary r.doc = some di ∧ Unit.contents di = some bd ∧
        (Ole.dataSize w + 8192 < 2 ^ 31 - 12288 → ∃ file v vs vd S T, Ole.CompleteFile (Ole.workbookFiles w [bs] [bd]) file ∧
          Cfb.readStream file (Ole.nameUnits Ole.workbookNames[0]) = some v ∧
          Prog.Found ar (Prog.asked p0 Prog.nothing (c.filterMap Call.inner)) (names c) v ∧ ArrangedFrom f c v ∧
          Cfb.readStream file (Ole.nameUnits Ole.workbookNames[1]) = some vs ∧ Spec.PropSet.read vs = some (Spec.PropSet.fmtidSummary, S) ∧
          Cfb.readStream file (Ole.nameUnits Ole.workbookNames[2]) = some vd ∧ Spec.PropSet.read vd = some (Spec.PropSet.fmtidDocSummary, T) ∧
          ∀ kind d id, Spec.PropSet.place kind = some (d, id) →
            Spec.PropSet.valueOf id (if d then T else S) = (Hpsf.expected pkg props kind).map .lpstr)) := by
  obtain ⟨r0, r, q1, q2, K⟩ := Hpsf.c32_read_back time htime pkg props
  refine ⟨r0, r, q1, q2, fun hs hd => ?_⟩
  obtain ⟨si, di, bs1, bd1, S, T, a1, a2, a3, b1, b2, b3, rs, rd, -, -, hv, -⟩ := K hs hd
  refine ⟨si, di, bs1, bd1, a1, a2, b1, b2, fun hsize => ?_⟩
  have h1 : Ole.dataSize [bs1] = 4096 := by simp [Ole.dataSize, a3]
  have h2 : Ole.dataSize [bd1] = 4096 := by simp [Ole.dataSize, b3]
  obtain ⟨f, k1, k2, k3, hcf, f1, f2, f3⟩ := Ole.c10_workbook w [bs1] [bd1] (by omega)
  have : w.flatten.length = Ole.dataSize w := by rw [List.length_flatten]; rfl
  obtain ⟨g1, g2⟩ := h.2.2 (by omega) (List.replicate k1 0)
  refine ⟨f, _, _, _, S, T, hcf, f1, g1, g2, f2, ?_, f3, ?_, hv⟩
  · simp only [List.flatten_cons, List.flatten_nil, List.append_nil]
    exact rs _
  · simp only [List.flatten_cons, List.flatten_nil, List.append_nil]
    exact rd _

/-! ### A history -/

/-- The sample of C65, with a save before any sheet is there, a save after all calls, one to a file that cannot be opened, the window moved, and another save. -/
def sample (ix ix' : Nat → Nat → Nat) : List Event :=
  .save true ix :: Desk.sample.map .call ++ [.save true ix, .save false ix', .call (.position 5 6), .save true ix']

theorem sample_calls (ix ix' : Nat → Nat → Nat) : calls (sample ix ix') = Desk.sample ++ [.position 5 6] := by
  show calls (Desk.sample.map .call ++ _) = _
  rw [calls_map]
  rfl

theorem sample_saves (ix ix' : Nat → Nat → Nat) : saves [] (sample ix ix') = [Desk.sample, Desk.sample ++ [.position 5 6]] := by
  show saves [] (Desk.sample.map .call ++ _) = _
  rw [saves_map]
  rfl

theorem sample_inner : (Desk.sample ++ [Call.position 5 6]).filterMap Call.inner = Prog.sample := by
  rw [List.filterMap_append, Desk.sample_inner]
  rfl

theorem within_of {p0 : Prog.State} {c : List Call} (h0 : Prog.init = some p0) (hi : c.filterMap Call.inner = Prog.sample) (hp : Desk.Possible 0 c)
    (hn : (names c).length ≤ 65536) (hm : Prog.Modest (Prog.asked p0 Prog.nothing Prog.sample)) : Within p0 c := by
  refine ⟨by rw [hi]; exact hm, fun d hd => ?_⟩
  have h : ((Prog.init.bind (Prog.steps · Prog.sample)).map fun t => decide (t.look.styles.xfs.length ≤ 65536)) = some true := by decide +kernel
  rw [h0, Option.bind_some] at h
  obtain ⟨t, t1, t2⟩ := Option.map_eq_some_iff.mp h
  obtain ⟨s, s1, -, s2⟩ := Desk.run hp hn (hi ▸ t1)
  rw [hd] at s1
  obtain rfl := Option.some.inj s1
  rw [s2]
  exact of_decide_eq_true t2

theorem possible_sample : Desk.Possible 0 (Desk.sample ++ [.position 5 6]) := by
  rw [Desk.possible_append]
  exact ⟨Desk.sample_possible, (fun i h => by cases h), trivial⟩

/-- The sample meets all conditions: two streams are written, the first as by a workbook saved for the first time, the second with the window moved
    and with shape numbers from 2 on on the sheet with a comment. -/
example (ix ix' : Nat → Nat → Nat) : ∃ p0 s0 N w w' s f, Prog.init = some p0 ∧ init = some s0 ∧
    (∀ fuel, N ≤ fuel → run (fun _ => 0) fuel s0 (sample ix ix') = some ([w, w'], s)) ∧
    (∃ d fuel, Desk.steps (Desk.start p0) Desk.sample = some d ∧ Desk.units (fun _ => 0) fuel d = some w) ∧
    (w'.flatten.length < 2 ^ 32 → ArrangedFrom f (Desk.sample ++ [.position 5 6]) w'.flatten) ∧ f 0 = 2 ∧ f 1 = 0 := by
  obtain ⟨p0, h0, hf, hm⟩ := Prog.sample_fine
  obtain ⟨s0, N, ws, s, count, a1, a2, -, a3, a4, a5⟩ := c66_saves_partial Formula.tableArity_knows (sample ix ix') p0 h0
    (by rw [sample_calls]; exact possible_sample) (by rw [sample_calls, sample_inner]; exact hf) (by
      rw [sample_saves]
      intro c h
      rcases List.mem_cons.mp h with rfl | h
      · exact within_of h0 Desk.sample_inner Desk.sample_possible (by decide) hm
      · rw [List.mem_singleton.mp h]
        exact within_of h0 sample_inner possible_sample (by decide) hm) (fun _ => 0) (by rw [sample_calls]; decide) (by rw [sample_calls]; decide)
  rw [sample_saves] at a3 a5
  match ws, a3 with
  | [w, w'], _ =>
    have b1 := a5 0 _ w rfl rfl
    have b2 := a5 1 _ w' rfl rfl
    refine ⟨p0, s0, N, w, w', s, count 1, h0, a1, a2, b1.2.1 a4, fun h => by simpa using (b2.2.2 h []).2, ?_, ?_⟩
    · obtain ⟨n, n1, n2⟩ := b1.1 0
      have : Remarks 0 Desk.sample 1 := remarks_all (by decide)
      rw [Desk.remarks_unique n1 this, a4] at n2
      exact n2
    · obtain ⟨n, n1, n2⟩ := b1.1 1
      rw [remarks_none (by decide) n1, a4] at n2
      exact n2

/-- The sample meets the conditions of `c66_largest_exceeded`, too. -/
example (ix ix' : Nat → Nat → Nat) : ∃ (s0 : State) (N : Nat) (w w' : List Bytes) (s : State), init = some s0 ∧
    (∀ fuel, N ≤ fuel → run (fun _ => 0) fuel s0 (Desk.sample.map .call ++ [.save true ix, .save true ix']) = some ([w, w'], s)) := by
  obtain ⟨p0, h0, hf, hm⟩ := Prog.sample_fine
  have hz : ∀ i, i ≠ 0 → Desk.sample.filterMap (remarkAt i) = [] := by
    intro i hi
    simp [Desk.sample, Prog.sample, remarkAt, Ne.symm hi]
  obtain ⟨s0, N, w, w', s, a1, a2, -⟩ := c66_largest_exceeded Formula.tableArity_knows Desk.sample p0 h0 Desk.sample_possible (Desk.sample_inner ▸ hf)
    (within_of h0 Desk.sample_inner Desk.sample_possible (by decide) hm) (fun _ => 0) (by decide) (by decide)
    (fun i => Nat.le_trans List.countP_le_length (by decide)) (fun i => by
      by_cases e : i = 0
      · subst e; decide
      · rw [hz i e]; exact .nil) (i0 := 0) (by decide) (by decide) ix ix'
  exact ⟨s0, N, w, w', s, a1, a2⟩

theorem modest_nothing : Prog.Modest Prog.nothing := by
  refine ⟨⟨fun i row col c h => ?_, ?_, ?_, fun i a h => ?_, fun i => ?_, fun i => ?_⟩, fun i => Page.few_steady _ _ ?_⟩
  · cases h
  · decide
  · exact fewRows_of fun p h => by cases h
  · cases h
  · exact show 0 < 2 ^ 32 by decide
  · exact show 0 ≤ 65535 by decide
  · exact show 0 < 16 by decide

/-- A workbook without comments that is saved three times, the last two times without a change. -/
example (ix : Nat → Nat → Nat) : ∃ (s0 : State) (N : Nat) (w w' : List Bytes) (s : State), init = some s0 ∧
    ∀ fuel, N ≤ fuel → run (fun _ => 0) fuel s0 [.call (.sheet [65]), .save true ix, .call (.position 5 6), .save true ix, .save true ix] = some ([w, w', w'], s) := by
  obtain ⟨p0, h0, G⟩ := Prog.init_good
  have h : (Prog.init.map fun t => decide (t.look.styles.xfs.length ≤ 65536)) = some true := by decide +kernel
  rw [h0, Option.map_some] at h
  have hx := of_decide_eq_true (Option.some.inj h)
  have hw : ∀ c : List Call, c.filterMap Call.inner = [] → Desk.Possible 0 c → (names c).length ≤ 65536 → Within p0 c := by
    intro c hc hp hn
    refine ⟨by rw [hc]; exact modest_nothing, fun d hd => ?_⟩
    obtain ⟨s, s1, -, s2⟩ := Desk.run (p := p0) (q := p0) hp hn (by rw [hc]; rfl)
    rw [hd] at s1
    obtain rfl := Option.some.inj s1
    rw [s2]
    exact hx
  generalize hev : [Event.call (.sheet [65]), .save true ix, .call (.position 5 6), .save true ix, .save true ix] = evs
  have e1 : calls evs = [.sheet [65], .position 5 6] := by rw [← hev]; rfl
  have e2 : saves [] evs = [[.sheet [65]], [.sheet [65], .position 5 6], [.sheet [65], .position 5 6]] := by rw [← hev]; rfl
  have q1 : Desk.Possible 0 [.sheet [65], .position 5 6] := ⟨(fun i h => by cases h), trivial⟩
  obtain ⟨s0, N, ws, s, a1, a2, a3, -, a5⟩ := c66_no_trace Formula.tableArity_knows evs p0 h0 (by rw [e1]; exact q1) (by rw [e1]; trivial) (by
      rw [e2]
      intro c hc
      simp only [List.mem_cons, List.not_mem_nil, or_false, or_self] at hc
      rcases hc with rfl | rfl
      · exact hw _ rfl trivial (by decide)
      · exact hw _ rfl q1 (by decide))
    (fun _ => 0) (by rw [e1]; decide) (by rw [e1]; decide) (fun i => by rw [e1]; rfl)
  rw [e2] at a3 a5
  match ws, a3 with
  | [w, w', w''], _ =>
    have := a5 1 2 (by simp) (by simp) rfl
    simp only [List.getElem?_cons_succ, List.getElem?_cons_zero, Option.some.injEq] at this
    subst this
    exact ⟨s0, N, w, w', s, a1, a2⟩

end Xls.Again
