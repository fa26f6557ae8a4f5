import Verif.Area.Run
import Verif.Range.Props
import Verif.Prog.Plain
/-
C68: programs with operations on ranges, to the saved file.
-/
namespace Xls.Area
open Xls.Range (Rect RangeOp keys ArgsOk keys_nodup mem_keys)
open Xls.Range.Spec (Inside rangeCalls)
open Xls.Whole Xls.Cells
open Xls.Desk (names Stands Arranged)
open Xls.Page (latest Act)
open Xls.Styles.Spec (Look plain upd onCall)

/-! ### What an operation on a range asks for -/

/-- Different places have different handles, each with a look and below `n`. -/
structure Apart (n : Nat) (A : Look.Asked) : Prop where
  live : ∀ i row col d, lastWrite A.writes i row col = some d → ∃ l, A.looks.cells d.id = some l
  inj : ∀ i row col d j row' col' e, lastWrite A.writes i row col = some d → lastWrite A.writes j row' col' = some e → d.id = e.id →
    i = j ∧ row = row' ∧ col = col'
  lt : ∀ i row col d, lastWrite A.writes i row col = some d → d.id < n

theorem apart_of {s : Prog.State} {A : Prog.Asked} (G : Prog.Good s A) : Apart s.look.styles.cells.length A.look := by
  obtain ⟨B, GB, ag⟩ := G.look
  refine ⟨fun i row col d h => ?_, fun i row col d j row' col' e h h' => ?_, fun i row col d h => ?_⟩
  · obtain ⟨l, hl⟩ := GB.live i row col d (ag.writes ▸ h)
    exact ⟨l, by rw [← ag.cells d.id fun k hk => G.placed k _ hk i row col d h rfl]; exact hl⟩
  · exact GB.inj i row col d j row' col' e (ag.writes ▸ h) (ag.writes ▸ h')
  · exact GB.lt (ag.writes ▸ h)

/-- The cell of a place with a changed look; a blank one if there is none. -/
def changed (f : Look → Look) : Option (Val × Look) → Option (Val × Look)
  | some (v, l) => some (v, f l)
  | none => some (.blank, f plain)

theorem place_grid {n : Nat} {A : Look.Asked} (h : Apart n A) (i : Nat) (f : Key → Look → Look) (k : Key) :
    Apart (askPlace i f (n, A) k).1 (askPlace i f (n, A) k).2 ∧ grid (askPlace i f (n, A) k).2 i k = changed (f k) (grid A i k) ∧
      ∀ i' k', ¬ (i' = i ∧ k' = k) → grid (askPlace i f (n, A) k).2 i' k' = grid A i' k' := by
  cases hw : lastWrite A.writes i k.1 k.2 with
  | some d =>
    obtain ⟨l, hl⟩ := h.live _ _ _ _ hw
    have e : askPlace i f (n, A) k = (n, { A with looks := { A.looks with cells := upd A.looks.cells d.id (some (f k l)) } }) := by
      unfold askPlace
      simp only [hw, hl, Option.map_some]
    rw [e]
    refine ⟨⟨fun i' row col c hc => ?_, h.inj, h.lt⟩, ?_, fun i' k' hne => ?_⟩
    · obtain ⟨m, hm⟩ := h.live i' row col c hc
      simp only [upd]
      split
      · exact ⟨_, rfl⟩
      · exact ⟨m, hm⟩
    · simp [grid, hw, hl, changed, upd]
    · simp only [grid]
      cases hc : lastWrite A.writes i' k'.1 k'.2 with
      | none => rfl
      | some c =>
        simp only [Option.bind_some, upd]
        rw [if_neg]
        intro he
        obtain ⟨h1, h2, h3⟩ := h.inj _ _ _ _ _ _ _ _ hc hw he
        exact hne ⟨h1, Prod.ext h2 h3⟩
  | none =>
    have e : askPlace i f (n, A) k = (n + 1, { A with writes := A.writes ++ [(i, ⟨n, k.1, k.2, .blank⟩)]
                                                      looks := { A.looks with cells := upd A.looks.cells n (some (f k plain)) } }) := by
      unfold askPlace
      simp only [hw]
    rw [e]
    have key : ∀ i' row col, lastWrite (A.writes ++ [(i, (⟨n, k.1, k.2, .blank⟩ : Cell Val))]) i' row col =
        if i = i' ∧ k.1 = row ∧ k.2 = col then some ⟨n, k.1, k.2, .blank⟩ else lastWrite A.writes i' row col := fun i' row col => lastWrite_append ..
    refine ⟨⟨fun i' row col c hc => ?_, fun i' row col c j row' col' c' hc hc' he => ?_, fun i' row col c hc => ?_⟩, ?_, fun i' k' hne => ?_⟩
    · simp only [key] at hc
      simp only [upd]
      split at hc
      · cases Option.some.inj hc
        exact ⟨_, if_pos rfl⟩
      · split
        · exact ⟨_, rfl⟩
        · exact h.live _ _ _ _ hc
    · simp only [key] at hc hc'
      split at hc
      · rename_i e1
        cases Option.some.inj hc
        split at hc'
        · rename_i e2
          exact ⟨e1.1.symm.trans e2.1, e1.2.1.symm.trans e2.2.1, e1.2.2.symm.trans e2.2.2⟩
        · have := h.lt _ _ _ _ hc'
          simp only at he
          omega
      · split at hc'
        · cases Option.some.inj hc'
          have := h.lt _ _ _ _ hc
          simp only at he
          omega
        · exact h.inj _ _ _ _ _ _ _ _ hc hc' he
    · simp only [key] at hc
      split at hc
      · cases Option.some.inj hc
        exact Nat.lt_succ_self n
      · have := h.lt _ _ _ _ hc
        show c.id < n + 1
        omega
    · simp only [grid, key, hw]
      simp [changed, upd]
    · simp only [grid, key]
      rw [if_neg (fun h => hne ⟨h.1.symm, Prod.ext h.2.1.symm h.2.2.symm⟩)]
      cases hc : lastWrite A.writes i' k'.1 k'.2 with
      | none => rfl
      | some c =>
        have := h.lt _ _ _ _ hc
        simp only [Option.bind_some, upd]
        rw [if_neg (by omega)]

theorem places_grid {i : Nat} {f : Key → Look → Look} (ks : List Key) (hnd : ks.Nodup) {p : Nat × Look.Asked} (h : Apart p.1 p.2) (i' : Nat) (k' : Key) :
    grid (ks.foldl (askPlace i f) p).2 i' k' = if i' = i ∧ k' ∈ ks then changed (f k') (grid p.2 i' k') else grid p.2 i' k' := by
  induction ks generalizing p with
  | nil => simp
  | cons k r ih =>
    rw [List.nodup_cons] at hnd
    obtain ⟨h1, h2, h3⟩ := place_grid h i f k
    rw [List.foldl_cons, ih hnd.2 h1]
    by_cases hk : i' = i ∧ k' = k
    · obtain ⟨rfl, rfl⟩ := hk
      rw [if_neg (fun h => hnd.1 h.2), if_pos ⟨rfl, by simp⟩]
      exact h2
    · have e := h3 i' k' hk
      rw [show ((p.1, p.2) : Nat × Look.Asked) = p from rfl] at e
      rw [e]
      by_cases hi : i' = i
      · simp [hi, show k' ≠ k from fun h => hk ⟨hi, h⟩]
      · simp [hi]

theorem places_rest {i : Nat} {f : Key → Look → Look} (ks : List Key) (p : Nat × Look.Asked) :
    (ks.foldl (askPlace i f) p).2.looks.fonts = p.2.looks.fonts ∧ (ks.foldl (askPlace i f) p).2.looks.formats = p.2.looks.formats ∧
      (ks.foldl (askPlace i f) p).2.codes = p.2.codes := by
  induction ks generalizing p with
  | nil => exact ⟨rfl, rfl, rfl⟩
  | cons k r ih =>
    obtain ⟨h1, h2, h3⟩ := ih (askPlace i f p k)
    rw [List.foldl_cons, h1, h2, h3]
    unfold askPlace
    split <;> exact ⟨rfl, rfl, rfl⟩

theorem asked_append (s : Desk.State) (A : Prog.Asked) (P Q : List Call) {t : Desk.State} (h : steps s P = some t) :
    asked s A (P ++ Q) = asked t (asked s A P) Q := by
  induction P generalizing s A with
  | nil => cases Option.some.inj h; rfl
  | cons c P ih =>
    rw [steps] at h
    cases hc : step s c with
    | none => rw [hc] at h; cases h
    | some u =>
      rw [hc] at h
      rw [List.cons_append, asked, asked, hc]
      exact ih u _ h

/-- A new workbook before any call. -/
theorem begin_good {p0 : Prog.State} (h0 : Prog.init = some p0) : Prog.Good (Desk.start p0).prog Prog.nothing := by
  obtain ⟨p, h1, G0⟩ := Prog.init_good
  rw [h0] at h1
  cases Option.some.inj h1
  exact G0

theorem from_start (P : List Call) (p0 : Prog.State) (h0 : Prog.init = some p0) (hp : Possible 0 P) (hf : Fine (Desk.start p0) Prog.nothing P)
    (hn1 : (names (P.flatMap frame)).length ≤ 1000) : ∃ calls t, Same (Desk.start p0) Prog.nothing 0 P calls t ∧ Alike calls (P.flatMap frame) := by
  obtain ⟨calls, t, h⟩ := goes P (Desk.stands_init p0) (begin_good h0) hp (by show 0 + _ ≤ _; omega) hf
  refine ⟨calls, t, h, h.core, fun i p => ⟨h.spots i p, fun hm => ?_⟩⟩
  rcases h.covers i p hm with h | ⟨d, hd⟩
  · exact h
  · exact absurd hd (by simp [Prog.nothing, Look.nothing, lastWrite])

/-- C68, what a program asks for when its last call is an operation on a range: each place of the rectangle holds the value that it had and looks as
    before but for what the operation asks for; where there was nothing there is a blank cell with the default look but for that.  All other places,
    on this and on the other sheets, all fonts, formats and number formats and all that was asked for on columns, rows, comments, … are as before. -/
theorem c68_range (P : List Call) (i : Nat) (r : Rect) (o : RangeOp) (p0 : Prog.State) (h0 : Prog.init = some p0)
    (hp : Possible 0 (P ++ [.range i r o])) (hf : Fine (Desk.start p0) Prog.nothing (P ++ [.range i r o]))
    (hn1 : (names (P.flatMap frame)).length ≤ 1000) :
    let A := asked (Desk.start p0) Prog.nothing P
    let B := asked (Desk.start p0) Prog.nothing (P ++ [.range i r o])
    (∀ k, Inside r k → grid B.look i k = changed (rangeCalls A.look.looks.fonts r k o) (grid A.look i k)) ∧
      (∀ i' k, ¬ (i' = i ∧ Inside r k) → grid B.look i' k = grid A.look i' k) ∧
      B.look.looks.fonts = A.look.looks.fonts ∧ B.look.looks.formats = A.look.looks.formats ∧ B.look.codes = A.look.codes ∧ B.acts = A.acts := by
  have hp1 : ∀ n, Possible n (P ++ [.range i r o]) → Possible n P ∧ i < n + (names (P.flatMap frame)).length := by
    clear hp hf hn1
    intro n h
    induction P generalizing n with
    | nil => exact ⟨trivial, h.1⟩
    | cons c P ih =>
      have nm : names ((c :: P).flatMap frame) = names (frame c) ++ names (P.flatMap frame) := by simp [names]
      rw [nm, List.length_append]
      have key : ∀ m, Possible (n + m) (P ++ [.range i r o]) → m = (names (frame c)).length →
          Possible (n + m) P ∧ i < n + ((names (frame c)).length + (names (P.flatMap frame)).length) := by
        intro m h e
        obtain ⟨h1, h2⟩ := ih (n + m) h
        exact ⟨h1, by omega⟩
      cases c with
      | desk c =>
        cases c with
        | sheet nm => exact key 1 h rfl
        | _ => exact ⟨⟨h.1, (key 0 h.2 rfl).1⟩, (key 0 h.2 rfl).2⟩
      | range j r' o' =>
        have e : names (frame (.range j r' o')) = [] := by
          unfold names frame
          rw [List.filterMap_map]
          exact List.filterMap_eq_nil_iff.mpr fun k _ => rfl
        have := key 0 h.2 (by rw [e]; rfl)
        exact ⟨⟨h.1, this.1⟩, this.2⟩
  obtain ⟨hp2, hi⟩ := hp1 0 hp
  have hf1 : ∀ s A, Fine s A (P ++ [.range i r o]) → Fine s A P ∧ ∀ t, steps s P = some t → Fine t (asked s A P) [.range i r o] := by
    clear hp hf hn1 hp1 hp2 hi
    intro s A h
    induction P generalizing s A with
    | nil => exact ⟨trivial, fun t ht => by cases Option.some.inj ht; exact h⟩
    | cons c P ih =>
      obtain ⟨h1, h2, h3⟩ := h
      refine ⟨⟨h1, h2, fun t ht => (ih t _ (h3 t ht)).1⟩, fun t ht => ?_⟩
      rw [steps] at ht
      cases hc : step s c with
      | none => rw [hc] at ht; cases ht
      | some u =>
        rw [hc] at ht
        rw [asked, hc]
        exact (ih u _ (h3 u hc)).2 t ht
  obtain ⟨hf2, hf3⟩ := hf1 _ _ hf
  obtain ⟨calls, t, h, -⟩ := from_start P p0 h0 hp2 hf2 hn1
  obtain ⟨q, q1, G⟩ := Prog.sim_all (begin_good h0) _ h.fine
  rw [h.inner] at q1
  obtain rfl := Option.some.inj q1
  rw [h.asked] at G
  obtain ⟨⟨f1, f2, f3, f4⟩, -, -⟩ := hf3 t h.run
  have hsh : i < t.wb.sheets.length := by
    obtain ⟨calls', u, h', hal⟩ := from_start P p0 h0 hp2 hf2 hn1
    obtain ⟨v, v1, v2, -⟩ := stands_steps (Desk.stands_init p0) calls' h'.possible (by
      rw [List.nil_append, show names calls' = names (P.flatMap frame) by unfold names; rw [filterMap_core _ (fun _ => rfl), hal.core, ← filterMap_core _ (fun _ => rfl)]]
      omega) h'.inner
    have e := h'.run
    rw [h.run] at e
    cases Option.some.inj e
    rw [h'.plain] at v1
    cases Option.some.inj v1
    rw [v2.sheets, List.length_range, List.nil_append,
      show names calls' = names (P.flatMap frame) by unfold names; rw [filterMap_core _ (fun _ => rfl), hal.core, ← filterMap_core _ (fun _ => rfl)]]
    omega
  obtain ⟨u, l, h1, -, -⟩ := range_plain G i hsh r f1 f2 o f3 f4
  have hstep : step t (.range i r o) = some u := by rw [step, if_pos hsh, h1]
  have e : asked (Desk.start p0) Prog.nothing (P ++ [.range i r o]) = ask t (asked (Desk.start p0) Prog.nothing P) (.range i r o) := by
    rw [asked_append _ _ _ _ h.run, asked, hstep]
    rfl
  simp only
  rw [e]
  simp only [ask, askRange]
  have ap := apart_of G
  obtain ⟨r1, r2, r3⟩ := places_rest (i := i) (f := fun k => rangeCalls (asked (Desk.start p0) Prog.nothing P).look.looks.fonts r k o) (keys r)
    (t.prog.look.styles.cells.length, (asked (Desk.start p0) Prog.nothing P).look)
  refine ⟨fun k hk => ?_, fun i' k hne => ?_, r1, r2, r3, trivial⟩
  · rw [places_grid (keys r) (keys_nodup r) ap, if_pos ⟨rfl, (mem_keys r k).mpr hk⟩]
  · rw [places_grid (keys r) (keys_nodup r) ap, if_neg (fun h => hne ⟨h.1, (mem_keys r k).mp h.2⟩)]

/-! ### The saved file -/

/-- C68: any sequence of calls on a new workbook, with operations on ranges between the others, is carried out and saved without undefined behaviour, and
    a reader finds in the workbook stream all that was asked for (`Prog.Found`): values and looks of cells, comments, columns, rows; and the sheets,
    window, colours, shapes and used ranges (`Desk.Arranged`), where an operation on a range counts for the used range of its sheet.
    Missing for the full claim: as for C65 (`c65_stream_partial`). -/
theorem c68_stream_partial {ar : Nat → Option Nat} (hA : Formula.KnowsArity ar) (P : List Call) (p0 : Prog.State) (h0 : Prog.init = some p0)
    (hp : Possible 0 P) (hf : Fine (Desk.start p0) Prog.nothing P) (hm : Prog.Modest (asked (Desk.start p0) Prog.nothing P)) (cs : WCell → Nat)
    (hn0 : names (P.flatMap frame) ≠ []) (hn1 : (names (P.flatMap frame)).length ≤ 1000) (hn2 : ∀ n ∈ names (P.flatMap frame), n.length < 256) :
    ∃ s0 s, Desk.init = some s0 ∧ steps s0 P = some s ∧ (s.prog.look.styles.xfs.length ≤ 65536 → ∃ fuel wb, Desk.units cs fuel s = some wb ∧
      (wb.flatten.length < 2 ^ 32 → ∀ pad, Prog.Found ar (asked s0 Prog.nothing P) (names (P.flatMap frame)) (wb.flatten ++ pad) ∧
        Arranged (P.flatMap frame) (wb.flatten ++ pad))) := by
  obtain ⟨calls, t, h, hal⟩ := from_start P p0 h0 hp hf hn1
  have hn : names calls = names (P.flatMap frame) := by unfold names; rw [filterMap_core _ (fun _ => rfl), hal.core, ← filterMap_core _ (fun _ => rfl)]
  rw [← hn] at hn0 hn1 hn2 ⊢
  have ha : Prog.asked p0 Prog.nothing (calls.filterMap Desk.Call.inner) = asked (Desk.start p0) Prog.nothing P := h.asked
  obtain ⟨s0, s, s1, s2, H⟩ := Desk.c65_stream_partial hA calls p0 h0 h.possible h.fine (by rw [ha]; exact hm) cs hn0 hn1 hn2
  have e : Desk.init = some (Desk.start p0) := by rw [Desk.init, h0]; rfl
  rw [e] at s1
  obtain rfl := Option.some.inj s1
  rw [h.plain] at s2
  obtain rfl := Option.some.inj s2
  refine ⟨_, t, e, h.run, fun hx => ?_⟩
  obtain ⟨n, wb, e1, e2⟩ := H hx
  refine ⟨n, wb, e1, fun hw pad => ?_⟩
  obtain ⟨g1, g2⟩ := e2 hw pad
  exact ⟨by rw [← ha]; exact g1, hal.arranged g2⟩

/-- C68 for the file: a compound-file reader finds the workbook stream with everything as asked, and the document properties.
    Missing for the full claim: as in `c65_file_partial`. -/
theorem c68_file_partial {ar : Nat → Option Nat} (hA : Formula.KnowsArity ar) (P : List Call) (p0 : Prog.State) (h0 : Prog.init = some p0)
    (hp : Possible 0 P) (hf : Fine (Desk.start p0) Prog.nothing P) (hm : Prog.Modest (asked (Desk.start p0) Prog.nothing P)) (cs : WCell → Nat)
    (hn0 : names (P.flatMap frame) ≠ []) (hn1 : (names (P.flatMap frame)).length ≤ 1000) (hn2 : ∀ n ∈ names (P.flatMap frame), n.length < 256)
    (time : Nat) (htime : time ≤ 1000000000000) (pkg : Bytes) (props : List (Nat × Bytes)) :
    ∃ s0 s r0 r, Desk.init = some s0 ∧ steps s0 P = some s ∧ Hpsf.Props.init time pkg = some r0 ∧ r0.run props = some r ∧
      (s.prog.look.styles.xfs.length ≤ 65536 → Hpsf.need r.summary ≤ 4096 → Hpsf.need r.doc ≤ 4096 →
        ∃ fuel wb si di bs bd, Desk.units cs fuel s = some wb ∧
          Hpsf.build .summary r.summary = some si ∧ Unit.contents si = some bs ∧ Hpsf.build .docSummary r.doc = some di ∧ Unit.contents di = some bd ∧
          (Ole.dataSize wb + 8192 < 2 ^ 31 - 12288 → ∃ f w ws wd S T, Ole.CompleteFile (Ole.workbookFiles wb [bs] [bd]) f ∧
            Cfb.readStream f (Ole.nameUnits Ole.workbookNames[0]) = some w ∧
            Prog.Found ar (asked s0 Prog.nothing P) (names (P.flatMap frame)) w ∧ Arranged (P.flatMap frame) w ∧
            Cfb.readStream f (Ole.nameUnits Ole.workbookNames[1]) = some ws ∧ Spec.PropSet.read ws = some (Spec.PropSet.fmtidSummary, S) ∧
            Cfb.readStream f (Ole.nameUnits Ole.workbookNames[2]) = some wd ∧ Spec.PropSet.read wd = some (Spec.PropSet.fmtidDocSummary, T) ∧
            ∀ kind d id, Spec.PropSet.place kind = some (d, id) →
              Spec.PropSet.valueOf id (if d then T else S) = (Hpsf.expected pkg props kind).map .lpstr)) := by
  obtain ⟨calls, t, h, hal⟩ := from_start P p0 h0 hp hf hn1
  have hn : names calls = names (P.flatMap frame) := by unfold names; rw [filterMap_core _ (fun _ => rfl), hal.core, ← filterMap_core _ (fun _ => rfl)]
  rw [← hn] at hn0 hn1 hn2 ⊢
  have ha : Prog.asked p0 Prog.nothing (calls.filterMap Desk.Call.inner) = asked (Desk.start p0) Prog.nothing P := h.asked
  obtain ⟨s0, s, r0, r, s1, s2, s3, s4, H⟩ := Desk.c65_file_partial hA calls p0 h0 h.possible h.fine (by rw [ha]; exact hm) cs hn0 hn1 hn2 time htime pkg props
  have e : Desk.init = some (Desk.start p0) := by rw [Desk.init, h0]; rfl
  rw [e] at s1
  obtain rfl := Option.some.inj s1
  rw [h.plain] at s2
  obtain rfl := Option.some.inj s2
  refine ⟨_, t, r0, r, e, h.run, s3, s4, fun a b c => ?_⟩
  obtain ⟨n, wb, si, di, bs, bd, k1, k2, k3, k4, k5, k6⟩ := H a b c
  refine ⟨n, wb, si, di, bs, bd, k1, k2, k3, k4, k5, fun hsz => ?_⟩
  obtain ⟨f, w, ws, wd, S, T, m1, m2, m3, m4, m5⟩ := k6 hsz
  exact ⟨f, w, ws, wd, S, T, m1, m2, by rw [← ha]; exact m3, hal.arranged m4, m5⟩

/-! ### A program -/

theorem asked_acts {P : List Call} {p0 : Prog.State} (h0 : Prog.init = some p0) (hp : Possible 0 P) (hf : Fine (Desk.start p0) Prog.nothing P)
    (hn1 : (names (P.flatMap frame)).length ≤ 1000) (i : Nat) :
    (asked (Desk.start p0) Prog.nothing P).acts i = (P.flatMap frame).filterMap fun c => c.inner.bind (Prog.onSheet i) := by
  obtain ⟨calls, t, h, hal⟩ := from_start P p0 h0 hp hf hn1
  rw [← h.asked, Prog.asked_acts (begin_good h0) h.fine, List.filterMap_filterMap, filterMap_core _ (fun _ => rfl), hal.core,
    ← filterMap_core _ (fun _ => rfl)]
  rfl

def possibleB : Nat → List Call → Bool
  | _, [] => true
  | n, .desk (.sheet _) :: r => possibleB (n + 1) r
  | n, .desk c :: r => (Desk.target c).all (decide <| · < n) && possibleB n r
  | n, .range i _ _ :: r => decide (i < n) && possibleB n r

theorem possible_of (n : Nat) (P : List Call) (h : possibleB n P = true) : Possible n P := by
  induction P generalizing n with
  | nil => trivial
  | cons c P ih =>
    cases c with
    | range i r o =>
      simp only [possibleB, Bool.and_eq_true, decide_eq_true_eq] at h
      exact ⟨h.1, ih n h.2⟩
    | desk c =>
      cases c with
      | sheet nm => exact ih (n + 1) h
      | _ =>
        simp only [possibleB, Bool.and_eq_true] at h
        refine ⟨fun i hi => ?_, ih n h.2⟩
        have := h.1
        rw [hi] at this
        simpa using this

def rangeRoomB (s : Desk.State) (i : Nat) (r : Rect) : RangeOp → Bool
  | .call o => Range.loopB (fun s : Desk.State => Range.roomB s.prog.look.styles) (callBody i o) (keys r) s
  | .font o => Range.loopB (fun s : Desk.State => Range.roomB s.prog.look.styles) (fontBody i o) (keys r) s
  | .color n => Range.loopB (fun w : Desk.State × Range.Cache => Range.roomB w.1.prog.look.styles) (memoBody i (fun _ _ x => x.flags) (Range.colorOps n)) (keys r) (s, [])
  | .box b => Range.loopB (fun w : Desk.State × Range.Cache => Range.roomB w.1.prog.look.styles) (memoBody i (Range.boxTag r) (Range.boxOps r b)) (keys r) (s, [])

theorem rangeRoom_of {s : Desk.State} {i : Nat} {r : Rect} {o : RangeOp} (h : rangeRoomB s i r o = true) : RangeRoom s i r o := by
  cases o <;> exact Range.loopB_ok _ _ (fun _ => Range.roomB_ok) _ _ _ h

def okB (s : Desk.State) (A : Prog.Asked) : Call → Bool
  | .desk (.on c) => Prog.mildB s.prog A c && Prog.keptB A c
  | .desk _ => true
  | .range i r o => decide (r.lastRow < 2 ^ 32 - 1) && decide (r.lastCol < 2 ^ 32 - 1) && Range.argsB A.look.looks.fonts o && rangeRoomB s i r o

def fineB (s : Desk.State) (A : Prog.Asked) : List Call → Bool
  | [] => true
  | c :: r => okB s A c && decide (s.prog.look.styles.fonts.length < 65535) && match step s c with | none => true | some t => fineB t (ask s A c) r

theorem fine_of {s : Desk.State} {A : Prog.Asked} {P : List Call} (h : fineB s A P = true) : Fine s A P := by
  induction P generalizing s A with
  | nil => trivial
  | cons c P ih =>
    simp only [fineB, Bool.and_eq_true, decide_eq_true_eq] at h
    refine ⟨?_, h.1.2, fun t ht => ih ?_⟩
    · have h := h.1.1
      cases c with
      | desk c =>
        cases c with
        | on c =>
          simp only [okB, Bool.and_eq_true] at h
          exact ⟨Prog.mild_of h.1, Prog.kept_of h.2⟩
        | _ => trivial
      | range i r o =>
        simp only [okB, Bool.and_eq_true, decide_eq_true_eq] at h
        exact ⟨h.1.1.1, h.1.1.2, Range.argsB_ok h.1.2, rangeRoom_of h.2⟩
    · have := h.2
      rw [ht] at this
      exact this

/-- Two sheets; a text and a number; a box with a thick border around (0, 0)–(2, 1), colour for (1, 1)–(2, 2), bold for (5, 1) and (5, 2); red on the
    other sheet; a merged range; then another value for (1, 1). -/
def sample : List Call :=
  [.desk (.sheet [65]), .desk (.on (.look (.put 0 0 0 (.text [72, 105]) none))), .desk (.sheet [66]), .desk (.on (.look (.put 0 5 1 (.signed 7) none))),
   .range 0 ⟨0, 0, 2, 1⟩ (.box ⟨5, 1, 10, 11, 12⟩), .range 0 ⟨1, 1, 2, 2⟩ (.color 13), .desk (.makeActive 1), .range 0 ⟨5, 1, 5, 2⟩ (.font (.bold 0)),
   .desk (.on (.page 1 (.call (.merge 1 1 2 4)))), .range 1 ⟨3, 3, 3, 3⟩ (.call (.wrap true)), .desk (.on (.look (.put 0 1 1 (.signed 8) none)))]

theorem sample_fine : ∃ p0, Prog.init = some p0 ∧ Possible 0 sample ∧ Fine (Desk.start p0) Prog.nothing sample ∧
    Prog.Modest (asked (Desk.start p0) Prog.nothing sample) := by
  obtain ⟨p0, h0, -⟩ := Prog.init_good
  have h : (Prog.init.map fun p => fineB (Desk.start p) Prog.nothing sample && decide ((asked (Desk.start p) Prog.nothing sample).look.writes.length < 1000) &&
      (asked (Desk.start p) Prog.nothing sample).look.writes.all fun p => decide (p.2.row < 32832) && decide (p.2.col < 256) && Look.valB p.2.val) = some true := by
    decide +kernel
  rw [h0] at h
  simp only [Option.map_some, Option.some.injEq, Bool.and_eq_true, decide_eq_true_eq, List.all_eq_true] at h
  have hp : Possible 0 sample := possible_of 0 sample (by decide +kernel)
  have hf := fine_of h.1.1
  have ha : ∀ i, (asked (Desk.start p0) Prog.nothing sample).acts i = if 1 = i then [.call (.merge 1 1 2 4)] else [] := by
    intro i
    have hc : (sample.flatMap frame).filter core = [.sheet [65], .sheet [66], .makeActive 1, .on (.page 1 (.call (.merge 1 1 2 4)))] := rfl
    rw [asked_acts h0 hp hf (by decide) i, filterMap_core _ (fun _ => rfl), hc]
    simp only [List.filterMap_cons, Desk.Call.inner, Option.bind_none, Option.bind_some, Prog.onSheet, List.filterMap_nil]
    by_cases hi : 1 = i <;> simp [hi]
  refine ⟨p0, h0, hp, hf, ⟨?_, by omega, Whole.fewRows_of fun p hp => (h.2 p hp).1.1, ?_, ?_, ?_⟩, ?_⟩
  · intro i row col c hw
    unfold lastWrite at hw
    obtain ⟨p, hp, rfl⟩ := Option.map_eq_some_iff.mp hw
    have := h.2 p (List.mem_filter.mp (List.mem_of_getLast? hp)).1
    exact ⟨by omega, this.1.2, Look.val_of this.2⟩
  · intro i a hm
    rw [ha] at hm
    split at hm
    · obtain rfl := List.mem_singleton.mp hm
      simp [Page.RowFit, Page.Fit, Page.InLimits, Page.Short, Act.rowHeight]
    · cases hm
  · intro i
    rw [ha]
    split <;> simp
  · intro i
    rw [ha]
    refine Nat.le_trans List.countP_le_length ?_
    split <;> simp
  · intro i
    refine Page.few_steady _ _ ?_
    rw [ha]
    split <;> decide

/-- Some values as numbers. -/
def code : Val → Nat × List Nat
  | .blank => (0, [])
  | .signed z => (1, [z.toNat])
  | .text t => (2, t.map (·.toNat))
  | _ => (3, [])

/-- What the sample asks for: (1, 1) has the value that it got last and its default look; (2, 1) is blank and has got the box and then the colour; (0, 0)
    has its text and the upper left corner of the box; nothing is at (0, 2). -/
example :
    let g := fun i k => Prog.init.bind fun p => (grid (asked (Desk.start p) Prog.nothing sample).look i k).map fun x => (code x.1, x.2.calls)
    g 0 (1, 1) = some ((1, [8]), []) ∧
    g 0 (2, 1) = some ((0, []), [.bstyle .bottom 5, .bcolor .bottom 10, .bstyle .right 5, .bcolor .right 10, .fg 11, .fg 12, .fill 1, .fg 13, .fill 1]) ∧
    g 0 (0, 0) = some ((2, [72, 105]), [.bstyle .top 5, .bcolor .top 10, .bstyle .left 5, .bcolor .left 10, .fg 11, .fg 12, .fill 1]) ∧
    g 0 (0, 2) = none ∧ g 1 (3, 3) = some ((0, []), [.wrap true]) := by decide +kernel

/-- The used ranges: the blank cells count. -/
example : (∀ k, k ∈ (sample.flatMap frame).filterMap (Desk.Call.spot 0) ↔
      k ∈ [(0, 0), (5, 1), (0, 1), (1, 0), (1, 1), (2, 0), (2, 1), (1, 2), (2, 2), (5, 2)]) ∧
    (sample.flatMap frame).filterMap (Desk.Call.spot 1) = [(3, 3)] ∧ names (sample.flatMap frame) = [[65], [66]] := by
  refine ⟨fun k => ?_, rfl, rfl⟩
  have e : (sample.flatMap frame).filterMap (Desk.Call.spot 0) =
    [(0, 0), (5, 1), (0, 0), (0, 1), (1, 0), (1, 1), (2, 0), (2, 1), (1, 1), (1, 2), (2, 1), (2, 2), (5, 1), (5, 2), (1, 1)] := rfl
  rw [e]
  exact ⟨fun h => (by decide : ∀ k ∈ [(0, 0), (5, 1), (0, 0), (0, 1), (1, 0), (1, 1), (2, 0), (2, 1), (1, 1), (1, 2), (2, 1), (2, 2), (5, 1), (5, 2), (1, 1)],
      k ∈ [(0, 0), (5, 1), (0, 1), (1, 0), (1, 1), (2, 0), (2, 1), (1, 2), (2, 2), (5, 2)]) k h,
    fun h => (by decide : ∀ k ∈ [(0, 0), (5, 1), (0, 1), (1, 0), (1, 1), (2, 0), (2, 1), (1, 2), (2, 2), (5, 2)],
      k ∈ [(0, 0), (5, 1), (0, 0), (0, 1), (1, 0), (1, 1), (2, 0), (2, 1), (1, 1), (1, 2), (2, 1), (2, 2), (5, 1), (5, 2), (1, 1)]) k h⟩

example : ∃ s0 s r0 r, Desk.init = some s0 ∧ steps s0 sample = some s ∧ Hpsf.Props.init 1700000000 [120] = some r0 ∧
      r0.run [(1, [82, 101]), (6, [77])] = some r ∧
      (s.prog.look.styles.xfs.length ≤ 65536 → Hpsf.need r.summary ≤ 4096 → Hpsf.need r.doc ≤ 4096 →
        ∃ fuel wb si di bs bd, Desk.units (fun _ => 0) fuel s = some wb ∧
          Hpsf.build .summary r.summary = some si ∧ Unit.contents si = some bs ∧ Hpsf.build .docSummary r.doc = some di ∧ Unit.contents di = some bd ∧
          (Ole.dataSize wb + 8192 < 2 ^ 31 - 12288 → ∃ f w, Ole.CompleteFile (Ole.workbookFiles wb [bs] [bd]) f ∧
            Cfb.readStream f (Ole.nameUnits Ole.workbookNames[0]) = some w ∧
            Prog.Found Formula.tableArity (asked s0 Prog.nothing sample) (names (sample.flatMap frame)) w ∧ Arranged (sample.flatMap frame) w)) := by
  obtain ⟨p0, h0, hp, hf, hm⟩ := sample_fine
  obtain ⟨s0, s, r0, r, h1, h2, h3, h4, h5⟩ := c68_file_partial Formula.tableArity_knows sample p0 h0 hp hf hm (fun _ => 0) (by decide) (by decide)
    (by decide) 1700000000 (by decide) [120] [(1, [82, 101]), (6, [77])]
  refine ⟨s0, s, r0, r, h1, h2, h3, h4, fun a b c => ?_⟩
  obtain ⟨n, wb, si, di, bs, bd, k3, k4, k5, k6, k7, k8⟩ := h5 a b c
  refine ⟨n, wb, si, di, bs, bd, k3, k4, k5, k6, k7, fun hsz => ?_⟩
  obtain ⟨f, w, -, -, -, -, m1, m2, m3, m4, -⟩ := k8 hsz
  exact ⟨f, w, m1, m2, m3, m4⟩

/-- `c68_range` for the box of the sample. -/
example : ∃ p0, Prog.init = some p0 ∧
    (grid (asked (Desk.start p0) Prog.nothing (sample.take 5)).look 0 (2, 1)) =
      changed (rangeCalls (asked (Desk.start p0) Prog.nothing (sample.take 4)).look.looks.fonts ⟨0, 0, 2, 1⟩ (2, 1) (.box ⟨5, 1, 10, 11, 12⟩))
        (grid (asked (Desk.start p0) Prog.nothing (sample.take 4)).look 0 (2, 1)) := by
  obtain ⟨p0, h0, -⟩ := Prog.init_good
  have h : (Prog.init.map fun p => fineB (Desk.start p) Prog.nothing (sample.take 5)) = some true := by decide +kernel
  rw [h0] at h
  exact ⟨p0, h0, (c68_range (sample.take 4) 0 ⟨0, 0, 2, 1⟩ (.box ⟨5, 1, 10, 11, 12⟩) p0 h0 (possible_of 0 (sample.take 5) (by decide +kernel))
    (fine_of (P := sample.take 5) (Option.some.inj h)) (by decide)).1 (2, 1) (by unfold Inside; decide)⟩

example : ((Desk.init.bind (steps · sample)).map fun t => decide (t.prog.look.styles.xfs.length ≤ 65536)) = some true := by decide +kernel

end Xls.Area
