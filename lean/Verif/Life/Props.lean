import Verif.Life.Spec
/-
C71: the whole life of a workbook.
-/
namespace Xls.Life
open Xls.Biff Xls.Cells Xls.Whole
open Xls.Desk (names Remarks ArrangedBy ArrangedFrom)
open Xls.Live (plain Kept resolve valOf actOf told contents)

theorem names_frame (σ : Nat → Bytes) (p : List Live.Call) : names ((p.filterMap (told σ)).flatMap Area.frame) = sheetNames p := by
  have hr : ∀ i r o, names (Area.frame (.range i r o)) = [] := by
    intro i r o
    unfold names Area.frame
    rw [List.filterMap_map]
    exact List.filterMap_eq_nil_iff.mpr fun k _ => rfl
  have cat : ∀ a b : List Desk.Call, names (a ++ b) = names a ++ names b := fun a b => List.filterMap_append ..
  induction p with
  | nil => rfl
  | cons c r ih =>
    cases c with
    | other c =>
      simp only [List.filterMap_cons, told, List.flatMap_cons, cat, ih]
      cases c with
      | range i re o => rw [hr]; rfl
      | desk c => cases c <;> rfl
    | make i => rw [List.filterMap_cons_none rfl, ih]; rfl
    | push h c => rw [List.filterMap_cons_none rfl, ih]; rfl
    | cell i row col a h q =>
      simp only [List.filterMap_cons, told, List.flatMap_cons, cat, ih]
      rfl
    | validate i v c1 c2 =>
      simp only [List.filterMap_cons, told, List.flatMap_cons, cat, ih]
      rfl

theorem names_plain (p : List Live.Call) : names (frame p) = sheetNames p := names_frame _ p

theorem live_append (p q : List Live.Call) (s : Live.State) : Live.steps s (p ++ q) = (Live.steps s p).bind fun t => Live.steps t q := by
  induction p generalizing s with
  | nil => rfl
  | cons c r ih =>
    rw [List.cons_append, Live.steps, Live.steps]
    cases Live.step s c with
    | none => rfl
    | some t => exact ih t

theorem possible_append (p q : List Live.Call) (n m : Nat) (h : Live.Possible n m (p ++ q)) : Live.Possible n m p := by
  induction p generalizing n m with
  | nil => trivial
  | cons c r ih =>
    cases c with
    | other c =>
      cases c with
      | range i re o => exact ⟨h.1, ih _ _ h.2⟩
      | desk c =>
        cases c with
        | sheet nm => exact ih _ _ h
        | _ => exact ⟨h.1, h.2.1, ih _ _ h.2.2⟩
    | make i => exact ⟨h.1, ih _ _ h.2⟩
    | push k c => exact ⟨h.1, ih _ _ h.2⟩
    | cell i row col a k q' => exact ⟨h.1, h.2.1, ih _ _ h.2.2⟩
    | validate i v c1 c2 => exact ⟨h.1, h.2.1, h.2.2.1, ih _ _ h.2.2.2⟩

theorem props_append (p q : List (Nat × Bytes)) (r : Hpsf.Props) : r.run (p ++ q) = (r.run p).bind fun r => r.run q := by
  induction p generalizing r with
  | nil => rfl
  | cons x l ih =>
    obtain ⟨k, t⟩ := x
    rw [List.cons_append, Hpsf.Props.run, Hpsf.Props.run]
    cases r.set k t with
    | none => rfl
    | some y => exact ih y.1

/-- What holds of a workbook between calls. -/
structure Holds (p0 : Prog.State) (r0 : Hpsf.Props) (before : List Live.Call) (props : List (Nat × Bytes)) (first : Nat → Nat) (s : State) : Prop where
  live : Live.steps ⟨Desk.start p0, []⟩ before = some s.live
  props : r0.run props = some s.props
  left : ∀ p, s.left = some p → p.phase = .init ∧ p.g.2.phase = .init ∧ p.sheets.length ≤ (sheetNames before).length ∧
    (∀ (i : Nat) sh, p.sheets[i]? = some sh → sh.2.phase = .init ∧ sh.2.rb.phase = .init ∧ sh.2.spid = first i) ∧
    ∀ i, p.sheets.length ≤ i → first i = 0
  fresh : s.left = none → ∀ i, first i = 0

/-- A file in whose workbook stream `W` holds, with the properties and the times. -/
def Opens (time : Nat) (pkg : Bytes) (props : List (Nat × Bytes)) (W : Bytes → Prop) (f : Bytes) : Prop :=
  ∃ w ws wd S T, Cfb.readStream f (Ole.nameUnits Ole.workbookNames[0]) = some w ∧ W w ∧
    Cfb.readStream f (Ole.nameUnits Ole.workbookNames[1]) = some ws ∧ Spec.PropSet.read ws = some (Spec.PropSet.fmtidSummary, S) ∧
    Cfb.readStream f (Ole.nameUnits Ole.workbookNames[2]) = some wd ∧ Spec.PropSet.read wd = some (Spec.PropSet.fmtidDocSummary, T) ∧
    (∀ kind d id, Spec.PropSet.place kind = some (d, id) → Spec.PropSet.valueOf id (if d then T else S) = (Hpsf.expected pkg props kind).map .lpstr) ∧
    Spec.PropSet.valueOf 12 S = some (.filetime ((time + 11644473600) * 10000000)) ∧
    Spec.PropSet.valueOf 13 S = some (.filetime ((time + 11644473600) * 10000000))

/-- One save of a workbook in which the calls `calls` do the same, `Q` is what is said of its cells and looks. -/
theorem save_by {before : List Live.Call} {props : List (Nat × Bytes)} {p0 : Prog.State}
    (h0 : Prog.init = some p0) {time : Nat} (htime : time ≤ 1000000000000) {pkg : Bytes} {r0 : Hpsf.Props} (hr0 : Hpsf.Props.init time pkg = some r0)
    (hp : Live.Possible 0 0 before)
    (room : ∀ r0 r, Hpsf.Props.init time pkg = some r0 → r0.run props = some r → Hpsf.need r.summary ≤ 4096 ∧ Hpsf.need r.doc ≤ 4096)
    (cs : WCell → Nat) {first : Nat → Nat} {s : State} (H : Holds p0 r0 before props first s) (ix : Nat → Nat → Nat)
    {calls : List Desk.Call} {t : Desk.State} (hplain : Desk.steps (Desk.start p0) calls = some t)
    (hrun : Area.steps (Desk.start p0) (plain before) = some t) (hal : Area.Alike calls (frame before)) {Q : Bytes → Prop} {S : List Bytes → List (Nat × Nat × Nat) → Prop}
    (hsave : ∀ left, Again.Holds p0 calls first ⟨t, left⟩ → ∃ N w s' next, (∀ fuel, N ≤ fuel → Again.save (sizes cs s) fuel ix ⟨t, left⟩ = some (w, s')) ∧
      Again.Holds p0 calls next s' ∧ s'.desk = t ∧ (∀ i, ∃ n, Remarks i calls n ∧ next i = if n = 0 then first i else (first i + n + 1) % 2 ^ 32) ∧
      ((∀ i, first i = 0) → ∃ fuel, Desk.units (sizes cs s) fuel t = some w) ∧
      (w.flatten.length < 2 ^ 32 → ∀ pad, Q (w.flatten ++ pad) ∧ ArrangedBy S first calls (w.flatten ++ pad))) :
    ∃ N o s' next, (∀ fuel, N ≤ fuel → dump cs fuel ix s = some (o, s')) ∧ Holds p0 r0 before props next s' ∧
      (∀ i, ∃ n, Remarks i (frame before) n ∧ next i = if n = 0 then first i else (first i + n + 1) % 2 ^ 32) ∧
      ((∀ i, first i = 0) → ∃ fuel, Live.units (sizes cs s) fuel s.live = some o.wb) ∧
      (Ole.dataSize o.wb + 8192 < 2 ^ 31 - 12288 → ∃ f, Ole.CompleteFile (Ole.workbookFiles o.wb [o.summary] [o.doc]) f ∧
        Opens time pkg props (fun w => Q w ∧ ArrangedBy S first (frame before) w) f) := by
  have hnm := names_plain before
  have hcalls : names calls = sheetNames before := by
    rw [← hnm]
    unfold names
    rw [Area.filterMap_core _ (fun _ => rfl), hal.core, ← Area.filterMap_core _ (fun _ => rfl)]
  obtain ⟨sl, hs, hres⟩ := Live.arrives h0 hp hrun
  rw [H.live] at hs
  obtain rfl := Option.some.inj hs
  obtain ⟨N, w, sA, next, a1, a2, a3, a4, a5, a6⟩ := hsave s.left ⟨hplain, fun p hp => by rw [hcalls]; exact H.left p hp, H.fresh⟩
  obtain ⟨r0', r, q1, q2, K⟩ := Hpsf.c32_read_back time htime pkg props
  rw [hr0] at q1
  obtain rfl := Option.some.inj q1
  rw [H.props] at q2
  obtain rfl := Option.some.inj q2
  obtain ⟨n1, n2⟩ := room _ _ hr0 H.props
  obtain ⟨si, di, bs, bd, S, T, k1, k2, k2', k3, k4, k4', rs, rd, -, -, hv, t1, t2, -⟩ := K n1 n2
  refine ⟨N, ⟨w, bs, bd⟩, { s with left := sA.left, sized := measure cs s }, next, fun fuel hf => ?_, ⟨H.live, H.props, fun p hp => ?_, a2.fresh⟩, fun i => ?_, fun hz => ?_, fun hsz => ?_⟩
  · unfold dump stream
    rw [State.followed, hres, a1 fuel hf]
    simp only [Option.bind_some, k1, k2, k3, k4, Option.map_some]
  · rw [← hcalls]
    exact a2.left p hp
  · obtain ⟨n, m1, m2⟩ := a4 i
    refine ⟨n, ?_, m2⟩
    unfold Remarks at m1 ⊢
    rw [Area.filterMap_core _ (fun _ => rfl), hal.core, ← Area.filterMap_core _ (fun _ => rfl)] at m1
    exact m1
  · obtain ⟨f, hf⟩ := a5 hz
    exact ⟨f, by rw [Live.units, hres]; exact hf⟩
  · have hsz' : Ole.dataSize w + 8192 < 2 ^ 31 - 12288 := hsz
    have h1 : Ole.dataSize [bs] = 4096 := by simp [Ole.dataSize, k2']
    have h2 : Ole.dataSize [bd] = 4096 := by simp [Ole.dataSize, k4']
    obtain ⟨f, m1, m2, m3, hcf, f1, f2, f3⟩ := Ole.c10_workbook w [bs] [bd] (by omega)
    have : w.flatten.length = Ole.dataSize w := by rw [List.length_flatten]; rfl
    obtain ⟨g1, g2⟩ := a6 (by omega) (List.replicate m1 0)
    refine ⟨f, hcf, _, _, _, S, T, f1, ⟨g1, hal.arranged g2⟩, f2, ?_, f3, ?_, hv, t1, t2⟩
    · simp only [List.flatten_cons, List.flatten_nil, List.append_nil]
      exact rs _
    · simp only [List.flatten_cons, List.flatten_nil, List.append_nil]
      exact rd _

/-- One save. -/
theorem one_save {ar : Nat → Option Nat} (hA : Formula.KnowsArity ar) {before : List Live.Call} {props : List (Nat × Bytes)} {p0 : Prog.State}
    (h0 : Prog.init = some p0) {time : Nat} (htime : time ≤ 1000000000000) {pkg : Bytes} {r0 : Hpsf.Props} (hr0 : Hpsf.Props.init time pkg = some r0)
    (hp : Live.Possible 0 0 before) (hw : Within p0 time pkg (before, props)) (cs : WCell → Nat)
    (hn0 : sheetNames before ≠ []) (hn1 : (sheetNames before).length ≤ 1000) (hn2 : ∀ n ∈ sheetNames before, n.length < 256)
    {first : Nat → Nat} {s : State} (H : Holds p0 r0 before props first s) (ix : Nat → Nat → Nat) :
    ∃ N o s' next, (∀ fuel, N ≤ fuel → dump cs fuel ix s = some (o, s')) ∧ Holds p0 r0 before props next s' ∧
      Saved ar (sizes cs s) p0 time pkg (before, props) o first next := by
  have hnm := names_plain before
  have hpos : Area.Possible 0 (plain before) := Live.possible_area _ _ 0 0 hp
  have hfine : Area.Fine (Desk.start p0) Prog.nothing (plain before) := hw.fine
  obtain ⟨calls, t, h, hal⟩ := Area.from_start (plain before) p0 h0 hpos hfine (by rw [hnm]; exact hn1)
  have hcalls : names calls = sheetNames before := by
    rw [← hnm]
    unfold names
    rw [Area.filterMap_core _ (fun _ => rfl), hal.core, ← Area.filterMap_core _ (fun _ => rfl)]
  have ha : Prog.asked p0 Prog.nothing (calls.filterMap Desk.Call.inner) = Area.asked (Desk.start p0) Prog.nothing (plain before) := h.asked
  have hwA : Again.Within p0 calls := ⟨by rw [ha]; exact hw.modest, fun d hd => by
    rw [h.plain] at hd
    obtain rfl := Option.some.inj hd
    obtain ⟨sl, hs, hres⟩ := Live.arrives h0 hp h.run
    rw [← hres]
    exact hw.formats _ hs⟩
  obtain ⟨N, o, s', next, b1, b2, b3, b4, b5⟩ := save_by h0 htime hr0 hp hw.room cs H ix h.plain h.run hal
    (Q := Prog.Found ar (Prog.asked p0 Prog.nothing (calls.filterMap Desk.Call.inner)) (names calls)) (fun left HA =>
      Again.one_save hA h0 h.possible h.fine hwA (sizes cs s) (by rw [hcalls]; exact hn0) (by rw [hcalls]; exact hn1) (by rw [hcalls]; exact hn2) HA ix)
  refine ⟨N, o, s', next, b1, b2, b3, fun hz => ?_, fun hsz => ?_⟩
  · obtain ⟨fuel, hfu⟩ := b4 hz
    exact ⟨s.live, fuel, H.live, hfu⟩
  obtain ⟨f, hcf, w, ws, wd, S, T, f1, ⟨g1, g2⟩, f2⟩ := b5 hsz
  rw [ha, hcalls] at g1
  refine ⟨f, hcf, w, ws, wd, S, T, f1, ?_, g1, g2, f2⟩
  have := Live.kept hA h0 hp hfine (by rw [hnm]; exact hn1) (by rw [hnm]; exact g1)
  rw [hnm] at this
  exact this

theorem sheetNames_append (p q : List Live.Call) : sheetNames (p ++ q) = sheetNames p ++ sheetNames q := List.filterMap_append ..

/-- The sheets that are there are those that were made. -/
theorem sheets_made (p : List Live.Call) {s t : Live.State} (h : Live.steps s p = some t) :
    t.desk.wb.sheets.length = s.desk.wb.sheets.length + (sheetNames p).length := by
  induction p generalizing s with
  | nil => cases Option.some.inj h; rfl
  | cons c r ih =>
    rw [Live.steps] at h
    obtain ⟨u, hu, hr⟩ := Option.bind_eq_some_iff.mp h
    have e : u.desk.wb.sheets.length = s.desk.wb.sheets.length + (sheetNames [c]).length := by
      cases c with
      | other c =>
        simp only [Live.step] at hu
        split at hu
        · obtain ⟨d, hd, rfl⟩ := Option.map_eq_some_iff.mp hu
          have := Live.area_wb hd
          cases c with
          | range i re o => exact this
          | desk c => cases c <;> exact this
        · cases hu
      | make i =>
        simp only [Live.step] at hu
        split at hu
        · cases Option.some.inj hu; rfl
        · cases hu
      | push k c =>
        obtain ⟨f, -, rfl⟩ := Option.map_eq_some_iff.mp hu
        rfl
      | cell i row col a k q =>
        simp only [Live.step] at hu
        split at hu
        · obtain ⟨d, hd, rfl⟩ := Option.map_eq_some_iff.mp hu
          exact Live.area_wb hd
        · cases hu
      | validate i v c1 c2 =>
        simp only [Live.step] at hu
        split at hu
        · obtain ⟨d, hd, rfl⟩ := Option.map_eq_some_iff.mp hu
          exact Live.area_wb hd
        · cases hu
    rw [ih hr, e, show c :: r = [c] ++ r from rfl, sheetNames_append, List.length_append]
    omega

theorem all_saves {p0 : Prog.State}
    {time : Nat} (htime : time ≤ 1000000000000) {pkg : Bytes} {r0 : Hpsf.Props} (hr0 : Hpsf.Props.init time pkg = some r0) (cs : WCell → Nat)
    {W : List Live.Call × List (Nat × Bytes) → Prop} {V : List Live.Call × List (Nat × Bytes) → Output → (Nat → Nat) → (Nat → Nat) → Prop}
    {K : List Event → State → Prop} (hK : ∀ e r s fuel o t, K (e :: r) s → step cs fuel s e = some (o, t) → K r t)
    (one : ∀ (before : List Live.Call) (props : List (Nat × Bytes)) (first : Nat → Nat) (s : State) (ix : Nat → Nat → Nat),
      (∃ r, K (.save true ix :: r) s) → Live.Possible 0 0 before →
      W (before, props) → sheetNames before ≠ [] → (sheetNames before).length ≤ 1000 → (∀ n ∈ sheetNames before, n.length < 256) →
      Holds p0 r0 before props first s → ∃ N o s' next, (∀ fuel, N ≤ fuel → dump cs fuel ix s = some (o, s')) ∧ Holds p0 r0 before props next s' ∧
        V (before, props) o first next) (evs : List Event) :
    ∀ (before : List Live.Call) (props : List (Nat × Bytes)) (first : Nat → Nat) (s : State), Holds p0 r0 before props first s → K evs s →
    Live.Possible 0 0 (before ++ calls evs) → (∃ u, Live.steps ⟨Desk.start p0, []⟩ (before ++ calls evs) = some u) →
    (∀ c ∈ saves before props evs, W c) →
    (sheetNames (before ++ calls evs)).length ≤ 1000 → (∀ n ∈ sheetNames (before ++ calls evs), n.length < 256) →
    ∃ (N : Nat) (os : List Output) (s' : State) (count : Nat → Nat → Nat), (∀ fuel, N ≤ fuel → run cs fuel s evs = some (os, s')) ∧
      Live.steps ⟨Desk.start p0, []⟩ (before ++ calls evs) = some s'.live ∧
      os.length = (saves before props evs).length ∧ count 0 = first ∧
      ∀ (k : Nat) c o, (saves before props evs)[k]? = some c → os[k]? = some o → V c o (count k) (count (k + 1)) := by
  induction evs with
  | nil =>
    intro before props first s H _ _ _ _ _ _
    exact ⟨0, [], s, fun _ => first, fun _ _ => rfl, by simpa [calls] using H.live, rfl, rfl, fun k c w h => by cases h⟩
  | cons e r ih =>
    intro before props first s H hk hp hu hw hn1 hn2
    cases e with
    | call c =>
      have he : before ++ calls (.call c :: r) = (before ++ [c]) ++ calls r := by simp [calls]
      rw [he] at hp hu hn1 hn2
      obtain ⟨u, hu⟩ := hu
      have hu' := hu
      rw [live_append, live_append, H.live, Option.bind_some, Live.steps] at hu
      obtain ⟨v, hv, -⟩ := Option.bind_eq_some_iff.mp hu
      obtain ⟨x, hx, hy⟩ := Option.bind_eq_some_iff.mp hv
      cases Option.some.inj hy
      have hl : Live.steps ⟨Desk.start p0, []⟩ (before ++ [c]) = some v := by
        rw [live_append, H.live, Option.bind_some, Live.steps, hx]
        rfl
      obtain ⟨N, os, s', count, k1, k1', k2, k3, k4⟩ := ih (before ++ [c]) props first { s with live := v, sized := kept s v } ⟨hl, H.props, fun p hp => by
          obtain ⟨a1, a2, a3, a4⟩ := H.left p hp
          refine ⟨a1, a2, ?_, a4⟩
          rw [sheetNames_append, List.length_append]
          omega, H.fresh⟩ (hK _ _ _ 0 none _ hk (by rw [step, hx]; rfl)) hp ⟨u, hu'⟩ hw hn1 hn2
      refine ⟨N, os, s', count, fun fuel hfu => ?_, by rw [he]; exact k1', k2, k3, k4⟩
      rw [run, step, hx, Option.map_some, Option.bind_some]
      simp only [k1 fuel hfu]
      rfl
    | property k t =>
      have he : before ++ calls (.property k t :: r) = before ++ calls r := rfl
      rw [he] at hp hu hn1 hn2
      obtain ⟨r0', r', q1, q2, -⟩ := Hpsf.c32_read_back time htime pkg (props ++ [(k, t)])
      rw [hr0] at q1
      obtain rfl := Option.some.inj q1
      have q2' := q2
      rw [props_append, H.props, Option.bind_some, Hpsf.Props.run] at q2'
      obtain ⟨x, hx, hy⟩ := Option.bind_eq_some_iff.mp q2'
      obtain rfl := Option.some.inj hy
      obtain ⟨N, os, s', count, k1, k1', k2, k3, k4⟩ := ih before (props ++ [(k, t)]) first { s with props := x.1 } ⟨H.live, q2, H.left, H.fresh⟩
        (hK _ _ _ 0 none _ hk (by rw [step, hx]; rfl)) hp hu hw hn1 hn2
      refine ⟨N, os, s', count, fun fuel hfu => ?_, k1', k2, k3, k4⟩
      rw [run, step, hx, Option.map_some, Option.bind_some]
      simp only [k1 fuel hfu]
      rfl
    | save opens ix =>
      have he : before ++ calls (.save opens ix :: r) = before ++ calls r := rfl
      rw [he] at hp hu hn1 hn2
      have hn1' := hn1
      have hn2' := hn2
      rw [sheetNames_append] at hn1' hn2'
      rw [List.length_append] at hn1'
      have hiff : s.live.desk.wb.sheets = [] ↔ sheetNames before = [] := by
        have := sheets_made before H.live
        rw [show (Desk.start p0).wb.sheets.length = 0 from rfl, Nat.zero_add] at this
        rw [← List.length_eq_zero_iff, this, List.length_eq_zero_iff]
      by_cases hc : opens = true ∧ sheetNames before ≠ []
      · have hs : saves before props (.save opens ix :: r) = (before, props) :: saves before props r := by rw [saves, if_pos hc]
        rw [hs] at hw ⊢
        obtain ⟨N1, o, s1, next, a1, a2, a3⟩ := one before props first s ix ⟨r, by rw [← hc.1]; exact hk⟩ (possible_append _ _ _ _ hp) (hw _ (List.mem_cons_self ..)) hc.2
          (by omega) (fun n hn => hn2' n (List.mem_append_left _ hn)) H
        have hst : ∀ fuel, N1 ≤ fuel → step cs fuel s (.save opens ix) = some (some o, s1) := by
          intro fuel hfu
          rw [step, if_neg (by rw [hiff]; exact hc.2), if_neg (by rw [hc.1]; simp), a1 fuel hfu, Option.map_some]
        obtain ⟨N, os, s', count, k1, k1', k2, k3, k4⟩ := ih before props next s1 a2 (hK _ _ _ N1 _ _ hk (hst N1 (Nat.le_refl _))) hp hu
          (fun c hc => hw c (List.mem_cons_of_mem _ hc)) hn1 hn2
        refine ⟨max N1 N, o :: os, s', fun k => match k with | 0 => first | k + 1 => count k, fun fuel hfu => ?_, k1', by rw [List.length_cons, List.length_cons, k2], rfl, ?_⟩
        · rw [run, hst fuel (by omega), Option.bind_some]
          simp only [k1 fuel (by omega)]
          rfl
        · intro k c o' h1 h2
          cases k with
          | zero =>
            obtain rfl := Option.some.inj h1
            obtain rfl := Option.some.inj h2
            show V (before, props) o first (count 0)
            rw [k3]
            exact a3
          | succ k => exact k4 k c o' (by simpa using h1) (by simpa using h2)
      · have hs : saves before props (.save opens ix :: r) = saves before props r := by rw [saves, if_neg hc]
        rw [hs] at hw ⊢
        by_cases hq : sheetNames before = []
        · have hst : ∀ fuel, step cs fuel s (.save opens ix) = some (none, s) := fun fuel => by rw [step, if_pos (hiff.mpr hq)]
          obtain ⟨N, os, s', count, k1, k1', k2, k3, k4⟩ := ih before props first s H (hK _ _ _ 0 _ _ hk (hst 0)) hp hu hw hn1 hn2
          refine ⟨N, os, s', count, fun fuel hfu => ?_, k1', k2, k3, k4⟩
          rw [run, hst, Option.bind_some]
          simp only [k1 fuel hfu]
          rfl
        · have ho : opens = false := by
            cases opens with
            | false => rfl
            | true => exact absurd ⟨rfl, hq⟩ hc
          have hst : ∀ fuel, step cs fuel s (.save opens ix) = some (none, { s with sized := measure cs s }) := fun fuel => by
            rw [step, if_neg (by rw [hiff]; exact hq), if_pos ho]
          obtain ⟨N, os, s', count, k1, k1', k2, k3, k4⟩ := ih before props first { s with sized := measure cs s } ⟨H.live, H.props, H.left, H.fresh⟩
            (hK _ _ _ 0 _ _ hk (hst 0)) hp hu hw hn1 hn2
          refine ⟨N, os, s', count, fun fuel hfu => ?_, k1', k2, k3, k4⟩
          rw [run, hst, Option.bind_some]
          simp only [k1 fuel hfu]
          rfl

/-- C71: any sequence of calls on a new workbook – sheets, cells, formats, fonts, ranges, columns, rows, comments, links, validations, formula objects that
    may change after they are given away, document properties – and of saves is carried out without undefined behaviour.  Every save that can write hands
    out a complete file in which a reader finds exactly what the calls made before that save ask for (`Readable`); the saves change nothing in the
    workbook but the numbers of shapes, which are counted on, and the sizes of cells that INDEX records are made with (`sz`; see `c71_outdated_index`).
    Missing for the full claim: as in `c70_stream_partial`, at each save, and that the properties fit (C33). -/
theorem c71_life_partial {ar : Nat → Option Nat} (hA : Formula.KnowsArity ar) (evs : List Event) (p0 : Prog.State) (h0 : Prog.init = some p0)
    (time : Nat) (htime : time ≤ 1000000000000) (pkg : Bytes) (hp : Live.Possible 0 0 (calls evs))
    (hf : Area.Fine (Desk.start p0) Prog.nothing (plain (calls evs))) (hw : ∀ c ∈ saves [] [] evs, Within p0 time pkg c) (cs : WCell → Nat)
    (hn1 : (sheetNames (calls evs)).length ≤ 1000) (hn2 : ∀ n ∈ sheetNames (calls evs), n.length < 256) :
    ∃ (s0 : State) (N : Nat) (os : List Output) (s : State) (count : Nat → Nat → Nat), init time pkg = some s0 ∧
      (∀ fuel, N ≤ fuel → run cs fuel s0 evs = some (os, s)) ∧ Live.steps s0.live (calls evs) = some s.live ∧
      os.length = (saves [] [] evs).length ∧ (∀ i, count 0 i = 0) ∧
      ∀ (k : Nat) c o, (saves [] [] evs)[k]? = some c → os[k]? = some o → ∃ sz, Saved ar sz p0 time pkg c o (count k) (count (k + 1)) := by
  obtain ⟨r0, -, hr0, -⟩ := Hpsf.c32_read_back time htime pkg []
  have hu : ∃ u, Live.steps ⟨Desk.start p0, []⟩ (calls evs) = some u := by
    obtain ⟨ds, t, h, -⟩ := Area.from_start (plain (calls evs)) p0 h0 (Live.possible_area _ _ 0 0 hp) hf (by
      rw [names_plain (calls evs)]
      exact hn1)
    obtain ⟨u, h1, -⟩ := Live.arrives h0 hp h.run
    exact ⟨u, h1⟩
  obtain ⟨N, os, s, count, a1, a2, a3, a4, a5⟩ := all_saves htime hr0 cs (K := fun _ _ => True) (fun _ _ _ _ _ _ _ _ => trivial)
    (V := fun c o first next => ∃ sz, Saved ar sz p0 time pkg c o first next)
    (fun before props first s ix _ p1 p2 p3 p4 p5 H => by
      obtain ⟨N, o, s', next, x1, x2, x3⟩ := one_save hA h0 htime hr0 p1 p2 cs p3 p4 p5 H ix
      exact ⟨N, o, s', next, x1, x2, _, x3⟩) evs [] [] (fun _ => 0) ⟨⟨Desk.start p0, []⟩, r0, none, fun _ => none⟩
    ⟨rfl, rfl, (fun p h => by cases h), fun _ _ => rfl⟩ trivial hp hu hw hn1 hn2
  refine ⟨⟨⟨Desk.start p0, []⟩, r0, none, fun _ => none⟩, N, os, s, count, ?_, a1, a2, a3, fun i => by rw [a4], a5⟩
  rw [init, Live.init, Desk.init, h0, Option.map_some, Option.map_some, Option.bind_some, hr0]
  rfl

/-! ### What follows -/

theorem saves_head {before : List Live.Call} {props : List (Nat × Bytes)} {c : List Live.Call × List (Nat × Bytes)} {evs : List Event}
    (h : c ∈ saves before props evs) : ∃ r, before ++ calls evs = c.1 ++ r := by
  induction evs generalizing before props with
  | nil => cases h
  | cons e r ih =>
    cases e with
    | call d =>
      obtain ⟨r', e⟩ := ih (before := before ++ [d]) h
      exact ⟨r', by rw [← e]; simp [calls]⟩
    | property k t => exact ih (before := before) h
    | save o ix =>
      have hr : ∀ h : c ∈ saves before props r, ∃ r', before ++ calls (.save o ix :: r) = c.1 ++ r' := fun h => ih h
      unfold saves at h
      split at h
      · rcases List.mem_cons.mp h with rfl | h
        · exact ⟨_, rfl⟩
        · exact hr h
      · exact hr h

/-- The comments that a program asks for on sheet `i`. -/
def remarks (i : Nat) (p : List Live.Call) : List (Nat × Nat) :=
  p.filterMap fun
    | .other (.desk c) => Desk.remarkAt i c
    | _ => none

theorem remarks_frame (σ : Nat → Bytes) (i : Nat) (p : List Live.Call) : ((p.filterMap (told σ)).flatMap Area.frame).filterMap (Desk.remarkAt i) = remarks i p := by
  have hr : ∀ j r o, (Area.frame (.range j r o)).filterMap (Desk.remarkAt i) = [] := by
    intro j r o
    unfold Area.frame
    rw [List.filterMap_map]
    exact List.filterMap_eq_nil_iff.mpr fun k _ => rfl
  induction p with
  | nil => rfl
  | cons c r ih =>
    cases c with
    | other c =>
      simp only [List.filterMap_cons, told, List.flatMap_cons, List.filterMap_append, ih]
      cases c with
      | range i re o => rw [hr]; rfl
      | desk c => simp only [remarks, List.filterMap_cons, Area.frame, List.filterMap_nil]; cases Desk.remarkAt i c <;> rfl
    | make i => rw [List.filterMap_cons_none rfl, ih]; rfl
    | push h c => rw [List.filterMap_cons_none rfl, ih]; rfl
    | cell i row col a h q =>
      simp only [List.filterMap_cons, told, List.flatMap_cons, List.filterMap_append, ih]
      rfl
    | validate i v c1 c2 =>
      simp only [List.filterMap_cons, told, List.flatMap_cons, List.filterMap_append, ih]
      rfl

theorem units_unique {cs : WCell → Nat} {f1 f2 : Nat} {s : Live.State} {w1 w2 : List Bytes} (h1 : Live.units cs f1 s = some w1) (h2 : Live.units cs f2 s = some w2) :
    w1 = w2 := Again.units_unique h1 h2

theorem trace_of {p0 : Prog.State} (h0 : Prog.init = some p0) {cs : WCell → Nat} {evs : List Event} {os : List Output} {count : Nat → Nat → Nat}
    (hc : ∀ i, remarks i (calls evs) = []) (a3 : os.length = (saves [] [] evs).length) (a4 : ∀ i, count 0 i = 0)
    (a5 : ∀ (k : Nat) c o, (saves [] [] evs)[k]? = some c → os[k]? = some o →
      (∀ i, ∃ n, Remarks i (frame c.1) n ∧ count (k + 1) i = if n = 0 then count k i else (count k i + n + 1) % 2 ^ 32) ∧
      ((∀ i, count k i = 0) → ∃ s fuel, Live.steps ⟨Desk.start p0, []⟩ c.1 = some s ∧ Live.units cs fuel s = some o.wb)) :
    (∀ (k : Nat) c o, (saves [] [] evs)[k]? = some c → os[k]? = some o →
      ∃ l0 l fuel, Live.init = some l0 ∧ Live.steps l0 c.1 = some l ∧ Live.units cs fuel l = some o.wb) ∧
    ∀ (j k : Nat) c d o q, (saves [] [] evs)[j]? = some c → (saves [] [] evs)[k]? = some d → c.1 = d.1 → os[j]? = some o → os[k]? = some q → o.wb = q.wb := by
  have hz : ∀ k, k ≤ os.length → ∀ i, count k i = 0 := by
    intro k
    induction k with
    | zero => intro _; exact a4
    | succ k ih =>
      intro hk i
      have hk' : k < (saves [] [] evs).length := by omega
      obtain ⟨n, r1, r2⟩ := (a5 k _ _ (List.getElem?_eq_getElem hk') (List.getElem?_eq_getElem (show k < os.length by omega))).1 i
      have hn : n = 0 := by
        refine Again.remarks_none (i := i) ?_ r1
        unfold frame plain
        rw [remarks_frame]
        obtain ⟨r, hr⟩ := saves_head (List.getElem_mem hk')
        have := hc i
        rw [List.nil_append] at hr
        rw [hr] at this
        unfold remarks at this ⊢
        rw [List.filterMap_append] at this
        exact (List.append_eq_nil_iff.mp this).1
      rw [r2, if_pos hn]
      exact ih (by omega) i
  have hsame : ∀ (k : Nat) c o, (saves [] [] evs)[k]? = some c → os[k]? = some o →
      ∃ l fuel, Live.steps ⟨Desk.start p0, []⟩ c.1 = some l ∧ Live.units cs fuel l = some o.wb :=
    fun k c o h1 h2 => (a5 k c o h1 h2).2 (hz k (Nat.le_of_lt (List.getElem?_eq_some_iff.mp h2).1))
  refine ⟨fun k c o h1 h2 => ?_, fun j k c d o q h1 h2 he h3 h4 => ?_⟩
  · obtain ⟨l, f, e1, e2⟩ := hsame k c o h1 h2
    exact ⟨_, l, f, by rw [Live.init, Desk.init, h0]; rfl, e1, e2⟩
  · obtain ⟨l1, f1, x1, x2⟩ := hsame j c o h1 h3
    obtain ⟨l2, f2, y1, y2⟩ := hsame k d q h2 h4
    rw [he, y1] at x1
    obtain rfl := Option.some.inj x1
    exact units_unique x2 y2

/-! ### A history -/

/-- A save before there is a sheet; a title; a sheet with a formula in a cell, which is the number 5 so far; a save; then 7 and the addition are pushed, and the
    title is changed; a save to a file that cannot be opened, and another save. -/
def sample (ix ix' : Nat → Nat → Nat) : List Event :=
  [.save true ix, .property 9 [82, 101], .call (.other (.desk (.sheet [65]))), .call (.make 0), .call (.push 0 (.int 5)), .call (.cell 0 0 0 false 0 none),
   .save true ix, .call (.push 0 (.int 7)), .call (.push 0 (.op 3)), .property 9 [82, 105], .save false ix', .save true ix']

/-- The calls before the first save that writes, and before the second. -/
def early : List Live.Call := [.other (.desk (.sheet [65])), .make 0, .push 0 (.int 5), .cell 0 0 0 false 0 none]
def late : List Live.Call := early ++ [.push 0 (.int 7), .push 0 (.op 3)]

example (ix ix' : Nat → Nat → Nat) : calls (sample ix ix') = late ∧
    saves [] [] (sample ix ix') = [(early, [(9, [82, 101])]), (late, [(9, [82, 101]), (9, [82, 105])])] := ⟨rfl, rfl⟩

/-- The formula of the cell in the first file and in the second. -/
example : Formula.formulaOf Formula.tableArity (Live.taken 0 (Live.pushesOn 0 early)) = some (.int 5) ∧
    Formula.formulaOf Formula.tableArity (Live.taken 0 (Live.pushesOn 0 late)) = some (.bin 3 (.int 5) (.int 7)) := ⟨rfl, rfl⟩

theorem within_of {p0 : Prog.State} (h0 : Prog.init = some p0) {time : Nat} {pkg : Bytes} {c : List Live.Call × List (Nat × Bytes)} (hp : Live.Possible 0 0 c.1)
    (hn : (sheetNames c.1).length ≤ 1000) (hi : ∀ i, (frame c.1).filterMap (fun d => d.inner.bind (Prog.onSheet i)) = [])
    (h : (Prog.init.map fun p => Area.fineB (Desk.start p) Prog.nothing (plain c.1) &&
      decide ((Area.asked (Desk.start p) Prog.nothing (plain c.1)).look.writes.length < 1000) &&
      (Area.asked (Desk.start p) Prog.nothing (plain c.1)).look.writes.all fun p => decide (p.2.row < 32832) && decide (p.2.col < 256) &&
        match p.2.val with | .tokens _ tok => decide (tok.length ≤ 8179) | v => Look.valB v) = some true)
    (hx : ((Prog.init.bind fun p => Live.steps ⟨Desk.start p, []⟩ c.1).map fun s => decide (s.desk.prog.look.styles.xfs.length ≤ 65536)) = some true)
    (hr : (((Hpsf.Props.init time pkg).bind fun r => r.run c.2).map fun r => decide (Hpsf.need r.summary ≤ 4096) && decide (Hpsf.need r.doc ≤ 4096)) = some true) :
    Within p0 time pkg c := by
  rw [h0] at h hx
  simp only [Option.map_some, Option.some.injEq, Bool.and_eq_true, decide_eq_true_eq, List.all_eq_true] at h
  have hf := Area.fine_of h.1.1
  have ha : ∀ i, (Area.asked (Desk.start p0) Prog.nothing (plain c.1)).acts i = [] := by
    intro i
    have hpos : Area.Possible 0 (plain c.1) := Live.possible_area _ _ 0 0 hp
    rw [Area.asked_acts h0 hpos hf (by rw [names_plain c.1]; exact hn) i]
    exact hi i
  refine ⟨hf, ⟨⟨?_, by omega, Whole.fewRows_of fun p hp => (h.2 p hp).1.1, ?_, ?_, ?_⟩, ?_⟩, ?_, ?_⟩
  · intro i row col c hw
    unfold lastWrite at hw
    obtain ⟨p, hp, rfl⟩ := Option.map_eq_some_iff.mp hw
    have := h.2 p (List.mem_filter.mp (List.mem_of_getLast? hp)).1
    refine ⟨by omega, this.1.2, ?_⟩
    have hv := this.2
    split at hv
    · rename_i e
      rw [e]
      simp only [decide_eq_true_eq] at hv
      exact hv
    · exact Look.val_of hv
  · intro i a hm
    rw [ha] at hm
    cases hm
  · intro i
    rw [ha]
    exact show 0 < 2 ^ 32 by decide
  · intro i
    rw [ha]
    exact show 0 ≤ 65535 by decide
  · intro i
    refine Page.few_steady _ _ ?_
    rw [ha]
    exact show 0 < 16 by decide
  · intro s hs
    rw [Option.bind_some, hs] at hx
    simpa using hx
  · intro r0 r h1 h2
    rw [h1, Option.bind_some, h2] at hr
    simpa using hr

/-- The sample meets all conditions: two files are written, and in each a reader finds the cell, the formula as it was at that time and the title. -/
example (ix ix' : Nat → Nat → Nat) : ∃ p0 s0 N o o' s, Prog.init = some p0 ∧ init 1700000000 [120] = some s0 ∧
    (∀ fuel, N ≤ fuel → run (fun _ => 0) fuel s0 (sample ix ix') = some ([o, o'], s)) ∧
    (Ole.dataSize o'.wb + 8192 < 2 ^ 31 - 12288 → ∃ f, Ole.CompleteFile (Ole.workbookFiles o'.wb [o'.summary] [o'.doc]) f ∧
      Readable Formula.tableArity p0 1700000000 [120] (fun _ => 0) (late, [(9, [82, 101]), (9, [82, 105])]) f) := by
  obtain ⟨p0, h0, -⟩ := Prog.init_good
  have hp : Live.Possible 0 0 late := by simp [late, early, Live.Possible]
  have hp' : Live.Possible 0 0 early := possible_append _ _ _ _ hp
  have w1 : Within p0 1700000000 [120] (early, [(9, [82, 101])]) :=
    within_of h0 hp' (by decide) (fun i => rfl) (by decide +kernel) (by decide +kernel) (by decide +kernel)
  have w2 : Within p0 1700000000 [120] (late, [(9, [82, 101]), (9, [82, 105])]) :=
    within_of h0 hp (by decide) (fun i => rfl) (by decide +kernel) (by decide +kernel) (by decide +kernel)
  obtain ⟨s0, N, os, s, count, a1, a2, -, a3, a4, a5⟩ := c71_life_partial Formula.tableArity_knows (sample ix ix') p0 h0 1700000000 (by decide) [120] hp w2.fine (by
      intro c h
      rcases List.mem_cons.mp h with rfl | h
      · exact w1
      · rw [List.mem_singleton.mp h]; exact w2) (fun _ => 0) (show 1 ≤ 1000 by decide) (show ∀ n ∈ sheetNames late, n.length < 256 by decide)
  match os, a3 with
  | [o, o'], _ =>
    obtain ⟨_, b1⟩ := a5 0 _ o rfl rfl
    obtain ⟨_, b2⟩ := a5 1 _ o' rfl rfl
    refine ⟨p0, s0, N, o, o', s, h0, a1, a2, ?_⟩
    have hz : count 1 = fun _ => 0 := by
      funext i
      obtain ⟨n, n1, n2⟩ := b1.counts i
      rw [Again.remarks_none rfl n1, a4] at n2
      exact n2
    rw [hz] at b2
    exact b2.file

end Xls.Life
