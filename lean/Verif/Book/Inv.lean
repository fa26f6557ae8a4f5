import Verif.Book.Pieces
import Verif.Sheet.Spec
/-
Every dump that ends is made of complete traces of its sources.
-/
namespace Xls.Book
open Xls.Biff

variable {γ σ : Type} {gnext : γ → Src γ} {snext : σ → Nat → Nat → Src σ}

theorem run_mono {s s2 : St γ σ} {vs : List U} : ∀ {fuel : Nat} (k : Nat), run gnext snext fuel s = .done vs s2 →
    run gnext snext (fuel + k) s = .done vs s2 := by
  intro fuel
  induction fuel generalizing s s2 vs with
  | zero => intro k h; simp [Book.run] at h
  | succ f ih =>
    intro k h
    rw [show f + 1 + k = (f + k) + 1 by omega]
    simp only [Book.run] at h ⊢
    cases hp : pass gnext snext s with
    | ub => rw [hp] at h; simp at h
    | again s' => rw [hp] at h; exact ih k h
    | ret o s' =>
      rw [hp] at h
      cases o with
      | none => exact h
      | some u =>
        simp only at h ⊢
        cases hr : run gnext snext f s' with
        | done us s3 =>
          rw [hr] at h
          rw [ih k hr]
          exact h
        | ub => rw [hr] at h; simp [Outcome.push] at h
        | fuelOut => rw [hr] at h; simp [Outcome.push] at h

theorem run_unique {s s2 s2' : St γ σ} {vs vs' : List U} {f f' : Nat} (h : run gnext snext f s = .done vs s2)
    (h' : run gnext snext f' s = .done vs' s2') : vs = vs' ∧ s2 = s2' := by
  have a := run_mono f' h
  have b := run_mono f h'
  rw [Nat.add_comm, b] at a
  simp only [Outcome.done.injEq] at a
  exact ⟨a.1.symm, a.2.symm⟩

theorem run_again {s s1 s2 : St γ σ} {vs : List U} {fuel : Nat} (e : pass gnext snext s = .again s1)
    (h : run gnext snext fuel s = .done vs s2) : ∃ f, f < fuel ∧ run gnext snext f s1 = .done vs s2 := by
  cases fuel with
  | zero => simp [Book.run] at h
  | succ f =>
    simp only [Book.run, e] at h
    exact ⟨f, by omega, h⟩

theorem Steps.run_inv {s s1 : St γ σ} {us : List U} (h : Steps gnext snext s us s1) : ∀ {fuel : Nat} {vs : List U} {s2 : St γ σ},
    Book.run gnext snext fuel s = .done vs s2 → ∃ f ws, f + us.length ≤ fuel ∧ Book.run gnext snext f s1 = .done ws s2 := by
  induction h with
  | refl s => intro fuel vs s2 h; exact ⟨fuel, vs, by simp, h⟩
  | again e _ ih =>
    intro fuel vs s2 h
    obtain ⟨f, hf, h'⟩ := run_again e h
    obtain ⟨f', ws, a, b⟩ := ih h'
    exact ⟨f', ws, by omega, b⟩
  | @out s u s1 us s' e _ ih =>
    intro fuel vs s2 h
    cases fuel with
    | zero => simp [Book.run] at h
    | succ f =>
      simp only [Book.run, e] at h
      cases hr : Book.run gnext snext f s1 with
      | done ws s3 =>
        rw [hr] at h
        simp only [Outcome.push, Outcome.done.injEq] at h
        rw [h.2] at hr
        obtain ⟨f', xs, a, b⟩ := ih hr
        exact ⟨f', xs, by simp only [List.length_cons]; omega, b⟩
      | ub => rw [hr] at h; simp [Outcome.push] at h
      | fuelOut => rw [hr] at h; simp [Outcome.push] at h

theorem pieces_pos (u : U) : 0 < (pieces u).length := by
  unfold pieces
  split <;> simp

theorem run_ub {s s2 : St γ σ} {vs : List U} {fuel : Nat} (e : pass gnext snext s = .ub) (h : run gnext snext fuel s = .done vs s2) : False := by
  cases fuel with
  | zero => simp [Book.run] at h
  | succ f => simp [Book.run, e] at h

theorem globals_inv : ∀ (fuel : Nat) (pv : Phase) (g : γ) (sheets : List σ) (cur offset wl : Nat) (dt : Option U) (ci rs : Nat)
    (bpos : List (Nat × Nat)) (vs : List U) (s2 : St γ σ),
    run gnext snext fuel ⟨.globals, pv, g, sheets, cur, offset, wl, dt, ci, rs, bpos⟩ = .done vs s2 → ∃ gus g', GTrace gnext g gus g' := by
  intro fuel
  induction fuel using Nat.strongRecOn with
  | ind fuel ih =>
    intro pv g sheets cur offset wl dt ci rs bpos vs s2 h
    cases hg : gnext g with
    | ub => exact (run_ub (by simp [pass, hg]) h).elim
    | again g1 =>
      obtain ⟨f, hf, h'⟩ := run_again (s1 := ⟨.globals, pv, g1, sheets, cur, offset, wl, dt, ci, rs, bpos⟩) (by simp [pass, hg]) h
      obtain ⟨gus, g', ht⟩ := ih f hf _ _ _ _ _ _ _ _ _ _ _ _ h'
      exact ⟨gus, g', .again hg ht⟩
    | fin g1 => exact ⟨[], g1, .fin hg⟩
    | unit u g1 =>
      obtain ⟨pv', dt', ci', rs', h1⟩ := handle_steps (gnext := gnext) (snext := snext) u
        (s := ⟨.globals, pv, g, sheets, cur, offset, wl, dt, ci, rs, bpos⟩)
        (p := .globals) (g := g1) (sheets := sheets) (cur := cur) (offset := offset) (wl := wl + u.data.length)
        (bpos := bpos) (pv := pv) (dt := dt) (ci := ci) (rs := rs) (by simp [pass, hg])
      obtain ⟨f, ws, hf, h'⟩ := h1.run_inv h
      have := pieces_pos u
      obtain ⟨gus, g', ht⟩ := ih f (by omega) _ _ _ _ _ _ _ _ _ _ _ _ h'
      exact ⟨u :: gus, g', .unit hg ht⟩

theorem sheet_inv : ∀ (fuel : Nat) (pv : Phase) (g : γ) (sheets : List σ) (cur off wl : Nat) (dt : Option U) (ci rs : Nat)
    (bpos : List (Nat × Nat)) (vs : List U) (s2 : St γ σ) (sh : σ), sheets[cur]? = some sh →
    run gnext snext fuel ⟨.sheets, pv, g, sheets, cur, off, wl, dt, ci, rs, bpos⟩ = .done vs s2 →
    ∃ us wl' sh', STrace snext off sh wl us wl' sh' := by
  intro fuel
  induction fuel using Nat.strongRecOn with
  | ind fuel ih =>
    intro pv g sheets cur off wl dt ci rs bpos vs s2 sh hsh h
    obtain ⟨hlt, _⟩ := List.getElem?_eq_some_iff.mp hsh
    cases hg : snext sh off wl with
    | ub => exact (run_ub (by simp [pass, hsh, hg]) h).elim
    | again s1 =>
      obtain ⟨f, hf, h'⟩ := run_again (s1 := ⟨.sheets, pv, g, sheets.set cur s1, cur, off, wl, dt, ci, rs, bpos⟩) (by simp [pass, hsh, hg]) h
      obtain ⟨us, wl', sh', ht⟩ := ih f hf _ _ _ _ _ _ _ _ _ _ _ _ s1 (by simp [hlt]) h'
      exact ⟨us, wl', sh', .again hg ht⟩
    | fin s1 => exact ⟨[], wl, s1, .fin hg⟩
    | unit u s1 =>
      obtain ⟨pv', dt', ci', rs', h1⟩ := handle_steps (gnext := gnext) (snext := snext) u
        (s := ⟨.sheets, pv, g, sheets, cur, off, wl, dt, ci, rs, bpos⟩)
        (p := .sheets) (g := g) (sheets := sheets.set cur s1) (cur := cur) (offset := off) (wl := wl + u.data.length)
        (bpos := bpos) (pv := pv) (dt := dt) (ci := ci) (rs := rs) (by simp [pass, hsh, hg])
      have hw : wl + u.data.length + (if Phase.sheets = Phase.sheets ∧ u.oversize = true then
          4 * (u.paySize / maxRec - 1) else 0) = wl + cost u := by
        simp [cost]; omega
      rw [hw] at h1
      obtain ⟨f, ws, hf, h'⟩ := h1.run_inv h
      have := pieces_pos u
      obtain ⟨us, wl', sh', ht⟩ := ih f (by omega) _ _ _ _ _ _ _ _ _ _ _ _ s1 (by simp [hlt]) h'
      exact ⟨u :: us, wl', sh', .unit hg ht⟩

theorem sheets_inv : ∀ (rest : List σ) (fuel off : Nat) (pv : Phase) (g : γ) (done : List σ) (dt : Option U) (ci rs : Nat)
    (bpos : List (Nat × Nat)) (vs : List U) (s2 : St γ σ), (done ++ rest).length < 65536 → rest ≠ [] →
    run gnext snext fuel ⟨.sheets, pv, g, done ++ rest, done.length, off, 0, dt, ci, rs, bpos⟩ = .done vs s2 →
    ∃ uss rest' offs, SheetsTrace snext off rest uss rest' offs := by
  intro rest
  induction rest with
  | nil => intro _ _ _ _ _ _ _ _ _ _ _ _ h; exact absurd rfl h
  | cons sh rest ih =>
    intro fuel off pv g done dt ci rs bpos vs s2 hlen _ h
    obtain ⟨us, wl, sh', ht⟩ := sheet_inv _ _ _ _ _ _ _ _ _ _ _ _ _ sh (by simp) h
    cases rest with
    | nil => exact ⟨_, _, _, .cons ht .nil⟩
    | cons sh2 rest2 =>
      obtain ⟨pv1, dt1, ci1, rs1, sh1, e1, h1⟩ := sheet_steps (gnext := gnext) ht pv g (done ++ sh :: sh2 :: rest2) done.length
        dt ci rs bpos (by simp)
      have hset : ∀ x : σ, (done ++ sh :: sh2 :: rest2).set done.length x = done ++ x :: sh2 :: rest2 := by
        intro x; simp
      rw [hset] at h1
      have hget : (done ++ sh1 :: sh2 :: rest2)[done.length]? = some sh1 := by simp
      have hset1 : ∀ x : σ, (done ++ sh1 :: sh2 :: rest2).set done.length x = done ++ x :: sh2 :: rest2 := by
        intro x; simp
      have hmod : (done ++ sh1 :: sh2 :: rest2).length % 65536 = (done ++ sh1 :: sh2 :: rest2).length :=
        Nat.mod_eq_of_lt (by simpa using hlen)
      have h2 : Steps gnext snext ⟨.sheets, pv1, g, done ++ sh1 :: sh2 :: rest2, done.length, off, wl, dt1, ci1, rs1, bpos⟩ []
          ⟨.sheets, pv1, g, done ++ sh' :: sh2 :: rest2, done.length + 1, off + wl, 0, none, ci1, rs1,
            bpos ++ [(done.length, off)]⟩ := by
        refine .one_again ?_
        simp only [pass, hget, e1, hmod, hset1]
        rw [if_pos (by simp)]
      obtain ⟨f, ws, -, h3⟩ := (h1.trans h2).run_inv h
      have e : done ++ sh' :: sh2 :: rest2 = done ++ [sh'] ++ sh2 :: rest2 := by simp
      rw [e, show done.length + 1 = (done ++ [sh']).length by simp] at h3
      obtain ⟨uss, rest', offs, hs⟩ := ih f (off + wl) pv1 g (done ++ [sh']) none ci1 rs1 _ ws s2 (by simpa using hlen) (by simp) h3
      exact ⟨_, _, _, .cons ht hs⟩

/-- A dump that ends: what it has handed out and what it has told the sheets. -/
theorem dump_inv {g : γ} {sheets : List σ} {s s' : St γ σ} {us : List U} {fuel : Nat} (hs : start g sheets s)
    (h : run gnext snext fuel s = .done us s') (h0 : sheets ≠ []) (hn : sheets.length < 65536) :
    ∃ gus g' uss sheets' offs, GTrace gnext g gus g' ∧
      SheetsTrace snext (gus.map (·.data.length)).sum sheets uss sheets' offs ∧
      us = (gus ++ uss.flatten).flatMap pieces ∧ start g' sheets' { s' with bpos := [] } ∧
      s'.bpos = offs.zipIdx.map (fun p => (p.2, p.1)) := by
  have hs0 := hs
  obtain ⟨phase, prev, sg, ssh, cur, offset, wl, dt, ci, rs, bpos⟩ := s
  obtain ⟨hp, rfl, rfl, hb⟩ := hs
  simp only at hp hb h0 hn hs0
  subst hp hb
  obtain ⟨f, -, h1⟩ := run_again (s1 := ⟨.globals, .init, sg, ssh, 0, 0, 0, dt, ci, rs, []⟩) (by simp [pass]) h
  obtain ⟨gus, g', hg⟩ := globals_inv _ _ _ _ _ _ _ _ _ _ _ _ _ h1
  obtain ⟨ci2, rs2, h2⟩ := globals_steps (snext := snext) hg .init ssh 0 0 0 dt ci rs []
  rw [Nat.zero_add] at h2
  obtain ⟨f2, ws, -, h3⟩ := h2.run_inv h1
  obtain ⟨uss, sheets', offs, hsh⟩ := sheets_inv ssh f2 _ .globals g' [] none ci2 rs2 [] ws s' (by simpa using hn) h0 (by simpa using h3)
  obtain ⟨s'', ⟨n, hn'⟩, a, b⟩ := dump_run hs0 hg hsh h0 hn
  obtain ⟨e1, e2⟩ := run_unique h (hn' n (Nat.le_refl _))
  subst e2
  exact ⟨gus, g', uss, sheets', offs, hg, hsh, e1, a, b⟩

theorem GTrace.det {g g1 g2 : γ} {us vs : List U} (h : GTrace gnext g us g1) : GTrace gnext g vs g2 → us = vs ∧ g1 = g2 := by
  induction h generalizing vs with
  | fin e =>
    intro h'
    cases h' with
    | fin e' => rw [e] at e'; cases e'; exact ⟨rfl, rfl⟩
    | again e' _ => rw [e] at e'; cases e'
    | unit e' _ => rw [e] at e'; cases e'
  | again e _ ih =>
    intro h'
    cases h' with
    | fin e' => rw [e] at e'; cases e'
    | again e' h' => rw [e] at e'; cases e'; exact ih h'
    | unit e' _ => rw [e] at e'; cases e'
  | unit e _ ih =>
    intro h'
    cases h' with
    | fin e' => rw [e] at e'; cases e'
    | again e' _ => rw [e] at e'; cases e'
    | unit e' h' =>
      rw [e] at e'
      cases e'
      obtain ⟨a, b⟩ := ih h'
      exact ⟨by rw [a], b⟩

/-- A sheet's trace is what pulling its records to the end gives. -/
theorem STrace.drain {off : Nat} {s s' : σ} {wl wl' : Nat} {us : List U} (h : STrace snext off s wl us wl' s') :
    ∃ fuel, Sheet.drain snext fuel off wl s = .done us s' := by
  induction h with
  | fin e => exact ⟨1, by simp [Sheet.drain, e]⟩
  | again e _ ih => obtain ⟨f, h⟩ := ih; exact ⟨f + 1, by simp [Sheet.drain, e, h]⟩
  | unit e _ ih => obtain ⟨f, h⟩ := ih; exact ⟨f + 1, by simp [Sheet.drain, e, h, Sheet.Drained.push]⟩

theorem trace_of_drain {off : Nat} {s' : σ} : ∀ (fuel wl : Nat) (s : σ) (us : List U), Sheet.drain snext fuel off wl s = .done us s' →
    ∃ wl', STrace snext off s wl us wl' s' := by
  intro fuel
  induction fuel with
  | zero => intro wl s us h; simp [Sheet.drain] at h
  | succ f ih =>
    intro wl s us h
    simp only [Sheet.drain] at h
    cases hx : snext s off wl with
    | ub => rw [hx] at h; simp at h
    | again s1 =>
      rw [hx] at h
      obtain ⟨wl', ht⟩ := ih _ _ _ h
      exact ⟨wl', .again hx ht⟩
    | fin s1 =>
      rw [hx] at h
      simp only [Sheet.Drained.done.injEq] at h
      obtain ⟨rfl, rfl⟩ := h
      exact ⟨wl, .fin hx⟩
    | unit u s1 =>
      rw [hx] at h
      simp only at h
      cases hd : Sheet.drain snext f off (wl + cost u) s1 with
      | ub => rw [hd] at h; simp [Sheet.Drained.push] at h
      | fuelOut => rw [hd] at h; simp [Sheet.Drained.push] at h
      | done vs s2 =>
        rw [hd] at h
        simp only [Sheet.Drained.push, Sheet.Drained.done.injEq] at h
        obtain ⟨rfl, rfl⟩ := h
        obtain ⟨wl', ht⟩ := ih _ _ _ hd
        exact ⟨wl', .unit hx ht⟩

end Xls.Book
