import Verif.Book.Spec
namespace Xls.Book
open Xls.Biff

variable {γ σ : Type} {gnext : γ → Src γ} {snext : σ → Nat → Nat → Src σ}

/-! ### Executions -/

/-- Some passes that hand out `us` without ending the dump. -/
inductive Steps (gnext : γ → Src γ) (snext : σ → Nat → Nat → Src σ) : St γ σ → List U → St γ σ → Prop
  | refl (s) : Steps gnext snext s [] s
  | again {s s1 us s'} : pass gnext snext s = .again s1 → Steps gnext snext s1 us s' → Steps gnext snext s us s'
  | out {s u s1 us s'} : pass gnext snext s = .ret (some u) s1 → Steps gnext snext s1 us s' →
      Steps gnext snext s (u :: us) s'

theorem Steps.trans {s s1 s2 : St γ σ} {us vs : List U} (h : Steps gnext snext s us s1)
    (h' : Steps gnext snext s1 vs s2) : Steps gnext snext s (us ++ vs) s2 := by
  induction h with
  | refl => exact h'
  | again e _ ih => exact .again e (ih h')
  | out e _ ih => exact .out e (ih h')

theorem Steps.one_again {s s1 : St γ σ} (e : pass gnext snext s = .again s1) : Steps gnext snext s [] s1 :=
  .again e (.refl _)

theorem Steps.one_out {s s1 : St γ σ} {u} (e : pass gnext snext s = .ret (some u) s1) :
    Steps gnext snext s [u] s1 := .out e (.refl _)

theorem Steps.run {s s1 s2 : St γ σ} {us : List U} (h : Steps gnext snext s us s1)
    (e : pass gnext snext s1 = .ret none s2) :
    ∃ n, ∀ fuel ≥ n, run gnext snext fuel s = .done us s2 := by
  induction h with
  | refl =>
    refine ⟨1, fun fuel hf => ?_⟩
    obtain ⟨f, rfl⟩ : ∃ f, fuel = f + 1 := ⟨fuel - 1, by omega⟩
    simp [Book.run, e]
  | again e' _ ih =>
    obtain ⟨n, hn⟩ := ih e
    refine ⟨n + 1, fun fuel hf => ?_⟩
    obtain ⟨f, rfl⟩ : ∃ f, fuel = f + 1 := ⟨fuel - 1, by omega⟩
    simp [Book.run, e', hn f (by omega)]
  | out e' _ ih =>
    obtain ⟨n, hn⟩ := ih e
    refine ⟨n + 1, fun fuel hf => ?_⟩
    obtain ⟨f, rfl⟩ : ∃ f, fuel = f + 1 := ⟨fuel - 1, by omega⟩
    simp [Book.run, e', hn f (by omega), Outcome.push]

/-! ### CONTINUE records -/

theorem chunks_nil {α : Type} (n : Nat) : chunks n ([] : List α) = [] := by
  rw [chunks]; simp

theorem chunks_cons {α : Type} {n : Nat} {l : List α} (hn : 0 < n) (hl : l ≠ []) :
    chunks n l = l.take n :: chunks n (l.drop n) := by
  rw [chunks, dif_neg (fun h => h.elim hl (by omega))]

/-- What a record unit becomes in the stream. -/
def contUnit (u : U) (c : Bytes) : U := { data := enc (0x3C, c), level := u.level }

def pieces (u : U) : List U :=
  if u.oversize then clip u :: (chunks maxRec ((u.data.drop 4).drop maxRec)).map (contUnit u) else [u]

/-- The bytes that `m_writeLen` counts for a unit of a sheet. -/
def cost (u : U) : Nat := u.data.length + (if u.oversize then 4 * (u.paySize / maxRec - 1) else 0)

theorem cont_steps (u : U) (p : Phase) (d : Nat) : ∀ (k : Nat) (g : γ) (sheets : List σ) (cur offset wl : Nat)
    (bpos : List (Nat × Nat)), 0 < k → k * maxRec ≤ u.paySize → u.paySize / maxRec - k = d →
    Steps gnext snext ⟨.cont, p, g, sheets, cur, offset, wl, some u, k, u.paySize, bpos⟩
      ((chunks maxRec ((u.data.drop 4).drop (k * maxRec))).map (contUnit u))
      ⟨p, .cont, g, sheets, cur, offset, wl + (if p = .sheets then 4 * d else 0), none, 0, u.paySize, bpos⟩ := by
  induction d with
  | zero =>
    intro k g sheets cur offset wl bpos hk hle hd
    have hm : 0 < maxRec := by decide
    have hdiv : ¬ u.paySize / maxRec > k := by omega
    have hlt : u.paySize - k * maxRec < maxRec := by
      have h1 := Nat.div_add_mod u.paySize maxRec
      have h2 := Nat.mod_lt u.paySize hm
      have h3 : maxRec * (u.paySize / maxRec) ≤ maxRec * k := Nat.mul_le_mul_left _ (by omega)
      have h4 : maxRec * k = k * maxRec := Nat.mul_comm _ _
      omega
    have hlen : ((u.data.drop 4).drop (k * maxRec)).length = u.paySize - k * maxRec := by
      simp only [U.paySize, List.length_drop]
    by_cases hc : u.paySize - k * maxRec = 0
    · have hnil : (u.data.drop 4).drop (k * maxRec) = [] := List.length_eq_zero_iff.mp (by omega)
      rw [hnil, chunks_nil]
      refine .one_again ?_
      simp only [pass, if_neg (show ¬ k = 0 by omega), if_neg hdiv, hc]
      simp
    · have hne : (u.data.drop 4).drop (k * maxRec) ≠ [] := by
        intro h0; rw [h0] at hlen; simp at hlen; omega
      have hdr : ((u.data.drop 4).drop (k * maxRec)).drop maxRec = [] := by
        apply List.drop_eq_nil_of_le; omega
      have htk : ((u.data.drop 4).drop (k * maxRec)).take maxRec = (u.data.drop 4).drop (k * maxRec) :=
        List.take_of_length_le (by omega)
      have htk' : ((u.data.drop 4).drop (k * maxRec)).take (u.paySize - k * maxRec) =
          (u.data.drop 4).drop (k * maxRec) := List.take_of_length_le (by omega)
      rw [chunks_cons hm hne, hdr, chunks_nil, htk]
      refine .one_out ?_
      simp only [pass, if_neg (show ¬ k = 0 by omega), if_neg hdiv]
      rw [if_pos (show u.paySize - k * maxRec ≠ 0 from hc)]
      simp only [continueRec, contUnit, htk', Nat.mul_zero, ite_self, Nat.add_zero]
  | succ d ih =>
    intro k g sheets cur offset wl bpos hk hle hd
    have hm : 0 < maxRec := by decide
    have hdiv : u.paySize / maxRec > k := by omega
    have hle' : (k + 1) * maxRec ≤ u.paySize := by
      have h1 := Nat.div_mul_le_self u.paySize maxRec
      have h2 : (k + 1) * maxRec ≤ (u.paySize / maxRec) * maxRec := Nat.mul_le_mul_right _ (by omega)
      omega
    have hlen : ((u.data.drop 4).drop (k * maxRec)).length = u.paySize - k * maxRec := by
      simp only [U.paySize, List.length_drop]
    have hne : (u.data.drop 4).drop (k * maxRec) ≠ [] := by
      intro h0; rw [h0] at hlen; rw [Nat.add_mul] at hle'; simp at hlen; omega
    have hdd : ((u.data.drop 4).drop (k * maxRec)).drop maxRec = (u.data.drop 4).drop ((k + 1) * maxRec) := by
      rw [List.drop_drop, Nat.add_mul, Nat.one_mul]
    rw [chunks_cons hm hne, List.map_cons, hdd]
    have := ih (k + 1) g sheets cur offset (if p = .sheets then wl + 4 else wl) bpos (by omega) hle' (by omega)
    have hwl : (if p = .sheets then wl + 4 else wl) + (if p = .sheets then 4 * d else 0) =
        wl + (if p = .sheets then 4 * (d + 1) else 0) := by
      by_cases hp : p = .sheets <;> simp [hp] <;> omega
    rw [hwl] at this
    refine .out ?_ this
    simp only [pass, if_neg (show ¬ k = 0 by omega), if_pos hdiv]
    rfl

/-- A unit that came from a source in phase `p` is handed out in pieces, and the dump goes on in phase `p`. -/
theorem handle_steps (u : U) {s : St γ σ} {p : Phase} {g : γ} {sheets : List σ} {cur offset wl : Nat}
    {bpos : List (Nat × Nat)} {pv : Phase} {dt : Option U} {ci rs : Nat}
    (h : pass gnext snext s = handle u ⟨p, pv, g, sheets, cur, offset, wl, dt, ci, rs, bpos⟩) :
    ∃ pv' dt' ci' rs', Steps gnext snext s (pieces u) ⟨p, pv', g, sheets, cur, offset,
      wl + (if p = .sheets ∧ u.oversize then 4 * (u.paySize / maxRec - 1) else 0), dt', ci', rs', bpos⟩ := by
  unfold handle at h
  by_cases ho : u.oversize
  · rw [if_pos ho] at h
    have hgt : u.paySize > maxRec := by
      simp only [U.oversize, Bool.and_eq_true, decide_eq_true_eq] at ho
      exact ho.2
    have hs := cont_steps (gnext := gnext) (snext := snext) u p (u.paySize / maxRec - 1) 1 g sheets cur offset wl
      bpos (by omega) (by omega) rfl
    refine ⟨.cont, none, 0, u.paySize, ?_⟩
    rw [pieces, if_pos ho]
    refine .again h (.out (s1 := ⟨.cont, p, g, sheets, cur, offset, wl, some u, 1, u.paySize, bpos⟩) ?_ ?_)
    · simp [pass]
    · simpa [ho, Nat.one_mul] using hs
  · rw [if_neg ho] at h
    refine ⟨pv, some u, ci, rs, ?_⟩
    rw [pieces, if_neg ho]
    have : wl + (if p = .sheets ∧ u.oversize = true then 4 * (u.paySize / maxRec - 1) else 0) = wl := by simp [ho]
    rw [this]
    exact .one_out h

/-! ### The two sources -/

/-- The globals hand out `us` and then nothing more. -/
inductive GTrace (gnext : γ → Src γ) : γ → List U → γ → Prop
  | fin {g g'} : gnext g = .fin g' → GTrace gnext g [] g'
  | again {g g1 us g'} : gnext g = .again g1 → GTrace gnext g1 us g' → GTrace gnext g us g'
  | unit {g u g1 us g'} : gnext g = .unit u g1 → GTrace gnext g1 us g' → GTrace gnext g (u :: us) g'

/-- A sheet, told that it starts at `off` and that `wl` bytes of it are written, hands out `us` and then
    nothing more. -/
inductive STrace (snext : σ → Nat → Nat → Src σ) (off : Nat) : σ → Nat → List U → Nat → σ → Prop
  | fin {s wl s'} : snext s off wl = .fin s' → STrace snext off s wl [] wl s'
  | again {s wl s1 us wl' s'} : snext s off wl = .again s1 → STrace snext off s1 wl us wl' s' →
      STrace snext off s wl us wl' s'
  | unit {s wl u s1 us wl' s'} : snext s off wl = .unit u s1 → STrace snext off s1 (wl + cost u) us wl' s' →
      STrace snext off s wl (u :: us) wl' s'

theorem STrace.wl {off : Nat} {s s' : σ} {wl wl' : Nat} {us : List U} (h : STrace snext off s wl us wl' s') :
    wl' = wl + (us.map cost).sum := by
  induction h with
  | fin => simp
  | again _ _ ih => exact ih
  | unit _ _ ih => rw [ih]; simp; omega

theorem globals_steps {g g' : γ} {us : List U} (h : GTrace gnext g us g') : ∀ (pv : Phase) (sheets : List σ) (cur
    offset wl : Nat) (dt : Option U) (ci rs : Nat) (bpos : List (Nat × Nat)), ∃ ci' rs',
    Steps gnext snext ⟨.globals, pv, g, sheets, cur, offset, wl, dt, ci, rs, bpos⟩ (us.flatMap pieces)
      ⟨.sheets, .globals, g', sheets, cur, wl + (us.map (·.data.length)).sum, 0, none, ci', rs', bpos⟩ := by
  induction h with
  | fin e =>
    intro pv sheets cur offset wl dt ci rs bpos
    exact ⟨ci, rs, .one_again (by simp [pass, e])⟩
  | @again g g1 us g' e _ ih =>
    intro pv sheets cur offset wl dt ci rs bpos
    obtain ⟨ci', rs', h⟩ := ih pv sheets cur offset wl dt ci rs bpos
    exact ⟨ci', rs', .again (by simp [pass, e]) h⟩
  | @unit g u g1 us g' e _ ih =>
    intro pv sheets cur offset wl dt ci rs bpos
    obtain ⟨pv', dt', ci', rs', h1⟩ := handle_steps (gnext := gnext) (snext := snext) u
      (s := ⟨.globals, pv, g, sheets, cur, offset, wl, dt, ci, rs, bpos⟩)
      (p := .globals) (g := g1) (sheets := sheets) (cur := cur) (offset := offset) (wl := wl + u.data.length)
      (bpos := bpos) (pv := pv) (dt := dt) (ci := ci) (rs := rs) (by simp [pass, e])
    obtain ⟨ci2, rs2, h2⟩ := ih pv' sheets cur offset (wl + u.data.length) dt' ci' rs' bpos
    refine ⟨ci2, rs2, ?_⟩
    simp only [reduceCtorEq, false_and, if_false, Nat.add_zero] at h1
    have := h1.trans h2
    simpa [Nat.add_assoc] using this

/-- One sheet, up to the point where it has no more records. -/
theorem sheet_steps {off : Nat} {sh sh' : σ} {wl wl' : Nat} {us : List U}
    (h : STrace snext off sh wl us wl' sh') : ∀ (pv : Phase) (g : γ) (sheets : List σ) (cur : Nat)
    (dt : Option U) (ci rs : Nat) (bpos : List (Nat × Nat)), sheets[cur]? = some sh → ∃ pv' dt' ci' rs' sh1,
    snext sh1 off wl' = .fin sh' ∧
    Steps gnext snext ⟨.sheets, pv, g, sheets, cur, off, wl, dt, ci, rs, bpos⟩ (us.flatMap pieces)
      ⟨.sheets, pv', g, sheets.set cur sh1, cur, off, wl', dt', ci', rs', bpos⟩ := by
  induction h with
  | @fin s wl s' e =>
    intro pv g sheets cur dt ci rs bpos hsh
    refine ⟨pv, dt, ci, rs, s, e, ?_⟩
    have : sheets.set cur s = sheets := by
      obtain ⟨hlt, he⟩ := List.getElem?_eq_some_iff.mp hsh
      rw [← he]; exact List.set_getElem_self hlt
    rw [this]
    exact .refl _
  | @again s wl s1 us wl' s' e _ ih =>
    intro pv g sheets cur dt ci rs bpos hsh
    obtain ⟨hlt, _⟩ := List.getElem?_eq_some_iff.mp hsh
    obtain ⟨pv', dt', ci', rs', sh1, e1, h⟩ := ih pv g (sheets.set cur s1) cur dt ci rs bpos (by simp [hlt])
    refine ⟨pv', dt', ci', rs', sh1, e1, .again (by simp [pass, hsh, e]; rfl) ?_⟩
    simpa using h
  | @unit s wl u s1 us wl' s' e _ ih =>
    intro pv g sheets cur dt ci rs bpos hsh
    obtain ⟨hlt, _⟩ := List.getElem?_eq_some_iff.mp hsh
    obtain ⟨pv', dt', ci', rs', h1⟩ := handle_steps (gnext := gnext) (snext := snext) u
      (s := ⟨.sheets, pv, g, sheets, cur, off, wl, dt, ci, rs, bpos⟩)
      (p := .sheets) (g := g) (sheets := sheets.set cur s1) (cur := cur) (offset := off) (wl := wl + u.data.length)
      (bpos := bpos) (pv := pv) (dt := dt) (ci := ci) (rs := rs) (by simp [pass, hsh, e])
    have hw : wl + u.data.length + (if Phase.sheets = Phase.sheets ∧ u.oversize = true then
        4 * (u.paySize / maxRec - 1) else 0) = wl + cost u := by
      simp [cost]; omega
    rw [hw] at h1
    obtain ⟨pv2, dt2, ci2, rs2, sh1, e2, h2⟩ := ih pv' g (sheets.set cur s1) cur dt' ci' rs' bpos (by simp [hlt])
    refine ⟨pv2, dt2, ci2, rs2, sh1, e2, ?_⟩
    have := h1.trans h2
    simpa using this

/-- The sheets from number `k` on, each told where the ones before it ended. -/
inductive SheetsTrace (snext : σ → Nat → Nat → Src σ) : Nat → List σ → List (List U) → List σ → List Nat → Prop
  | nil {off} : SheetsTrace snext off [] [] [] []
  | cons {off sh us wl sh' rest uss rest' offs} : STrace snext off sh 0 us wl sh' →
      SheetsTrace snext (off + wl) rest uss rest' offs →
      SheetsTrace snext off (sh :: rest) (us :: uss) (sh' :: rest') (off :: offs)

theorem sheets_steps {off : Nat} {rest rest' : List σ} {uss : List (List U)} {offs : List Nat}
    (h : SheetsTrace snext off rest uss rest' offs) : ∀ (pv : Phase) (g : γ) (done : List σ)
    (dt : Option U) (ci rs : Nat) (bpos : List (Nat × Nat)), rest ≠ [] → (done ++ rest).length < 65536 →
    ∃ pv' offset' wl' ci' rs',
    Steps gnext snext ⟨.sheets, pv, g, done ++ rest, done.length, off, 0, dt, ci, rs, bpos⟩
      (uss.flatten.flatMap pieces)
      ⟨.finish, pv', g, done ++ rest', (done ++ rest).length - 1, offset', wl', none, ci', rs',
        bpos ++ (offs.zipIdx done.length).map (fun p => (p.2, p.1))⟩ := by
  induction h with
  | nil => intro _ _ _ _ _ _ _ h; exact absurd rfl h
  | @cons off sh us wl sh' rest uss rest' offs ht hr ih =>
    intro pv g done dt ci rs bpos _ hlen
    obtain ⟨pv1, dt1, ci1, rs1, sh1, e1, h1⟩ := sheet_steps (gnext := gnext) ht pv g (done ++ sh :: rest) done.length
      dt ci rs bpos (by simp)
    have hset : ∀ x : σ, (done ++ sh :: rest).set done.length x = done ++ x :: rest := by
      intro x; simp
    rw [hset] at h1
    have hget : (done ++ sh1 :: rest)[done.length]? = some sh1 := by simp
    have hset1 : ∀ x : σ, (done ++ sh1 :: rest).set done.length x = done ++ x :: rest := by
      intro x; simp
    have hmod : (done ++ sh1 :: rest).length % 65536 = (done ++ sh1 :: rest).length :=
      Nat.mod_eq_of_lt (by simpa using hlen)
    cases rest with
    | nil =>
      cases hr
      refine ⟨.sheets, off, wl, ci1, rs1, ?_⟩
      have h2 : Steps gnext snext ⟨.sheets, pv1, g, done ++ [sh1], done.length, off, wl, dt1, ci1, rs1, bpos⟩ []
          ⟨.finish, .sheets, g, done ++ [sh'], done.length, off, wl, none, ci1, rs1, bpos ++ [(done.length, off)]⟩ := by
        refine .one_again ?_
        simp only [pass, hget, e1, hmod, hset1]
        rw [if_neg (by simp)]
      have := h1.trans h2
      simpa using this
    | cons sh2 rest2 =>
      have h2 : Steps gnext snext ⟨.sheets, pv1, g, done ++ sh1 :: sh2 :: rest2, done.length, off, wl, dt1, ci1, rs1, bpos⟩ []
          ⟨.sheets, pv1, g, done ++ sh' :: sh2 :: rest2, done.length + 1, off + wl, 0, none, ci1, rs1,
            bpos ++ [(done.length, off)]⟩ := by
        refine .one_again ?_
        simp only [pass, hget, e1, hmod, hset1]
        rw [if_pos (by simp)]
      obtain ⟨pv3, o3, w3, ci3, rs3, h3⟩ := ih pv1 g (done ++ [sh']) none ci1 rs1 (bpos ++ [(done.length, off)])
        (by simp) (by simpa using hlen)
      refine ⟨pv3, o3, w3, ci3, rs3, ?_⟩
      have e : done ++ sh' :: sh2 :: rest2 = done ++ [sh'] ++ sh2 :: rest2 := by simp
      have := h1.trans (h2.trans (by rw [e]; simpa using h3))
      simpa [List.zipIdx_cons] using this

/-- The start of a dump: `m_DumpState` is WB_INIT (workbook.cpp 66-85). -/
def start (g : γ) (sheets : List σ) (s : St γ σ) : Prop :=
  s.phase = .init ∧ s.g = g ∧ s.sheets = sheets ∧ s.bpos = []

/-- The whole dump. -/
theorem dump_run {g g' : γ} {gus : List U} {sheets sheets' : List σ} {uss : List (List U)} {offs : List Nat}
    {s : St γ σ} (hs : start g sheets s) (hg : GTrace gnext g gus g')
    (hsh : SheetsTrace snext (gus.map (·.data.length)).sum sheets uss sheets' offs)
    (h0 : sheets ≠ []) (hn : sheets.length < 65536) :
    ∃ s', (∃ n, ∀ fuel ≥ n, run gnext snext fuel s = .done ((gus ++ uss.flatten).flatMap pieces) s') ∧
      start g' sheets' { s' with bpos := [] } ∧ s'.bpos = offs.zipIdx.map (fun p => (p.2, p.1)) := by
  obtain ⟨phase, prev, sg, ssh, cur, offset, wl, dt, ci, rs, bpos⟩ := s
  obtain ⟨hp, rfl, rfl, hb⟩ := hs
  simp only at hp hb hg hsh h0 hn
  subst hp hb
  have h1 : Steps gnext snext ⟨.init, prev, sg, ssh, cur, offset, wl, dt, ci, rs, []⟩ []
      ⟨.globals, .init, sg, ssh, 0, 0, 0, dt, ci, rs, []⟩ := .one_again (by simp [pass])
  obtain ⟨ci2, rs2, h2⟩ := globals_steps (snext := snext) hg .init ssh 0 0 0 dt ci rs []
  rw [Nat.zero_add] at h2
  obtain ⟨pv3, o3, w3, ci3, rs3, h3⟩ := sheets_steps (gnext := gnext) hsh .globals g' [] none ci2 rs2 [] h0
    (by simpa using hn)
  have h := (h1.trans h2).trans (by simpa using h3)
  refine ⟨⟨.init, .finish, g', sheets', ssh.length - 1, o3, w3, none, ci3, rs3,
    offs.zipIdx.map (fun p => (p.2, p.1))⟩, ?_, ⟨rfl, rfl, rfl, rfl⟩, rfl⟩
  have := h.run (s2 := ⟨.init, .finish, g', sheets', ssh.length - 1, o3, w3, none, ci3, rs3,
    offs.zipIdx.map (fun p => (p.2, p.1))⟩) (by simp [pass])
  simpa using this

end Xls.Book
