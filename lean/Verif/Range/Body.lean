import Verif.Range.Sim
/-
The operations on a range, cell by cell and as a whole.
-/
namespace Xls.Range
open Xls.Cells (Key Cell Ordered)
open Xls.Styles (fv xv Looks cellOp cellFont XEnt on_pos seqRun)
open Xls.Styles.Spec (FontH Look plain upd onCall onFontCall)
open Xls.Font (FOp)
open Xls.Xf (Xf)
open Spec

variable {κ : Type}

/-! ### Loops -/

/-- The condition `P` holds before each pass. -/
def okLoop {σ : Type} (P : σ → Prop) (body : Nat → Nat → σ → Option σ) : List Key → σ → Prop
  | [], _ => True
  | k :: r, s => P s ∧ ∀ t, body k.1 k.2 s = some t → okLoop P body r t

theorem loop_rel {σ : Type} (P : σ → Prop) (body : Nat → Nat → σ → Option σ) (f : Key → Look → Look) (fonts : Nat → Option FontH)
    (I : List Key → σ → Spec.State κ → Prop)
    (hstep : ∀ k ks w G, k ∉ ks → G.fonts = fonts → I (k :: ks) w G → P w →
      ∃ w', body k.1 k.2 w = some w' ∧ I ks w' { G with grid := Spec.set G.grid k (here G.grid (f k) k) })
    (ks : List Key) (hnd : ks.Nodup) (w : σ) (G : Spec.State κ) (hG : G.fonts = fonts) (hI : I ks w G) (hP : okLoop P body ks w) :
    ∃ w', ks.foldlM (fun w k => body k.1 k.2 w) w = some w' ∧
      I [] w' { G with grid := fun k => if k ∈ ks then here G.grid (f k) k else G.grid k } := by
  induction ks generalizing w G with
  | nil => exact ⟨w, rfl, by simpa using hI⟩
  | cons k r ih =>
    rw [List.nodup_cons] at hnd
    obtain ⟨w1, h1, h2⟩ := hstep k r w G hnd.1 hG hI hP.1
    obtain ⟨w2, h3, h4⟩ := ih hnd.2 w1 { G with grid := Spec.set G.grid k (here G.grid (f k) k) } hG h2 (hP.2 w1 h1)
    refine ⟨w2, ?_, ?_⟩
    · rw [List.foldlM_cons, h1]
      exact h3
    · have : (fun i => if i ∈ r then here (Spec.set G.grid k (here G.grid (f k) k)) (f i) i else Spec.set G.grid k (here G.grid (f k) k) i) =
          fun i => if i ∈ k :: r then here G.grid (f i) i else G.grid i := by
        funext i
        by_cases hik : i = k
        · subst hik
          rw [if_neg hnd.1, if_pos (by simp), Spec.set, if_pos rfl]
        · by_cases hir : i ∈ r
          · rw [if_pos hir, if_pos (by simp [hir]), here, Spec.set, if_neg hik]
            rfl
          · rw [if_neg hir, if_neg (by simp [hik, hir]), Spec.set, if_neg hik]
      rw [← this]
      exact h4

/-! ### One call -/

/-- Valid arguments, and the font exists. -/
def CallOk (fonts : Nat → Option FontH) (o : Xf.Op) : Prop := Xf.Spec.Valid o ∧ ∀ p, o = .font (some p) → ∃ h, fonts p = some h

theorem here_eq (G : Spec.State κ) (f : Look → Look) (k : Key) : here G.grid f k = some ((orBlank G k).1, f (orBlank G k).2) := by
  unfold here orBlank
  cases G.grid k with
  | none => rfl
  | some c => rfl

theorem call_rel {s : State κ} {A G} (R : Rel s A G) (k : Key) (o : Xf.Op) (ho : CallOk G.fonts o) :
    ∃ t A', callBody o k.1 k.2 s = some t ∧ Rel t A' { G with grid := Spec.set G.grid k (here G.grid (onCall · o) k) } := by
  obtain ⟨t, x, A', h1, h2, h3, h4, h5, h6, -⟩ := R.findOrBlank k
  obtain ⟨st, c1, c2⟩ := Styles.sim_cell h2.good x.id o ⟨_, h6⟩ (by rw [Styles.CallOk, h2.fonts]; exact ho)
  rw [h6, Option.map_some] at c2
  have := h2.at h3 c2
  rw [h4, h5, set_set] at this
  refine ⟨_, _, ?_, by rw [here_eq]; exact this⟩
  rw [callBody, h1, Option.bind_some, c1]
  rfl

theorem fontOf_some {s : Styles.State} {A : Styles.Spec.State} {x : Xf} {l : Look} (h : Looks (fv s) A.fonts x l) :
    ∃ g, Styles.Spec.fontOf A l = some g := by
  have := h.font
  unfold Styles.Spec.fontOf
  cases hl : l.font with
  | own g => exact ⟨g, rfl⟩
  | shared p => rw [hl] at this; exact this.2.2

theorem blank_fonts {s t : State κ} (h : t.st = s.st ∨ t.st = Styles.newCell s.st none) : t.st.fonts = s.st.fonts := by
  rcases h with h | h <;> rw [h]
  rfl

theorem font_cell {st : Styles.State} {A : Styles.Spec.State} (G : Styles.Good st A) (fonts : Nat → Option FontH) (hf : A.fonts = fonts)
    (c : Nat) (o : FOp) (l : Look) (hl : A.cells c = some l) (ho : Font.Spec.Valid o) (hm : st.fonts.length < 65535) :
    ∃ t, cellFont st c o = some t ∧ Styles.Good t { A with cells := upd A.cells c (some (fontCall fonts o l)) } := by
  obtain ⟨t, h1, h2⟩ := Styles.sim_cellFont G c o ⟨l, hl⟩ ho hm
  refine ⟨t, h1, ?_⟩
  obtain ⟨q, e, -, -, -, h4⟩ := G.cell hl
  obtain ⟨g, hg⟩ := fontOf_some h4
  rw [hl, Option.bind_some, onFontCall, hg, Option.map_some] at h2
  have : fontCall fonts o l = ⟨l.calls ++ [.font (some 0)], .own ⟨g.base, g.calls ++ [o]⟩⟩ := by
    have hg' : Styles.Spec.fontOf ⟨fonts, fun _ => none, fun _ => none⟩ l = some g := by
      rw [← hg, ← hf]
      rfl
    rw [fontCall, onFontCall, hg']
    rfl
  rw [this]
  exact h2

theorem font_rel {s : State κ} {A G} (R : Rel s A G) (k : Key) (o : FOp) (ho : Font.Spec.Valid o) (hm : s.st.fonts.length < 65535) :
    ∃ t A', fontBody o k.1 k.2 s = some t ∧ Rel t A' { G with grid := Spec.set G.grid k (here G.grid (fontCall G.fonts o) k) } := by
  obtain ⟨t, x, A', h1, h2, h3, h4, h5, h6, h7, -⟩ := R.findOrBlank k
  obtain ⟨st, c1, c2⟩ := font_cell h2.good G.fonts h2.fonts x.id o _ h6 ho (by rw [blank_fonts h7]; exact hm)
  have := h2.at h3 c2
  rw [h4, h5, set_set] at this
  refine ⟨_, _, ?_, by rw [here_eq]; exact this⟩
  rw [fontBody, h1, Option.bind_some, c1]
  rfl

/-! ### Remembered formats -/

theorem upd_upd {α : Type} (f : Nat → Option α) (k : Nat) (a b : Option α) : upd (upd f k a) k b = upd f k b := by
  funext i
  unfold upd
  split <;> rfl

theorem calls_exact {st : Styles.State} {A : Styles.Spec.State} (G : Styles.Good st A) (c : Nat) (ops : List Xf.Op)
    (ho : ∀ o ∈ ops, CallOk A.fonts o) (l : Look) (hl : A.cells c = some l) (q : Nat) (x : Xf) (h1 : st.cells[c]? = some (some q))
    (h3 : (xv st)[q]? = some x) :
    ∃ t r y, calls st c ops = some t ∧ Styles.Good t { A with cells := upd A.cells c (some (ops.foldl onCall l)) } ∧
      t.cells = st.cells.set c (some r) ∧ xv st <+: xv t ∧ (xv t)[r]? = some y ∧ seqRun x ops = some y ∧ (r = 15 ∨ 21 ≤ r) := by
  have hcl : c < st.cells.length := (List.getElem?_eq_some_iff.mp h1).1
  obtain ⟨hq, x', l', h5, h6, h7⟩ := G.rel.live c q h1
  rw [hl] at h6
  cases Option.some.inj h6
  rw [h3] at h5
  cases Option.some.inj h5
  clear h5 h6
  induction ops generalizing st A l q x with
  | nil =>
    refine ⟨st, q, x, rfl, ?_, ?_, List.prefix_refl _, h3, rfl, hq⟩
    · have : upd A.cells c (some l) = A.cells := by
        funext i
        unfold upd
        split
        · subst_vars; exact hl.symm
        · rfl
      rw [List.foldl_nil, this]
      exact ⟨G.1, G.2⟩
    · have := List.getElem?_eq_some_iff.mp h1
      rw [← this.2, List.set_getElem_self]
  | cons o r ih =>
    obtain ⟨e, he, rfl⟩ := Styles.xv_get h3
    obtain ⟨t, p, y, c1, c2, c3, c4, c5, c6, c7, c8⟩ := Styles.cell_exact G c o l hl (ho o (by simp)) q e h1 he h7
    rw [hl, Option.map_some] at c2
    have hpc : t.cells[c]? = some (some p) := by rw [c3, List.getElem?_set_self hcl]
    obtain ⟨hp', y', l', h5', h6', h7'⟩ := c2.rel.live c p hpc
    rw [c5] at h5'
    cases Option.some.inj h5'
    have hl2 : (upd A.cells c (some (onCall l o))) c = some (onCall l o) := by simp [upd]
    have e6 : upd A.cells c (some (onCall l o)) c = some l' := h6'
    rw [hl2] at e6
    cases Option.some.inj e6
    obtain ⟨u, r', z, d1, d2, d3, d4, d5, d6, d7⟩ := ih c2 (fun o h => ho o (by simp [h])) (onCall l o) hl2 p y hpc c5
      (by rw [c3, List.length_set]; exact hcl) hp' h7'
    refine ⟨u, r', z, ?_, ?_, ?_, c4.trans d4, d5, ?_, d7⟩
    · rw [calls, List.foldlM_cons, c1]
      exact d1
    · have d2 : Styles.Good u { A with cells := upd (upd A.cells c (some (onCall l o))) c (some (r.foldl onCall (onCall l o))) } := d2
      rw [upd_upd] at d2
      exact d2
    · rw [d3, c3, List.set_set]
    · rw [seqRun, c6, Option.bind_some, d6]

/-- Every remembered pair: a format, and what the calls make of it, which some cell that is done with uses. -/
def CacheOk (tag : Nat → Nat → Xf → Nat) (ops : Nat → Nat → List Xf.Op) (rem : List Key) (s : State κ) (cache : Cache) : Prop :=
  ∀ i tg p, ((i, tg), p) ∈ cache → ∃ x y, (xv s.st)[i]? = some x ∧ (xv s.st)[p]? = some y ∧ (p = 15 ∨ 21 ≤ p) ∧
    (∃ k : Key, tg = tag k.1 k.2 x ∧ seqRun x (ops k.1 k.2) = some y) ∧
    ∃ z ∈ s.sheet.cells, z.key ∉ rem ∧ s.st.cells[z.id]? = some (some p)

/-- Room for the fonts and formats. -/
def Room (s : Styles.State) : Prop := s.fonts.length < 65535 ∧ s.xfs.length ≤ 65536

theorem lookup_mem {c : Cache} {k : Nat × Nat} {p : Nat} (h : c.lookup k = some p) : (k, p) ∈ c := by
  induction c with
  | nil => simp at h
  | cons a r ih =>
    obtain ⟨a, b⟩ := a
    rw [List.lookup_cons] at h
    split at h
    · rename_i e
      cases h
      simp [eq_of_beq e]
    · exact List.mem_cons_of_mem _ (ih h)

theorem blank_xv {s t : State κ} (h : t.st = s.st ∨ t.st = Styles.newCell s.st none) : xv t.st = xv s.st := by
  rcases h with h | h <;> rw [h]
  exact Styles.map_modify_same Styles.XEnt.xf _ (by intro a; rfl) _ _

theorem blank_cells {s t : State κ} (h : t.st = s.st ∨ t.st = Styles.newCell s.st none) : s.st.cells <+: t.st.cells := by
  rcases h with h | h <;> rw [h]
  · exact List.prefix_refl _
  · exact List.prefix_append _ _

theorem memo_rel (tag : Nat → Nat → Xf → Nat) (ops : Nat → Nat → List Xf.Op)
    (htag : ∀ (k k' : Key) x, tag k.1 k.2 x = tag k'.1 k'.2 x → ops k.1 k.2 = ops k'.1 k'.2)
    {s : State κ} {A G} (R : Rel s A G) (ho : ∀ (k : Key), ∀ o ∈ ops k.1 k.2, CallOk G.fonts o) (k : Key) (rem : List Key) (hk : k ∉ rem)
    (cache : Cache) (hc : CacheOk tag ops (k :: rem) s cache) (hroom : Room s.st) :
    ∃ t A' cache', memoBody tag ops k.1 k.2 (s, cache) = some (t, cache') ∧
      Rel t A' { G with grid := Spec.set G.grid k (here G.grid (fun l => (ops k.1 k.2).foldl onCall l) k) } ∧
      CacheOk tag ops rem t cache' := by
  obtain ⟨t, x, A', h1, h2, h3, h4, h5, h6, h7, h8⟩ := R.findOrBlank k
  obtain ⟨q, e, g1, g2, g3, g4⟩ := h2.good.cell h6
  have hxl : x.id < t.st.cells.length := (List.getElem?_eq_some_iff.mp g1).1
  have hlen : t.st.xfs.length = s.st.xfs.length := by rw [← Styles.xv_len, blank_xv h7, Styles.xv_len]
  have hq : q < t.st.xfs.length := (List.getElem?_eq_some_iff.mp g3).1
  have hidx : e.index = q := by
    rw [h2.good.inv.index q e g3, Nat.mod_eq_of_lt]
    have := hroom.2
    omega
  have old : ∀ z ∈ s.sheet.cells, z.key ∉ k :: rem → ∀ p, s.st.cells[z.id]? = some (some p) →
      z ∈ t.sheet.cells ∧ z.key ∉ rem ∧ t.st.cells[z.id]? = some (some p) ∧ z.id ≠ x.id := by
    intro z hz hzk p hp
    simp only [List.mem_cons, not_or] at hzk
    refine ⟨h8 z hz, hzk.2, Styles.getElem?_prefix (blank_cells h7) hp, ?_⟩
    intro e
    have := h2.ids z (h8 z hz) x h3 e
    subst this
    exact hzk.1 h4
  cases hlk : cache.lookup (e.index, tag k.1 k.2 e.xf) with
  | some p =>
    obtain ⟨x0, y, c1, c2, c3, ⟨k0, c4, c5⟩, z, z1, z2, z3⟩ := hc _ _ _ (lookup_mem hlk)
    obtain ⟨o1, o2, o3, o4⟩ := old z z1 z2 p z3
    rw [← blank_xv h7] at c1 c2
    rw [hidx, Styles.get_xv g3] at c1
    cases Option.some.inj c1
    obtain ⟨ep, p1, rfl⟩ := Styles.xv_get c2
    rw [← htag k k0 _ c4] at c5
    have hdead : Styles.dead ep = false := by
      have u1 := (h2.good.inv.use p ep p1).1
      have u2 := on_pos o3
      have : ep.usage ≠ 0 := by omega
      simp [Styles.dead, this]
    have look := Looks.seqRun g4 (ops k.1 k.2) (by unfold Styles.CallOk; rw [h2.fonts]; exact ho k) c5
    obtain ⟨u, a1, a2, a3, a4, a5⟩ := Styles.sim_adopt h2.good x.id p ⟨_, h6⟩ ep p1 c3 hdead _ look
    have fin := h2.at h3 a2
    rw [h4, h5, set_set] at fin
    refine ⟨_, _, cache, ?_, by rw [here_eq]; exact fin, ?_⟩
    · simp only [memoBody, h1, Option.bind_some, g1, Option.join_some, g3, hlk, a1, Option.map_some]
    · intro i tg p' hm
      obtain ⟨x0, y, c1, c2, c3, c4, z, z1, z2, z3⟩ := hc _ _ _ hm
      obtain ⟨o1, o2, o3, o4⟩ := old z z1 z2 p' z3
      refine ⟨x0, y, ?_, ?_, c3, c4, z, o1, o2, ?_⟩
      · show (xv u)[i]? = _
        rw [a4, blank_xv h7, c1]
      · show (xv u)[p']? = _
        rw [a4, blank_xv h7, c2]
      · show u.cells[z.id]? = _
        rw [a3, List.getElem?_set_ne (Ne.symm o4), o3]
  | none =>
    obtain ⟨u, r, y, a1, a2, a3, a4, a5, a6, a7⟩ := calls_exact h2.good x.id (ops k.1 k.2) (by rw [h2.fonts]; exact ho k) _ h6 q e.xf g1
      (Styles.get_xv g3)
    have fin := h2.at h3 a2
    rw [h4, h5, set_set] at fin
    have hur : u.cells[x.id]? = some (some r) := by rw [a3, List.getElem?_set_self hxl]
    refine ⟨_, _, cache ++ [((e.index, tag k.1 k.2 e.xf), r)], ?_, by rw [here_eq]; exact fin, ?_⟩
    · simp only [memoBody, h1, Option.bind_some, g1, Option.join_some, g3, hlk, a1, hur, Option.map_some]
    · intro i tg p' hm
      rw [List.mem_append, List.mem_singleton] at hm
      rcases hm with hm | hm
      · obtain ⟨x0, y, c1, c2, c3, c4, z, z1, z2, z3⟩ := hc _ _ _ hm
        obtain ⟨o1, o2, o3, o4⟩ := old z z1 z2 p' z3
        rw [← blank_xv h7] at c1 c2
        refine ⟨x0, y, Styles.getElem?_prefix a4 c1, Styles.getElem?_prefix a4 c2, c3, c4, z, o1, o2, ?_⟩
        show u.cells[z.id]? = _
        rw [a3, List.getElem?_set_ne (Ne.symm o4), o3]
      · simp only [Prod.mk.injEq] at hm
        obtain ⟨⟨rfl, rfl⟩, rfl⟩ := hm
        refine ⟨e.xf, y, ?_, a5, a7, ⟨k, rfl, a6⟩, x, h3, by rw [h4]; exact hk, hur⟩
        show (xv u)[e.index]? = _
        rw [hidx]
        exact Styles.getElem?_prefix a4 (Styles.get_xv g3)

end Xls.Range
