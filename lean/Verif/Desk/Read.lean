import Verif.Desk.Lemmas
import Verif.Desk.Keep
import Verif.Palette.Props
import Verif.Page.Plain
/-
What a reader finds of the workbook as a whole, in terms of the data that is saved.
-/
namespace Xls.Desk
open Xls.Biff Xls.Book Xls.Cells Xls.Save
open Xls.Sheet (snoc_induction)
open Xls.Whole (shows_det showsL_split)
open Xls.Look (ofType ofType_append ofType_nil none_of)

/-! ### The globals -/

theorem ofType_pairs {bpos : List (Nat × Nat)} {y : Nat} {l : List (Nat × Bytes)} (hl : ∀ q ∈ l, q.1 < 65536 ∧ q.2.length ≤ 8224) {rs : List Rec}
    (h : ShowsL (posOf bpos) (l.map fun q => Globals.unit q.1 q.2) rs) : ofType y rs = (l.filter (·.1 == y)).map (·.2) := by
  induction l generalizing rs with
  | nil => cases h; rfl
  | cons p r ih =>
    rw [List.map_cons] at h
    cases h with
    | cons a b =>
      obtain ⟨h1, h2⟩ := hl p (by simp)
      rw [ofType_append, ih (fun p hp => hl p (by simp [hp])) b, shows_det a (.one rfl h1 rfl rfl), splitRec, if_pos (by simpa [maxRec] using h2),
        List.filter_cons]
      by_cases e : p.1 = y
      · rw [if_pos (by simp [e])]; simp [ofType, e]
      · rw [if_neg (by simp [e])]; simp [ofType, e]

/-- The records of the globals but the sheet table, the drawing group and the texts. -/
def head (D : Globals.Data) : List (Nat × Bytes) :=
  [(0x809, Sheet.bofPayload 5), (0x42, leN 2 1200), (0x3D, D.window.payload), (0x22, leN 2 0)] ++
    (D.defFonts.map ((0x31, ·)) ++ (D.fonts.map ((0x31, ·)) ++ (D.formats.map ((0x41E, ·)) ++ (D.defXfs.map ((0xE0, ·)) ++
      (D.xfs.map ((0xE0, ·)) ++ (D.styles.map ((0x293, ·)) ++ [(0x92, D.palette)]))))))

def links (D : Globals.Data) : List (Nat × Bytes) :=
  [(0x1AE, Globals.supbookPayload D.bounds.length), (0x17, Globals.externPayload D.bounds.length)]

theorem head_units (D : Globals.Data) : Globals.headUnits D = (head D).map fun q => Globals.unit q.1 q.2 := by
  simp [head, Globals.headUnits, Function.comp_def]

theorem extern_length (n : Nat) : ∀ i, (Globals.externFrom i n).length = 6 * n := by
  induction n with
  | zero => intro i; rfl
  | succ n ih => intro i; simp only [Globals.externFrom, List.length_append, leN_length, ih]; omega

theorem head_small {D : Globals.Data} (hsm : SmallGlobals D) : ∀ q ∈ head D ++ links D, q.1 < 65536 ∧ q.2.length ≤ 8224 := by
  have hrec := hsm.records
  intro q hq
  simp only [head, links, List.mem_append, List.mem_cons, List.not_mem_nil, or_false, List.mem_map] at hq
  have hb : D.bounds.length ≤ 1000 := hsm.sheets
  rcases hq with ((rfl | rfl | rfl | rfl) | h) | (rfl | rfl)
  · exact ⟨by decide, by decide⟩
  · exact ⟨by decide, by decide⟩
  · exact ⟨by simp, by simp [Globals.Window1.payload]⟩
  · exact ⟨by decide, by decide⟩
  · rcases h with ⟨p, hp, rfl⟩ | ⟨p, hp, rfl⟩ | ⟨p, hp, rfl⟩ | ⟨p, hp, rfl⟩ | ⟨p, hp, rfl⟩ | ⟨p, hp, rfl⟩ | rfl <;>
      exact ⟨by simp, hrec _ (by simp [*])⟩
  · exact ⟨by simp, by simp [Globals.supbookPayload]⟩
  · exact ⟨by simp, by simp [Globals.externPayload, extern_length]; omega⟩

/-- The records of a type other than the sheet table's and the texts'. -/
theorem ofType_globals {bpos : List (Nat × Nat)} {D : Globals.Data} (hsm : SmallGlobals D) {g t : List U} (hg : Globals.groupUnits D = some g)
    (ht : Globals.sstUnits D = some t) {G : List Rec} (hG : ShowsL (posOf bpos) (Globals.units D g t) G) :
    ∃ E, ShowsL (posOf bpos) g E ∧ ∀ y, y ≠ 0x85 → y ≠ 0xFC → y ≠ 0x3C → y ≠ 0x0A →
      ofType y G = ((head D ++ links D).filter (·.1 == y)).map (·.2) ++ ofType y E := by
  unfold Globals.units at hG
  obtain ⟨H, X1, rfl, hH, hX1⟩ := showsL_split hG
  obtain ⟨B, X2, rfl, hB, hX2⟩ := showsL_split hX1
  obtain ⟨C, X3, rfl, hC, hX3⟩ := showsL_split hX2
  obtain ⟨E, X4, rfl, hE, hX4⟩ := showsL_split hX3
  obtain ⟨F, Z, rfl, hF, hZ⟩ := showsL_split hX4
  refine ⟨E, hE, fun y h1 h2 h3 h4 => ?_⟩
  have hs := head_small hsm
  rw [head_units] at hH
  have eH := ofType_pairs (y := y) (fun q hq => hs q (by simp [hq])) hH
  have eC := ofType_pairs (y := y) (l := links D) (fun q hq => hs q (by simp [hq])) hC
  have eZ := ofType_pairs (y := y) (l := [(0x0A, [])]) (by simp) hZ
  have eB : ofType y B = [] := by
    refine none_of hB ?_
    intro u hu ss hss
    obtain ⟨b, _, rfl⟩ := List.mem_map.mp hu
    cases hss with
    | one _ _ _ h => cases h
    | many _ _ _ h => cases h
    | bound => intro r hr; rcases (splitRec_fits _ _ (by decide) r hr).1 with e | e <;> omega
  have eF : ofType y F = [] := by
    unfold Globals.sstUnits at ht
    by_cases hl : D.labels = []
    · rw [if_pos (by simp [hl])] at ht
      obtain rfl := Option.some.inj ht
      cases hF
      rfl
    · rw [if_neg (by simp [hl])] at ht
      obtain ⟨bs, rs, h1, h2, h3, h4⟩ := Sst.c05_sst_reads_back D.labels
      rw [h1] at ht
      obtain rfl := Option.some.inj ht
      obtain ⟨e, hf⟩ := records_some h2
      cases hF with
      | cons h5 h6 =>
        cases h6
        rw [List.append_nil, shows_det h5 (.many e (fun r hr => ⟨(hf r hr).1, h3 r hr⟩) (.inl rfl) rfl)]
        refine ofType_nil ?_
        cases rs with
        | nil => simp
        | cons r rest =>
          obtain ⟨a, p⟩ := r
          have hc : a = 0xFC ∧ rest.all (fun r => r.1 == 0x3C) := by
            simp only [Sst.readSST] at h4
            split at h4
            · assumption
            · simp at h4
          intro r hr
          rcases List.mem_cons.mp hr with rfl | hr
          · rw [hc.1]; omega
          · have := List.all_eq_true.mp hc.2 r hr
            simp only [beq_iff_eq] at this
            omega
  rw [List.filter_cons, if_neg (by simp; omega)] at eZ
  simp only [ofType_append, eH, eC, eZ, eB, eF, List.filter_append, List.map_append, List.filter_nil, List.map_nil, List.nil_append, List.append_nil,
    List.append_assoc]

/-- What a reader finds of the workbook as a whole. -/
theorem desk_of_globals {bpos : List (Nat × Nat)} {D : Globals.Data} (hsm : SmallGlobals D) {g t : List U} (hg : Globals.groupUnits D = some g)
    (ht : Globals.sstUnits D = some t) {G : List Rec} (hG : ShowsL (posOf bpos) (Globals.units D g t) G) (hn : ∀ b ∈ D.bounds, b.notes < 65536) :
    single 0x42 G = some (leN 2 1200) ∧ single 0x3D G = some D.window.payload ∧ single 0x22 G = some (leN 2 0) ∧ single 0x92 G = some D.palette ∧
    ofType 0x293 G = D.styles ∧ ∃ go, groupOf G = some go ∧ GroupSaid (D.bounds.map (·.notes)) go := by
  obtain ⟨E, hE, key⟩ := ofType_globals hsm hg ht hG
  have hb : D.bounds.length ≤ 1000 := hsm.sheets
  have hfl : ((D.bounds.map (·.notes)).filter (· ≠ 0)).length ≤ 1000 := Nat.le_trans (List.length_filter_le ..) (by simpa using hb)
  have hcounts : ∀ c ∈ D.bounds.map (·.notes), c < 65536 := by
    intro c hc
    obtain ⟨b, hb, rfl⟩ := List.mem_map.mp hc
    exact hn b hb
  have hgr : (E = [] ∧ (D.bounds.map (·.notes)).filter (· ≠ 0) = []) ∨ ∃ p gr, E = [(0xEB, p)] ∧ Note.makeDrawingGroup (D.bounds.map (·.notes)) = some (some (enc (0xEB, p))) ∧
      p.length < 65536 ∧ Spec.readGroup p = some gr ∧ Note.Describes (D.bounds.map (·.notes)) gr ∧ (D.bounds.map (·.notes)).filter (· ≠ 0) ≠ [] := by
    unfold Globals.groupUnits at hg
    rcases Note.c36_group _ hcounts (by omega) with ⟨h1, h2⟩ | ⟨p, gr, h1, h2, h3, h4⟩
    · rw [h2] at hg
      obtain rfl := Option.some.inj hg
      cases hE
      exact .inl ⟨rfl, h1⟩
    · have hne : (D.bounds.map (·.notes)).filter (· ≠ 0) ≠ [] := by
        intro e
        have : (D.bounds.map (·.notes)).sum = 0 := by rw [← Note.filter_sum, e]; rfl
        unfold Note.makeDrawingGroup at h1
        rw [this] at h1
        simp at h1
      rw [h1] at hg
      obtain rfl := Option.some.inj hg
      refine .inr ⟨p, gr, ?_, h1, by omega, h3, h4, hne⟩
      cases hE with
      | cons a b =>
        cases b
        rw [List.append_nil, shows_det a (.one (t := 0xEB) (p := p) rfl (by decide) rfl rfl), splitRec, if_pos (by simp only [maxRec]; omega)]
  have hEy : ∀ y, y ≠ 0xEB → ofType y E = [] := by
    intro y hy
    rcases hgr with ⟨rfl, -⟩ | ⟨p, gr, rfl, -⟩
    · rfl
    · simp [ofType, Ne.symm hy]
  have hmap : ∀ (x y : Nat) (l : List Bytes), x ≠ y → (l.map ((x, ·))).filter (·.1 == y) = [] := by
    intro x y l h
    rw [List.filter_eq_nil_iff]
    intro q hq
    obtain ⟨p, -, rfl⟩ := List.mem_map.mp hq
    simpa using h
  have hself : ∀ (x : Nat) (l : List Bytes), ((l.map ((x, ·))).filter (·.1 == x)).map (·.2) = l := by
    intro x l
    rw [List.filter_eq_self.mpr (by intro q hq; obtain ⟨p, -, rfl⟩ := List.mem_map.mp hq; simp)]
    simp [Function.comp_def]
  refine ⟨?_, ?_, ?_, ?_, ?_, ?_⟩
  · unfold single
    rw [key _ (by decide) (by decide) (by decide) (by decide), hEy _ (by decide)]
    simp [head, links, List.filter_append, hmap]
  · unfold single
    rw [key _ (by decide) (by decide) (by decide) (by decide), hEy _ (by decide)]
    simp [head, links, List.filter_append, hmap]
  · unfold single
    rw [key _ (by decide) (by decide) (by decide) (by decide), hEy _ (by decide)]
    simp [head, links, List.filter_append, hmap]
  · unfold single
    rw [key _ (by decide) (by decide) (by decide) (by decide), hEy _ (by decide)]
    simp [head, links, List.filter_append, hmap]
  · rw [key _ (by decide) (by decide) (by decide) (by decide), hEy _ (by decide)]
    simp [head, links, List.filter_append, hmap, hself]
  · have e : ofType 0xEB G = ofType 0xEB E := by
      rw [key _ (by decide) (by decide) (by decide) (by decide)]
      simp [head, links, List.filter_append, hmap]
    rcases hgr with ⟨rfl, h0⟩ | ⟨p, gr, rfl, h1, h2, h3, h4, hne⟩
    · refine ⟨none, by unfold groupOf; rw [e]; rfl, ?_⟩
      intro c hc
      have := List.filter_eq_nil_iff.mp h0 c hc
      simpa using this
    · refine ⟨some gr, by unfold groupOf; rw [e]; simp [ofType, h3], ?_, h4, ?_⟩
      · obtain ⟨c, hc⟩ := List.exists_mem_of_ne_nil _ hne
        obtain ⟨a, b⟩ := List.mem_filter.mp hc
        exact ⟨c, a, by simpa using b⟩
      · intro h9
        obtain ⟨g', k1, k2, k3⟩ := Note.c36_largest_id _ h9 (by rw [List.length_map]; omega) (by omega) p h1 h2
        rw [h3] at k1
        obtain rfl := Option.some.inj k1
        exact ⟨k2, k3⟩

/-! ### The window -/

theorem window_read (w : Globals.Window1) (h1 : w.active < 65536) (h2 : w.first < 65536) (h3 : w.tabBar < 65536) :
    readWindow1 w.payload = some ⟨signed (w.horz * 20 % 65536), signed (w.vert * 20 % 65536), signed (w.width * 20 % 65536), signed (w.height * 20 % 65536),
      false, false, true, true, true, w.active, w.first, 1, w.tabBar⟩ := by
  have e : w.payload = leN 2 (w.horz * 20 % 65536) ++ (leN 2 (w.vert * 20 % 65536) ++ (leN 2 (w.width * 20 % 65536) ++ (leN 2 (w.height * 20 % 65536) ++
    (leN 2 0x38 ++ (leN 2 w.active ++ (leN 2 w.first ++ (leN 2 1 ++ (leN 2 w.tabBar ++ [])))))))) := by
    simp [Globals.Window1.payload]
  unfold readWindow1
  rw [e]
  simp only [takeLE_leN_append, Option.bind_some, if_true]
  rw [Nat.mod_eq_of_lt (show w.active < 256 ^ 2 by omega), Nat.mod_eq_of_lt (show w.first < 256 ^ 2 by omega),
    Nat.mod_eq_of_lt (show w.tabBar < 256 ^ 2 by omega), Nat.mod_eq_of_lt (show w.horz * 20 % 65536 < 256 ^ 2 by omega),
    Nat.mod_eq_of_lt (show w.vert * 20 % 65536 < 256 ^ 2 by omega), Nat.mod_eq_of_lt (show w.width * 20 % 65536 < 256 ^ 2 by omega),
    Nat.mod_eq_of_lt (show w.height * 20 % 65536 < 256 ^ 2 by omega)]
  rfl

theorem signed_twips (x : Nat) (hx : x < 65536) : signed (x * 20 % 65536) = 20 * (x : Int) ↔ x ≤ 1638 := by
  unfold signed
  split <;> omega

/-! ### The built-in styles -/

theorem mapM_get {β γ : Type} {f : β → Option γ} {l : List β} {r : List γ} (h : l.mapM f = some r) (i : Nat) : r[i]? = (l[i]?).bind f := by
  induction l generalizing r i with
  | nil => cases h; simp
  | cons a l ih =>
    rw [List.mapM_cons] at h
    cases ha : f a with
    | none => rw [ha] at h; cases h
    | some b =>
      rw [ha] at h
      obtain ⟨r', h1, h2⟩ := Option.bind_eq_some_iff.mp (show (l.mapM f).bind _ = some r from h)
      cases h2
      cases i with
      | zero => simp [ha]
      | succ i => simpa using ih h1 i

theorem styles_read : (builtins.map stylePayload).mapM readStyle = some (builtins.map fun b => (b.1, b.2, 0xFF)) := by decide

/-- What a built-in style of type `t` takes from its format: the normal style everything, the others the number format only (in a style
    format, a bit that is 0 says that the style has this attribute, [MS-XLS] 2.5.249). -/
def StyleXf (t : Nat) (y : Xf.Seen) : Prop :=
  y.isStyle = true ∧ y.parent = 0xFFF ∧ formatOf t = some y.format ∧ y.usesFormat = false ∧
    ∀ u ∈ [y.usesFont, y.usesAlign, y.usesBorder, y.usesPattern, y.usesProtect], u = (t != 0)

instance (t : Nat) (y : Xf.Seen) : Decidable (StyleXf t y) := by unfold StyleXf; infer_instance

/-- The format of cells without a format: a cell format that has everything from the normal style. -/
def CellXf (y : Xf.Seen) : Prop :=
  y.isStyle = false ∧ y.parent = 0 ∧ y.font = 0 ∧ y.format = 0 ∧
    ∀ u ∈ [y.usesFormat, y.usesFont, y.usesAlign, y.usesBorder, y.usesPattern, y.usesProtect], u = false

instance (y : Xf.Seen) : Decidable (CellXf y) := by unfold CellXf; infer_instance

/-- A built-in format that satisfies a decidable claim at the start satisfies it in the file. -/
theorem stock_xf {p0 : Prog.State} {s : Styles.State} (hs : Same p0.look.styles s) {X : List Bytes} (hX : Styles.xfRecords s = some X)
    {q : Nat} (hq : q < 21) {P : Xf.Seen → Prop} [DecidablePred P]
    (hk : ((((p0.look.styles.xfs[q]?).map (·.xf)).bind fun x => (Xf.record x).map (·.drop 4)).bind Xf.readXf).any (fun y => decide (P y)) = true) :
    ∃ p y, X[q]? = some p ∧ Xf.readXf p = some y ∧ P y := by
  rw [← hs q hq] at hk
  have e : X[q]? = ((s.xfs[q]?).map (·.xf)).bind fun x => (Xf.record x).map (·.drop 4) := by
    rw [mapM_get hX q]
    cases s.xfs[q]? <;> rfl
  rw [← e] at hk
  cases hp : X[q]? with
  | none => rw [hp] at hk; simp at hk
  | some p =>
    rw [hp, Option.bind_some] at hk
    cases hy : Xf.readXf p with
    | none => rw [hy] at hk; simp at hk
    | some y =>
      rw [hy] at hk
      simp only [Option.any_some, decide_eq_true_eq] at hk
      exact ⟨p, y, rfl, hy, hk⟩

/-- The formats that the built-in styles stand for. -/
theorem builtin_xfs {p0 : Prog.State} (h0 : Prog.init = some p0) {s : Styles.State} (hs : Same p0.look.styles s) {X : List Bytes} (hX : Styles.xfRecords s = some X) :
    ∀ b ∈ builtins, ∃ p y, X[b.1]? = some p ∧ Xf.readXf p = some y ∧ StyleXf b.2 y := by
  have key : (Prog.init.map fun s => builtins.all fun b => decide (b.1 < 21) &&
      ((((s.look.styles.xfs[b.1]?).map (·.xf)).bind fun x => (Xf.record x).map (·.drop 4)).bind Xf.readXf).any fun y =>
        decide (StyleXf b.2 y)) = some true := by decide +kernel
  rw [h0] at key
  simp only [Option.map_some, Option.some.injEq, List.all_eq_true, Bool.and_eq_true, decide_eq_true_eq] at key
  intro b hb
  obtain ⟨hlt, hk⟩ := key b hb
  exact stock_xf hs hX hlt hk

/-- The format of cells without a format. -/
theorem plain_xf {p0 : Prog.State} (h0 : Prog.init = some p0) {s : Styles.State} (hs : Same p0.look.styles s) {X : List Bytes} (hX : Styles.xfRecords s = some X) :
    ∃ p y, X[15]? = some p ∧ Xf.readXf p = some y ∧ CellXf y := by
  have key : (Prog.init.map fun s =>
      ((((s.look.styles.xfs[15]?).map (·.xf)).bind fun x => (Xf.record x).map (·.drop 4)).bind Xf.readXf).any fun y =>
        decide (CellXf y)) = some true := by decide +kernel
  rw [h0] at key
  simp only [Option.map_some, Option.some.injEq] at key
  exact stock_xf hs hX (by decide) key

/-! ### The used range -/

/-- What the used range is after some cells and comments. -/
structure Tight (ps : List (Nat × Nat)) (u : Sheet Unit) : Prop where
  bounds : ∀ p ∈ ps, u.minRow ≤ p.1 ∧ p.1 ≤ u.maxRow ∧ u.minCol ≤ p.2 ∧ p.2 ≤ u.maxCol
  minRow : u.minRow = 2 ^ 32 - 1 ∨ ∃ p ∈ ps, p.1 = u.minRow
  minCol : u.minCol = 2 ^ 32 - 1 ∨ ∃ p ∈ ps, p.2 = u.minCol
  maxRow : u.maxRow = 0 ∨ ∃ p ∈ ps, p.1 = u.maxRow
  maxCol : u.maxCol = 0 ∨ ∃ p ∈ ps, p.2 = u.maxCol

theorem tight_of (ps : List (Nat × Nat)) : Tight ps (ps.foldl (fun u p => u.extend p.1 p.2) {}) := by
  induction ps using snoc_induction with
  | h0 => exact ⟨by simp, .inl rfl, .inl rfl, .inl rfl, .inl rfl⟩
  | h1 l a ih =>
    rw [List.foldl_append]
    simp only [List.foldl_cons, List.foldl_nil]
    generalize l.foldl (fun u p => u.extend p.1 p.2) ({} : Sheet Unit) = u at ih ⊢
    have lift : ∀ {P : Nat × Nat → Prop}, (∃ p ∈ l, P p) → ∃ p ∈ l ++ [a], P p := fun ⟨p, hp, h⟩ => ⟨p, by simp [hp], h⟩
    have ha : a ∈ l ++ [a] := by simp
    simp only [Sheet.extend]
    refine ⟨fun p hp => ?_, ?_, ?_, ?_, ?_⟩
    · rcases List.mem_append.mp hp with hp | hp
      · have := ih.bounds p hp
        refine ⟨?_, ?_, ?_, ?_⟩ <;> simp only <;> split <;> omega
      · rw [List.mem_singleton.mp hp]
        refine ⟨?_, ?_, ?_, ?_⟩ <;> simp only <;> split <;> omega
    · simp only; split
      · exact .inr ⟨a, ha, rfl⟩
      · exact ih.minRow.imp id lift
    · simp only; split
      · exact .inr ⟨a, ha, rfl⟩
      · exact ih.minCol.imp id lift
    · simp only; split
      · exact .inr ⟨a, ha, rfl⟩
      · exact ih.maxRow.imp id lift
    · simp only; split
      · exact .inr ⟨a, ha, rfl⟩
      · exact ih.maxCol.imp id lift

theorem used_read {ps : List (Nat × Nat)} (hne : ps ≠ []) (hlim : ∀ p ∈ ps, p.1 < 65536 ∧ p.2 < 65535) :
    ∃ d, readDimension (ps.foldl (fun u p => u.extend p.1 p.2) ({} : Sheet Unit)).dimension = some d ∧ Bounds ps d := by
  have g := tight_of ps
  generalize ps.foldl (fun u p => u.extend p.1 p.2) ({} : Sheet Unit) = u at g ⊢
  obtain ⟨q, hq⟩ := List.exists_mem_of_ne_nil _ hne
  have hb := g.bounds q hq
  have hl := hlim q hq
  have h1 : ∃ p ∈ ps, p.1 = u.minRow := g.minRow.resolve_left (by omega)
  have h2 : ∃ p ∈ ps, p.2 = u.minCol := g.minCol.resolve_left (by omega)
  have h3 : ∃ p ∈ ps, p.1 = u.maxRow := g.maxRow.elim (fun h => ⟨q, hq, by omega⟩) id
  have h4 : ∃ p ∈ ps, p.2 = u.maxCol := g.maxCol.elim (fun h => ⟨q, hq, by omega⟩) id
  have b1 : u.minRow < 65536 := by obtain ⟨p, hp, h⟩ := h1; have := hlim p hp; omega
  have b2 : u.minCol < 65535 := by obtain ⟨p, hp, h⟩ := h2; have := hlim p hp; omega
  have b3 : u.maxRow < 65536 := by obtain ⟨p, hp, h⟩ := h3; have := hlim p hp; omega
  have b4 : u.maxCol < 65535 := by obtain ⟨p, hp, h⟩ := h4; have := hlim p hp; omega
  refine ⟨(u.minRow, u.maxRow + 1, u.minCol, u.maxCol + 1), ?_, fun p hp => ?_, h1, ?_, h2, ?_⟩
  · rw [readDimension_eq, Nat.mod_eq_of_lt (by omega), Nat.mod_eq_of_lt (by omega), Nat.mod_eq_of_lt (by omega),
      Nat.mod_eq_of_lt (a := u.maxCol + 1) (by omega), Nat.mod_eq_of_lt (by omega)]
  · have := g.bounds p hp
    simp only
    omega
  · obtain ⟨p, hp, h⟩ := h3; exact ⟨p, hp, by simp only; omega⟩
  · obtain ⟨p, hp, h⟩ := h4; exact ⟨p, hp, by simp only; omega⟩

end Xls.Desk
