import Verif.Globals.Model
import Verif.Book.Pieces
import Verif.Sst.Props
import Verif.Note.Group
/-
The records that the globals hand out.
-/
namespace Xls.Globals
open Xls.Biff Xls.Unit Xls.Book

/-- The bytes of the drawing group, if there is one. -/
def groupUnits (D : Data) : Option (List U) :=
  (Note.makeDrawingGroup (D.bounds.map (·.notes))).map fun o => o.toList.map fun bs => { data := bs }

/-- The bytes of the string table, if there is one. -/
def sstUnits (D : Data) : Option (List U) :=
  if D.labels.isEmpty then some [] else (Sst.makeSST D.labels).map fun bs => [{ data := bs, cont := true }]

/-- The records before the sheets' records. -/
def headUnits (D : Data) : List U :=
  [unit 0x809 (Sheet.bofPayload 5), unit 0x42 (leN 2 1200), unit 0x3D D.window.payload, unit 0x22 (leN 2 0)] ++
    (D.defFonts.map (unit 0x31) ++ (D.fonts.map (unit 0x31) ++ (D.formats.map (unit 0x41E) ++ (D.defXfs.map (unit 0xE0) ++
      (D.xfs.map (unit 0xE0) ++ (D.styles.map (unit 0x293) ++ [unit 0x92 D.palette]))))))

/-- All records. -/
def units (D : Data) (g t : List U) : List U :=
  headUnits D ++ (D.bounds.zipIdx.map boundUnit ++
    ([unit 0x1AE (supbookPayload D.bounds.length), unit 0x17 (externPayload D.bounds.length)] ++ (g ++ (t ++ [unit 0x0A []]))))

theorem trace_finish {D : Data} {s : St} (h : s.phase = .finish) : ∃ s', GTrace next (D, s) [] (D, s') ∧ s'.phase = .init :=
  ⟨{ s with phase := .init }, .fin (by simp [next, h]), rfl⟩

theorem trace_eof {D : Data} {s : St} (h : s.phase = .eof) :
    ∃ s', GTrace next (D, s) [unit 0x0A []] (D, s') ∧ s'.phase = .init := by
  obtain ⟨s', h', e⟩ := trace_finish (D := D) (s := { s with phase := .finish }) rfl
  exact ⟨s', .unit (by simp [next, h]) h', e⟩

theorem trace_sst {D : Data} {s : St} {t : List U} (ht : sstUnits D = some t) (h : s.phase = .sst) :
    ∃ s', GTrace next (D, s) (t ++ [unit 0x0A []]) (D, s') ∧ s'.phase = .init := by
  obtain ⟨s', h', e⟩ := trace_eof (D := D) (s := { s with phase := .eof }) rfl
  unfold sstUnits at ht
  by_cases hl : D.labels.isEmpty
  · rw [if_pos hl] at ht
    obtain rfl := Option.some.inj ht
    exact ⟨s', .again (by simp [next, h, hl]) h', e⟩
  · rw [if_neg hl] at ht
    obtain ⟨bs, hb, rfl⟩ := Option.map_eq_some_iff.mp ht
    exact ⟨s', .unit (by simp [next, h, hl, hb]) h', e⟩

theorem trace_group {D : Data} {s : St} {g t : List U} (hg : groupUnits D = some g) (ht : sstUnits D = some t) (h : s.phase = .drawingGrp) :
    ∃ s', GTrace next (D, s) (g ++ (t ++ [unit 0x0A []])) (D, s') ∧ s'.phase = .init := by
  obtain ⟨s', h', e⟩ := trace_sst (D := D) (s := { s with phase := .sst }) ht rfl
  unfold groupUnits at hg
  obtain ⟨o, ho, rfl⟩ := Option.map_eq_some_iff.mp hg
  cases o with
  | none => exact ⟨s', .again (by simp [next, h, ho]) h', e⟩
  | some bs => exact ⟨s', .unit (by simp [next, h, ho]) h', e⟩

theorem trace_links {D : Data} {s : St} {g t : List U} (hg : groupUnits D = some g) (ht : sstUnits D = some t) (h : s.phase = .link1) :
    ∃ s', GTrace next (D, s) ([unit 0x1AE (supbookPayload D.bounds.length), unit 0x17 (externPayload D.bounds.length)] ++
      (g ++ (t ++ [unit 0x0A []]))) (D, s') ∧ s'.phase = .init := by
  obtain ⟨s', h', e⟩ := trace_group (D := D) (s := { s with phase := .drawingGrp }) hg ht rfl
  exact ⟨s', .unit (by simp [next, h]; rfl) (.unit (by simp [next]) h'), e⟩

/-- A list that is written record by record and must not be empty, or whose emptiness is tested first. -/
theorem trace_list {D : Data} {X : Type} (ph : Phase) (P : St → Prop) (f : X → U) (get : St → List X) (set : St → List X → St)
    (hP : ∀ s l, P s → P (set s l)) (hget : ∀ s l, get (set s l) = l) (hph : ∀ s l, s.phase = ph → (set s l).phase = ph) {out : List U}
    (hmid : ∀ (s : St) a b r, s.phase = ph → get s = a :: b :: r → next (D, s) = .unit (f a) (D, set s (b :: r)))
    (hlast : ∀ (s : St) a, P s → s.phase = ph → get s = [a] → ∃ s1 s', next (D, s) = .unit (f a) (D, s1) ∧
      GTrace next (D, s1) out (D, s') ∧ s'.phase = .init) :
    ∀ (l : List X) (s : St), P s → l ≠ [] → s.phase = ph → get s = l →
      ∃ s', GTrace next (D, s) (l.map f ++ out) (D, s') ∧ s'.phase = .init := by
  intro l
  induction l with
  | nil => intro s _ h; exact absurd rfl h
  | cons a r ih =>
    intro s h0 _ hp hs
    cases r with
    | nil =>
      obtain ⟨s1, s', e, h, hi⟩ := hlast s a h0 hp hs
      exact ⟨s', .unit e h, hi⟩
    | cons b t =>
      obtain ⟨s', h, hi⟩ := ih (set s (b :: t)) (hP _ _ h0) (by simp) (hph _ _ hp) (hget _ _)
      exact ⟨s', .unit (hmid s a b t hp hs) h, hi⟩

theorem trace_bounds {D : Data} {s : St} {g t : List U} (hg : groupUnits D = some g) (ht : sstUnits D = some t) (h : s.phase = .bounds)
    (hs : s.bounds = D.bounds.zipIdx) :
    ∃ s', GTrace next (D, s) (D.bounds.zipIdx.map boundUnit ++
      ([unit 0x1AE (supbookPayload D.bounds.length), unit 0x17 (externPayload D.bounds.length)] ++ (g ++ (t ++ [unit 0x0A []])))) (D, s') ∧
      s'.phase = .init := by
  by_cases hb : D.bounds = []
  · obtain ⟨s', h', e⟩ := trace_links (D := D) (s := { s with phase := .link1, bounds := D.bounds.zipIdx }) hg ht rfl
    have hz : D.bounds.zipIdx = [] := by rw [hb]; rfl
    refine ⟨s', .again (by simp [next, h, hb]; rfl) ?_, e⟩
    rw [hz]
    rw [hz] at h'
    simpa using h'
  · have hz : D.bounds.zipIdx ≠ [] := by
      intro e
      have := congrArg List.length e
      simp at this
      exact hb this
    have he : D.bounds.isEmpty = false := by simpa using hb
    refine trace_list .bounds (fun _ => True) boundUnit St.bounds (fun s l => { s with bounds := l }) (fun _ _ _ => trivial) (fun _ _ => rfl)
      (fun _ _ h => h) ?_ ?_ _ s trivial hz h hs
    · intro s a b r hp hs
      simp [next, hp, he, hs]
    · intro s a _ hp hs
      obtain ⟨s', h', e⟩ := trace_links (D := D) (s := { s with phase := .link1, bounds := D.bounds.zipIdx }) hg ht rfl
      exact ⟨_, s', by simp [next, hp, he, hs], h', e⟩

/-- What comes with and after the sheets' records. -/
def tailUnits (D : Data) (g t : List U) : List U :=
  D.bounds.zipIdx.map boundUnit ++
    ([unit 0x1AE (supbookPayload D.bounds.length), unit 0x17 (externPayload D.bounds.length)] ++ (g ++ (t ++ [unit 0x0A []])))

theorem trace_palette {D : Data} {s : St} {g t : List U} (hg : groupUnits D = some g) (ht : sstUnits D = some t)
    (h : s.phase = .palette) (hs : s.bounds = D.bounds.zipIdx) :
    ∃ s', GTrace next (D, s) ([unit 0x92 D.palette] ++ tailUnits D g t) (D, s') ∧ s'.phase = .init := by
  obtain ⟨s', h', e⟩ := trace_bounds (D := D) (s := { s with phase := .bounds }) hg ht rfl hs
  exact ⟨s', .unit (by simp [next, h]) h', e⟩

theorem trace_styles {D : Data} {s : St} {g t : List U} (hg : groupUnits D = some g) (ht : sstUnits D = some t)
    (h : s.phase = .styles) (h1 : s.styles = D.styles) (hs : s.bounds = D.bounds.zipIdx) :
    ∃ s', GTrace next (D, s) (D.styles.map (unit 0x293) ++ ([unit 0x92 D.palette] ++ tailUnits D g t)) (D, s') ∧ s'.phase = .init := by
  by_cases hb : D.styles = []
  · obtain ⟨s', h', e⟩ := trace_palette (D := D) (s := { s with phase := .palette }) hg ht rfl hs
    exact ⟨s', by rw [hb]; exact .again (by simp [next, h, hb]) h', e⟩
  · have he : D.styles.isEmpty = false := by simpa using hb
    refine trace_list .styles (fun s => s.bounds = D.bounds.zipIdx) (unit 0x293) St.styles (fun s l => { s with styles := l })
      (fun _ _ h => h) (fun _ _ => rfl) (fun _ _ h => h) ?_ ?_ _ s hs hb h h1
    · intro s a b r hp hs
      simp [next, hp, he, hs]
    · intro s a hP hp hs
      obtain ⟨s', h', e⟩ := trace_palette (D := D) (s := { s with phase := .palette }) hg ht rfl hP
      exact ⟨_, s', by simp [next, hp, he, hs], h', e⟩

theorem trace_xfs {D : Data} {s : St} {g t : List U} (hg : groupUnits D = some g) (ht : sstUnits D = some t)
    (h : s.phase = .xfs) (h2 : s.xfs = D.xfs) (h1 : s.styles = D.styles) (hs : s.bounds = D.bounds.zipIdx) :
    ∃ s', GTrace next (D, s) (D.xfs.map (unit 0xE0) ++ (D.styles.map (unit 0x293) ++ ([unit 0x92 D.palette] ++ tailUnits D g t))) (D, s') ∧
      s'.phase = .init := by
  by_cases hb : D.xfs = []
  · obtain ⟨s', h', e⟩ := trace_styles (D := D) (s := { s with phase := .styles }) hg ht rfl h1 hs
    exact ⟨s', by rw [hb]; exact .again (by simp [next, h, hb]) h', e⟩
  · have he : D.xfs.isEmpty = false := by simpa using hb
    refine trace_list .xfs (fun s => s.styles = D.styles ∧ s.bounds = D.bounds.zipIdx) (unit 0xE0) St.xfs (fun s l => { s with xfs := l })
      (fun _ _ h => h) (fun _ _ => rfl) (fun _ _ h => h) ?_ ?_ _ s ⟨h1, hs⟩ hb h h2
    · intro s a b r hp hs
      simp [next, hp, he, hs]
    · intro s a hP hp hs
      obtain ⟨s', h', e⟩ := trace_styles (D := D) (s := { s with phase := .styles, xfs := D.xfs }) hg ht rfl hP.1 hP.2
      exact ⟨_, s', by simp [next, hp, he, hs], h', e⟩

theorem trace_defXfs {D : Data} {s : St} {g t : List U} (hg : groupUnits D = some g) (ht : sstUnits D = some t) (hne : D.defXfs ≠ [])
    (h : s.phase = .defXfs) (h3 : s.defXfs = D.defXfs) (h2 : s.xfs = D.xfs) (h1 : s.styles = D.styles) (hs : s.bounds = D.bounds.zipIdx) :
    ∃ s', GTrace next (D, s) (D.defXfs.map (unit 0xE0) ++ (D.xfs.map (unit 0xE0) ++ (D.styles.map (unit 0x293) ++
      ([unit 0x92 D.palette] ++ tailUnits D g t)))) (D, s') ∧ s'.phase = .init := by
  refine trace_list .defXfs (fun s => s.xfs = D.xfs ∧ s.styles = D.styles ∧ s.bounds = D.bounds.zipIdx) (unit 0xE0) St.defXfs
    (fun s l => { s with defXfs := l }) (fun _ _ h => h) (fun _ _ => rfl) (fun _ _ h => h) ?_ ?_ _ s ⟨h2, h1, hs⟩ hne h h3
  · intro s a b r hp hs
    simp [next, hp, hs]
  · intro s a hP hp hs
    obtain ⟨s', h', e⟩ := trace_xfs (D := D) (s := { s with phase := .xfs }) hg ht rfl hP.1 hP.2.1 hP.2.2
    exact ⟨_, s', by simp [next, hp, hs], h', e⟩

theorem trace_formats {D : Data} {s : St} {g t : List U} (hg : groupUnits D = some g) (ht : sstUnits D = some t) (hne : D.defXfs ≠ [])
    (h : s.phase = .formats) (h4 : s.formats = D.formats) (h3 : s.defXfs = D.defXfs) (h2 : s.xfs = D.xfs) (h1 : s.styles = D.styles)
    (hs : s.bounds = D.bounds.zipIdx) :
    ∃ s', GTrace next (D, s) (D.formats.map (unit 0x41E) ++ (D.defXfs.map (unit 0xE0) ++ (D.xfs.map (unit 0xE0) ++
      (D.styles.map (unit 0x293) ++ ([unit 0x92 D.palette] ++ tailUnits D g t))))) (D, s') ∧ s'.phase = .init := by
  by_cases hb : D.formats = []
  · obtain ⟨s', h', e⟩ := trace_defXfs (D := D) (s := { s with phase := .defXfs }) hg ht hne rfl h3 h2 h1 hs
    exact ⟨s', by rw [hb]; exact .again (by simp [next, h, hb]) h', e⟩
  · have he : D.formats.isEmpty = false := by simpa using hb
    refine trace_list .formats (fun s => s.defXfs = D.defXfs ∧ s.xfs = D.xfs ∧ s.styles = D.styles ∧ s.bounds = D.bounds.zipIdx)
      (unit 0x41E) St.formats (fun s l => { s with formats := l })
      (fun _ _ h => h) (fun _ _ => rfl) (fun _ _ h => h) ?_ ?_ _ s ⟨h3, h2, h1, hs⟩ hb h h4
    · intro s a b r hp hs
      simp [next, hp, he, hs]
    · intro s a hP hp hs
      obtain ⟨s', h', e⟩ := trace_defXfs (D := D) (s := { s with phase := .defXfs, formats := D.formats }) hg ht hne rfl
        hP.1 hP.2.1 hP.2.2.1 hP.2.2.2
      exact ⟨_, s', by simp [next, hp, he, hs], h', e⟩

theorem trace_fonts {D : Data} {s : St} {g t : List U} (hg : groupUnits D = some g) (ht : sstUnits D = some t) (hne : D.defXfs ≠ [])
    (h : s.phase = .fonts) (h5 : s.fonts = D.fonts) (h4 : s.formats = D.formats) (h3 : s.defXfs = D.defXfs) (h2 : s.xfs = D.xfs)
    (h1 : s.styles = D.styles) (hs : s.bounds = D.bounds.zipIdx) :
    ∃ s', GTrace next (D, s) (D.fonts.map (unit 0x31) ++ (D.formats.map (unit 0x41E) ++ (D.defXfs.map (unit 0xE0) ++ (D.xfs.map (unit 0xE0) ++
      (D.styles.map (unit 0x293) ++ ([unit 0x92 D.palette] ++ tailUnits D g t)))))) (D, s') ∧ s'.phase = .init := by
  by_cases hb : D.fonts = []
  · obtain ⟨s', h', e⟩ := trace_formats (D := D) (s := { s with phase := .formats }) hg ht hne rfl h4 h3 h2 h1 hs
    exact ⟨s', by rw [hb]; exact .again (by simp [next, h, hb]) h', e⟩
  · have he : D.fonts.isEmpty = false := by simpa using hb
    refine trace_list .fonts (fun s => s.formats = D.formats ∧ s.defXfs = D.defXfs ∧ s.xfs = D.xfs ∧ s.styles = D.styles ∧
        s.bounds = D.bounds.zipIdx) (unit 0x31) St.fonts (fun s l => { s with fonts := l })
      (fun _ _ h => h) (fun _ _ => rfl) (fun _ _ h => h) ?_ ?_ _ s ⟨h4, h3, h2, h1, hs⟩ hb h h5
    · intro s a b r hp hs
      simp [next, hp, he, hs]
    · intro s a hP hp hs
      obtain ⟨s', h', e⟩ := trace_formats (D := D) (s := { s with phase := .formats, fonts := D.fonts }) hg ht hne rfl
        hP.1 hP.2.1 hP.2.2.1 hP.2.2.2.1 hP.2.2.2.2
      exact ⟨_, s', by simp [next, hp, he, hs], h', e⟩

/-- The globals hand out exactly these records, and are ready to begin again. -/
theorem trace_units {D : Data} {s : St} {g t : List U} (hg : groupUnits D = some g) (ht : sstUnits D = some t) (hf : D.defFonts ≠ [])
    (hx : D.defXfs ≠ []) (h : s.phase = .init) :
    ∃ s', GTrace next (D, s) (units D g t) (D, s') ∧ s'.phase = .init := by
  have key : ∃ s', GTrace next (D, ⟨.defFonts, D.defFonts, D.fonts, D.formats, D.defXfs, D.xfs, D.styles, D.bounds.zipIdx⟩)
      (D.defFonts.map (unit 0x31) ++ (D.fonts.map (unit 0x31) ++ (D.formats.map (unit 0x41E) ++ (D.defXfs.map (unit 0xE0) ++
      (D.xfs.map (unit 0xE0) ++ (D.styles.map (unit 0x293) ++ ([unit 0x92 D.palette] ++ tailUnits D g t))))))) (D, s') ∧ s'.phase = .init := by
    refine trace_list .defFonts (fun s => s.fonts = D.fonts ∧ s.formats = D.formats ∧ s.defXfs = D.defXfs ∧ s.xfs = D.xfs ∧
      s.styles = D.styles ∧ s.bounds = D.bounds.zipIdx) (unit 0x31) St.defFonts (fun s l => { s with defFonts := l })
      (fun _ _ h => h) (fun _ _ => rfl) (fun _ _ h => h) ?_ ?_ _ _ ⟨rfl, rfl, rfl, rfl, rfl, rfl⟩ hf rfl rfl
    · intro s a b r hp hs
      simp [next, hp, hs]
    · intro s a hP hp hs
      obtain ⟨s', h', e⟩ := trace_fonts (D := D) (s := { s with phase := .fonts }) hg ht hx rfl
        hP.1 hP.2.1 hP.2.2.1 hP.2.2.2.1 hP.2.2.2.2.1 hP.2.2.2.2.2
      exact ⟨_, s', by simp [next, hp, hs], h', e⟩
  obtain ⟨s', h', e⟩ := key
  refine ⟨s', ?_, e⟩
  have : units D g t = [unit 0x809 (Sheet.bofPayload 5), unit 0x42 (leN 2 1200), unit 0x3D D.window.payload, unit 0x22 (leN 2 0)] ++
      (D.defFonts.map (unit 0x31) ++ (D.fonts.map (unit 0x31) ++ (D.formats.map (unit 0x41E) ++ (D.defXfs.map (unit 0xE0) ++
      (D.xfs.map (unit 0xE0) ++ (D.styles.map (unit 0x293) ++ ([unit 0x92 D.palette] ++ tailUnits D g t))))))) := by
    unfold units headUnits tailUnits
    simp only [List.append_assoc]
  rw [this]
  refine .again (g1 := (D, ⟨.bof, D.defFonts, D.fonts, D.formats, D.defXfs, D.xfs, D.styles, D.bounds.zipIdx⟩)) (by simp [next, h]) ?_
  exact .unit rfl (.unit rfl (.unit rfl (.unit rfl h')))

/-- The string table is always made. -/
theorem sst_some (D : Data) : ∃ t, sstUnits D = some t := by
  unfold sstUnits
  split
  · exact ⟨_, rfl⟩
  · obtain ⟨bs, _, h, _⟩ := Sst.c05_sst_reads_back D.labels
    exact ⟨_, by rw [h]; rfl⟩

end Xls.Globals
