import Verif.Range.Body
import Verif.Styles.Props
/-
C42: operations on a range change exactly the cells of the rectangle; C53: the box.
-/
namespace Xls.Range
open Xls.Cells (Key Cell)
open Xls.Styles (cellOp cellFont)
open Xls.Styles.Spec (FontH Look plain upd onCall wantXf wantFont)
open Xls.Font (FOp)
open Xls.Xf (Xf)
open Spec

variable {κ : Type}

/-! ### Conditions on a program -/

/-- The valid arguments of an operation on a range. -/
def ArgsOk (fonts : Nat → Option FontH) : RangeOp → Prop
  | .call o => CallOk fonts o
  | .font o => Font.Spec.Valid o
  | .color n => Xf.Spec.Valid (.fg n)
  | .box b => Xf.Spec.Valid (.bstyle .top b.border) ∧ Xf.Spec.Valid (.bcolor .top b.color) ∧ Xf.Spec.Valid (.fg b.fg) ∧
      Xf.Spec.Valid (.fg b.bg) ∧ Xf.Spec.Valid (.fill b.fill)

/-- There is room for fonts and formats before each cell. -/
def RangeRoom (s : State κ) (r : Rect) : RangeOp → Prop
  | .call o => okLoop (fun s => Room s.st) (callBody o) (keys r) s
  | .font o => okLoop (fun s => Room s.st) (fontBody o) (keys r) s
  | .color n => okLoop (fun w => Room w.1.st) (memoBody (fun _ _ x => x.flags) (colorOps n)) (keys r) (s, [])
  | .box b => okLoop (fun w => Room w.1.st) (memoBody (boxTag r) (boxOps r b)) (keys r) (s, [])

/-- The objects exist and the arguments are valid; formats are not changed once used nor given to cells after all their cells
    gave them up, as in `Styles.Ok`; the last row and column are not the greatest 32-bit number (`c42_endless`). -/
def Ok (s : State κ) (G : Spec.State κ) : Act κ → Prop
  | .newFont n => n.length < 256
  | .font p o => (∃ h, G.fonts p = some h) ∧ Font.Spec.Valid o
  | .newXf => True
  | .xf q o => (∃ l, G.formats q = some l) ∧ CallOk G.fonts o ∧ ∀ e, s.st.xfs[q]? = some e → e.used = false
  | .put _ _ _ none => True
  | .put _ _ _ (some q) => (∃ l, G.formats q = some l) ∧ ∀ e, s.st.xfs[q]? = some e → Styles.dead e = false
  | .cell row col o => (∃ c, G.grid (row, col) = some c) ∧ CallOk G.fonts o
  | .cellFont row col o => (∃ c, G.grid (row, col) = some c) ∧ Font.Spec.Valid o
  | .range r o => r.lastRow < 2 ^ 32 - 1 ∧ r.lastCol < 2 ^ 32 - 1 ∧ ArgsOk G.fonts o ∧ RangeRoom s r o

/-! ### Ranges -/

theorem box_tag (r : Rect) (b : Box) (k k' : Key) (x : Xf) (h : boxTag r k.1 k.2 x = boxTag r k'.1 k'.2 x) :
    boxOps r b k.1 k.2 = boxOps r b k'.1 k'.2 := by
  have bits : ∀ a b c d a' b' c' d' : Bool,
      ((if a then 2 else 0) ||| (if b then 1 else 0) ||| (if c then 4 else 0) ||| (if d then 8 else 0) : Nat) =
      ((if a' then 2 else 0) ||| (if b' then 1 else 0) ||| (if c' then 4 else 0) ||| (if d' then 8 else 0)) →
      a = a' ∧ b = b' ∧ c = c' ∧ d = d' := by decide
  have := bits (decide (k.1 = r.firstRow)) (decide (k.1 = r.lastRow)) (decide (k.2 = r.firstCol)) (decide (k.2 = r.lastCol))
    (decide (k'.1 = r.firstRow)) (decide (k'.1 = r.lastRow)) (decide (k'.2 = r.firstCol)) (decide (k'.2 = r.lastCol))
    (by simpa [boxTag] using h)
  simp only [decide_eq_decide] at this
  obtain ⟨h1, h2, h3, h4⟩ := this
  simp only [boxOps, h1, h2, h3, h4]

theorem range_rel {s : State κ} {A G} (R : Rel s A G) (r : Rect) (h1 : r.lastRow < 2 ^ 32 - 1) (h2 : r.lastCol < 2 ^ 32 - 1)
    (o : RangeOp) (ho : ArgsOk G.fonts o) (hroom : RangeRoom s r o) :
    ∃ t A', onRange s r o = some t ∧
      Rel t A' { G with grid := fun k => if Inside r k then here G.grid (rangeCalls G.fonts r k o) k else G.grid k } := by
  have fin : ∀ f : Key → Option (Option κ × Look), (fun k => if k ∈ keys r then f k else G.grid k) = fun k => if Inside r k then f k else G.grid k := by
    intro f
    funext k
    simp only [mem_keys]
  have memo : ∀ (tag : Nat → Nat → Xf → Nat) (ops : Nat → Nat → List Xf.Op)
      (_ : ∀ (k k' : Key) x, tag k.1 k.2 x = tag k'.1 k'.2 x → ops k.1 k.2 = ops k'.1 k'.2)
      (_ : ∀ (k : Key), ∀ o ∈ ops k.1 k.2, CallOk G.fonts o)
      (_ : okLoop (fun w : State κ × Cache => Room w.1.st) (memoBody tag ops) (keys r) (s, [])),
      ∃ t A', (each r (memoBody tag ops) (s, [])).map (·.1) = some t ∧
        Rel t A' { G with grid := fun k => if Inside r k then here G.grid (fun l => (ops k.1 k.2).foldl onCall l) k else G.grid k } := by
    intro tag ops htag hops hroom
    obtain ⟨w, w1, A', w2, -⟩ := loop_rel (fun w : State κ × Cache => Room w.1.st) (memoBody tag ops) (fun k l => (ops k.1 k.2).foldl onCall l) G.fonts
      (fun ks w G => ∃ A, Rel w.1 A G ∧ CacheOk tag ops ks w.1 w.2)
      (by
        rintro k ks ⟨s, cache⟩ G' hk hG ⟨A, R, C⟩ hP
        obtain ⟨t, A', c', m1, m2, m3⟩ := memo_rel tag ops htag R (by rw [hG]; exact hops) k ks hk cache C hP
        exact ⟨(t, c'), m1, A', m2, m3⟩)
      (keys r) (keys_nodup r) (s, []) G rfl ⟨A, R, by intro i tg p hm; simp at hm⟩ hroom
    rw [fin] at w2
    refine ⟨w.1, A', ?_, w2⟩
    rw [each_list r h1 h2, w1]
    rfl
  cases o with
  | call o =>
    obtain ⟨t, t1, A', t2⟩ := loop_rel (fun s : State κ => Room s.st) (callBody o) (fun _ l => onCall l o) G.fonts (fun _ s G => ∃ A, Rel s A G)
      (by
        rintro k ks s G' - hG ⟨A, R⟩ -
        obtain ⟨t, A', m1, m2⟩ := call_rel R k o (by rw [hG]; exact ho)
        exact ⟨t, m1, A', m2⟩)
      (keys r) (keys_nodup r) s G rfl ⟨A, R⟩ hroom
    rw [fin] at t2
    exact ⟨t, A', by rw [onRange, each_list r h1 h2, t1], t2⟩
  | font o =>
    obtain ⟨t, t1, A', t2⟩ := loop_rel (fun s : State κ => Room s.st) (fontBody o) (fun _ => fontCall G.fonts o) G.fonts (fun _ s G => ∃ A, Rel s A G)
      (by
        rintro k ks s G' - hG ⟨A, R⟩ hP
        obtain ⟨t, A', m1, m2⟩ := font_rel R k o ho hP.1
        refine ⟨t, m1, A', ?_⟩
        rw [← hG]
        exact m2)
      (keys r) (keys_nodup r) s G rfl ⟨A, R⟩ hroom
    rw [fin] at t2
    exact ⟨t, A', by rw [onRange, each_list r h1 h2, t1], t2⟩
  | color n =>
    refine memo (fun _ _ x => x.flags) (colorOps n) (fun _ _ _ _ => rfl) ?_ hroom
    intro k o hm
    simp only [colorOps, List.mem_cons, List.not_mem_nil, or_false] at hm
    rcases hm with rfl | rfl
    · exact ⟨ho, by simp⟩
    · exact ⟨by simp [Xf.Spec.Valid], by simp⟩
  | box b =>
    refine memo (boxTag r) (boxOps r b) (box_tag r b) ?_ hroom
    obtain ⟨b1, b2, b3, b4, b5⟩ := ho
    have b1 : ∀ s, Xf.Spec.Valid (.bstyle s b.border) := fun s => b1
    have b2 : ∀ s, Xf.Spec.Valid (.bcolor s b.color) := fun s => b2
    intro k o hm
    have hif : ∀ (c : Prop) [Decidable c] (x y : Xf.Op), (o ∈ if c then [x, y] else []) → o = x ∨ o = y := by
      intro c _ x y h
      split at h
      · simpa using h
      · simp at h
    simp only [boxOps, List.mem_append] at hm
    rcases hm with (((hm | hm) | hm) | hm) | hm
    · rcases hif _ _ _ hm with rfl | rfl
      · exact ⟨b1 _, by simp⟩
      · exact ⟨b2 _, by simp⟩
    · rcases hif _ _ _ hm with rfl | rfl
      · exact ⟨b1 _, by simp⟩
      · exact ⟨b2 _, by simp⟩
    · rcases hif _ _ _ hm with rfl | rfl
      · exact ⟨b1 _, by simp⟩
      · exact ⟨b2 _, by simp⟩
    · rcases hif _ _ _ hm with rfl | rfl
      · exact ⟨b1 _, by simp⟩
      · exact ⟨b2 _, by simp⟩
    · simp only [List.mem_cons, List.not_mem_nil, or_false] at hm
      rcases hm with rfl | rfl | rfl
      · exact ⟨b3, by simp⟩
      · exact ⟨b4, by simp⟩
      · exact ⟨b5, by simp⟩

/-! ### Programs -/

/-- The handle of the object an action makes. -/
def handle (s : State κ) : Act κ → Nat
  | .newFont _ => s.st.fonts.length
  | _ => s.st.xfs.length

theorem sim {s : State κ} {A G} (R : Rel s A G) (a : Act κ) (ha : Ok s G a) (hroom : Room s.st) :
    ∃ t A', step s a = some t ∧ Rel t A' (Spec.step (handle s a) G a) := by
  have style : ∀ (st : Styles.State) (A' : Styles.Spec.State) (G' : Spec.State κ), Styles.Good st A' → A'.cells = A.cells → A'.fonts = G'.fonts →
      A'.formats = G'.formats → G'.grid = G.grid → Rel { s with st := st } A' G' := by
    intro st A' G' hg hc hf hm hgr
    exact ⟨hg, hf, hm, R.ord, R.ids, by rw [hc, hgr]; exact R.live, by rw [hgr]; exact R.empty⟩
  cases a with
  | newFont n =>
    obtain ⟨t, t1, t2⟩ := Styles.sim R.good (.newFont n) ha hroom.1
    refine ⟨{ s with st := t }, _, by rw [step, t1]; rfl, style t _ _ t2 rfl ?_ R.formats rfl⟩
    show upd A.fonts _ _ = upd G.fonts _ _
    rw [R.fonts]
    rfl
  | font p o =>
    obtain ⟨t, t1, t2⟩ := Styles.sim R.good (.font p o) (by rw [Styles.Ok, R.fonts]; exact ha) hroom.1
    refine ⟨{ s with st := t }, _, by rw [step, t1]; rfl, style t _ _ t2 rfl ?_ R.formats rfl⟩
    show upd A.fonts _ _ = upd G.fonts _ _
    rw [R.fonts]
  | newXf =>
    obtain ⟨t, t1, t2⟩ := Styles.sim R.good .newXf trivial hroom.1
    refine ⟨{ s with st := t }, _, by rw [step, t1]; rfl, style t _ _ t2 rfl R.fonts ?_ rfl⟩
    show upd A.formats _ _ = upd G.formats _ _
    rw [R.formats]
    rfl
  | xf q o =>
    obtain ⟨t, t1, t2⟩ := Styles.sim R.good (.xf q o) (by rw [Styles.Ok, Styles.CallOk, R.fonts, R.formats]; exact ha) hroom.1
    refine ⟨{ s with st := t }, _, by rw [step, t1]; rfl, style t _ _ t2 rfl R.fonts ?_ rfl⟩
    show upd A.formats _ _ = upd G.formats _ _
    rw [R.formats]
  | put row col v q =>
    cases q with
    | none =>
      obtain ⟨t, x, A', h1, h2, -⟩ := R.put row col v none plain (newCell_plain R.good)
      exact ⟨t, A', by rw [step, h1]; rfl, h2⟩
    | some q =>
      obtain ⟨⟨l, hl⟩, hd⟩ := ha
      obtain ⟨t, x, A', h1, h2, -⟩ := R.put row col v (some q) l (newCell_format R.good (by rw [R.formats]; exact hl) hd)
      refine ⟨t, A', by rw [step, h1]; rfl, ?_⟩
      rw [Spec.step, hl]
      exact h2
  | cell row col o =>
    obtain ⟨⟨⟨v, l⟩, hc⟩, ho⟩ := ha
    obtain ⟨x, h1, h2, h3, h4, h5⟩ := R.find hc
    obtain ⟨t, c1, c2⟩ := Styles.sim_cell R.good x.id o ⟨_, h5⟩ (by rw [Styles.CallOk, R.fonts]; exact ho)
    rw [h5, Option.map_some] at c2
    have := R.at h2 c2
    rw [h3, h4] at this
    exact ⟨{ s with st := t }, _, by rw [step, h1, Option.bind_some, c1]; rfl, by rw [Spec.step, hc]; exact this⟩
  | cellFont row col o =>
    obtain ⟨⟨⟨v, l⟩, hc⟩, ho⟩ := ha
    obtain ⟨x, h1, h2, h3, h4, h5⟩ := R.find hc
    obtain ⟨t, c1, c2⟩ := font_cell R.good G.fonts R.fonts x.id o l h5 ho hroom.1
    have := R.at h2 c2
    rw [h3, h4] at this
    exact ⟨{ s with st := t }, _, by rw [step, h1, Option.bind_some, c1]; rfl, by rw [Spec.step, hc]; exact this⟩
  | range r o => exact range_rel R r ha.1 ha.2.1 o ha.2.2.1 ha.2.2.2

/-- What a program asked for. -/
def asked (s : State κ) (G : Spec.State κ) : List (Act κ) → Spec.State κ
  | [] => G
  | a :: r => match step s a with
    | none => G
    | some t => asked t (Spec.step (handle s a) G a) r

/-- The conditions along a program. -/
def Fine (s : State κ) (G : Spec.State κ) : List (Act κ) → Prop
  | [] => True
  | a :: r => Ok s G a ∧ Room s.st ∧ ∀ t, step s a = some t → Fine t (Spec.step (handle s a) G a) r

theorem sim_all {s : State κ} {A G} (R : Rel s A G) (acts : List (Act κ)) (hf : Fine s G acts) :
    ∃ t A', steps s acts = some t ∧ Rel t A' (asked s G acts) := by
  induction acts generalizing s A G with
  | nil => exact ⟨s, A, rfl, R⟩
  | cons a r ih =>
    obtain ⟨h1, h2, h3⟩ := hf
    obtain ⟨t, A', t1, t2⟩ := sim R a h1 h2
    obtain ⟨u, A'', u1, u2⟩ := ih t2 (h3 t t1)
    refine ⟨u, A'', by rw [steps, t1, Option.bind_some, u1], ?_⟩
    rw [asked, t1]
    exact u2

theorem init_rel : ∃ s, init κ = some s ∧ ∃ A, Rel s A (start κ) := by
  obtain ⟨st, h, G⟩ := Styles.init_good
  refine ⟨⟨st, {}⟩, by rw [init, h]; rfl, Styles.Spec.start, G, rfl, rfl, List.Pairwise.nil, ?_, ?_, fun _ _ => rfl⟩
  · intro x hx; simp at hx
  · intro x hx; simp at hx

/-! ### Reading the sheet back -/

/-- What a reader finds at a coordinate: the contents, and the format and font through the records. -/
def shown (s : State κ) (row col : Nat) : Option (Option κ × Xf.Seen × Font.Seen) :=
  (s.sheet.findCell row col).bind fun x => (Styles.seen s.st x.id).map fun r => (x.val, r)

/-- What it should find. -/
def want (G : Spec.State κ) (row col : Nat) : Option (Option κ × Xf.Seen × Font.Seen) :=
  (G.grid (row, col)).bind fun c => (Styles.Spec.fontOf ⟨G.fonts, G.formats, fun _ => none⟩ c.2).map fun h => (c.1, wantXf c.2, wantFont h)

theorem Rel.shown {s : State κ} {A G} (R : Rel s A G) (hx : s.st.xfs.length ≤ 65536) (row col : Nat) :
    shown s row col = want G row col ∧ (shown s row col = none → G.grid (row, col) = none) := by
  unfold Range.shown want
  cases hg : G.grid (row, col) with
  | none =>
    have := (R.missing hg).1
    rw [this]
    exact ⟨rfl, fun _ => rfl⟩
  | some c =>
    obtain ⟨v, l⟩ := c
    obtain ⟨x, h1, h2, h3, h4, h5⟩ := R.find hg
    obtain ⟨h, f1, f2⟩ := R.good.read hx x.id l h5
    have f1 : Styles.Spec.fontOf ⟨G.fonts, G.formats, fun _ => none⟩ l = some h := by
      rw [← f1, ← R.fonts]
      rfl
    rw [h1, Option.bind_some, f2, Option.bind_some, f1, h4]
    exact ⟨rfl, by simp⟩

/-- C42 as a whole, for programs within the conditions of C29 (see `c29_revived_format`) and rectangles that do not end at the
    greatest 32-bit number (`c42_endless`): after every program that makes fonts and formats, writes cells, formats single cells
    and formats ranges, a reader finds at every coordinate the contents last written there, or a blank cell if only a range
    covered it, formatted by exactly the calls that concern the coordinate.
    Missing for the full claim: those conditions. -/
theorem c42_sheet_partial (acts : List (Act κ)) (s0 : State κ) (h0 : init κ = some s0) (hf : Fine s0 (start κ) acts) :
    ∃ t, steps s0 acts = some t ∧ (t.st.xfs.length ≤ 65536 → ∀ row col, shown t row col = want (asked s0 (start κ) acts) row col) := by
  obtain ⟨s, h1, A, R⟩ := init_rel (κ := κ)
  rw [h0] at h1
  cases Option.some.inj h1
  obtain ⟨t, A', t1, t2⟩ := sim_all R acts hf
  exact ⟨t, t1, fun hx row col => (t2.shown hx row col).1⟩

theorem at_state {acts : List (Act κ)} {s0 s : State κ} (h0 : init κ = some s0) (hf : Fine s0 (start κ) acts) (hs : steps s0 acts = some s) :
    ∃ A, Rel s A (asked s0 (start κ) acts) := by
  obtain ⟨s', h1, A, R⟩ := init_rel (κ := κ)
  rw [h0] at h1
  cases Option.some.inj h1
  obtain ⟨t, A', t1, t2⟩ := sim_all R acts hf
  rw [hs] at t1
  cases Option.some.inj t1
  exact ⟨A', t2⟩

/-- C42 for one operation: after any such program an operation on a range ends, leaves every coordinate outside the rectangle
    as it was, and inside keeps the contents of the cells there were and adds blank cells where there were none. -/
theorem c42_range_partial (acts : List (Act κ)) (s0 s : State κ) (h0 : init κ = some s0) (hf : Fine s0 (start κ) acts)
    (hs : steps s0 acts = some s) (r : Rect) (o : RangeOp) (h1 : r.lastRow < 2 ^ 32 - 1) (h2 : r.lastCol < 2 ^ 32 - 1)
    (ho : ArgsOk (asked s0 (start κ) acts).fonts o) (hroom : RangeRoom s r o) (hx : s.st.xfs.length ≤ 65536) :
    ∃ t, onRange s r o = some t ∧ (t.st.xfs.length ≤ 65536 →
      (∀ row col, ¬ Inside r (row, col) → shown t row col = shown s row col) ∧
      (∀ row col, Inside r (row, col) → (shown t row col).map (·.1) = some (((shown s row col).map (·.1)).getD none))) := by
  obtain ⟨A, R⟩ := at_state h0 hf hs
  obtain ⟨t, A', t1, t2⟩ := range_rel R r h1 h2 o ho hroom
  refine ⟨t, t1, fun hy => ⟨?_, ?_⟩⟩
  · intro row col hn
    rw [(t2.shown hy row col).1, (R.shown hx row col).1]
    unfold want
    simp only [if_neg hn]
  · intro row col hi
    have e1 := (t2.shown hy row col)
    have e2 := (R.shown hx row col)
    have hsome : shown t row col ≠ none := by
      intro h
      have := e1.2 h
      simp only [if_pos hi, here_eq] at this
      simp at this
    obtain ⟨c, hc⟩ := Option.ne_none_iff_exists'.mp hsome
    rw [hc, Option.map_some]
    rw [hc] at e1
    have e1 := e1.1
    unfold want at e1
    simp only [if_pos hi, here_eq, Option.bind_some] at e1
    rw [eq_comm, Option.map_eq_some_iff] at e1
    obtain ⟨h, -, rfl⟩ := e1
    dsimp only
    congr 1
    unfold orBlank
    cases hg : (asked s0 (start κ) acts).grid (row, col) with
    | none =>
      rw [e2.1, want, hg]
      rfl
    | some c' =>
      obtain ⟨v, l⟩ := c'
      have hne : shown s row col ≠ none := fun h => by rw [e2.2 h] at hg; simp at hg
      obtain ⟨d, hd⟩ := Option.ne_none_iff_exists'.mp hne
      have e2 := e2.1
      rw [hd] at e2 ⊢
      rw [want, hg, Option.bind_some, eq_comm, Option.map_eq_some_iff] at e2
      obtain ⟨h', -, rfl⟩ := e2
      rfl

/-- A range that reaches the last row or column a 32-bit number can name is never finished, whatever is done to the cells. -/
theorem c42_endless (body : Nat → Nat → State κ → Option (State κ)) (s : State κ) (first firstC lastC fuel : Nat) (h : first < 2 ^ 32) :
    for32 (2 ^ 32 - 1) (fun row s => for32 lastC (body row) (lastC - firstC + 2) firstC s) fuel first s = none ∧
    ∀ row, for32 (2 ^ 32 - 1) (body row) fuel first s = none :=
  ⟨for32_endless _ _ _ h _, fun _ => for32_endless _ _ _ h _⟩

/-! ### The box -/

/-- A record but for the bits that say whether its border and its filling are its own. -/
def core (x : Xf.Seen) : Xf.Seen := { x with usesBorder := false, usesPattern := false }

theorem last_append {α : Type} (pick : Xf.Op → Option α) (d : α) (ops ops' : List Xf.Op) :
    Xf.Spec.last pick d (ops ++ ops') = Xf.Spec.last pick (Xf.Spec.last pick d ops) ops' := by simp [Xf.Spec.last]

theorem last_cons {α : Type} (pick : Xf.Op → Option α) (d : α) (o : Xf.Op) (ops : List Xf.Op) :
    Xf.Spec.last pick d (o :: ops) = Xf.Spec.last pick ((pick o).getD d) ops := rfl

theorem last_nil {α : Type} (pick : Xf.Op → Option α) (d : α) : Xf.Spec.last pick d [] = d := rfl

theorem core_top (l : Look) (c : Prop) [Decidable c] (st n : Nat) (h7 : Xf.Spec.colorCode n % 128 = Xf.Spec.colorCode n) :
    (if c then onCall (onCall l (.bstyle .top st)) (.bcolor .top n) else l).font = l.font ∧
    core (wantXf (if c then onCall (onCall l (.bstyle .top st)) (.bcolor .top n) else l)) =
    { core (wantXf l) with top := if c then ⟨st, Xf.Spec.colorCode n⟩ else (wantXf l).top } := by
  by_cases h : c
  · simp [h, h7, core, wantXf, onCall, Xf.Spec.want, last_append, last_cons, last_nil, Xf.Spec.line, Xf.Spec.lineStep, Xf.Spec.pickFont, Xf.Spec.pickFormat,
      Xf.Spec.pickHAlign, Xf.Spec.pickVAlign, Xf.Spec.pickIndent, Xf.Spec.pickOrient, Xf.Spec.pickFill, Xf.Spec.pickFg, Xf.Spec.pickBg,
      Xf.Spec.pickLocked, Xf.Spec.pickHidden, Xf.Spec.pickWrap, Xf.Spec.setsFont, Xf.Spec.setsFormat, Xf.Spec.setsAlign,
      Xf.Spec.setsProtect]
  · simp only [if_neg h]
    exact ⟨trivial, rfl⟩

theorem core_bottom (l : Look) (c : Prop) [Decidable c] (st n : Nat) (h7 : Xf.Spec.colorCode n % 128 = Xf.Spec.colorCode n) :
    (if c then onCall (onCall l (.bstyle .bottom st)) (.bcolor .bottom n) else l).font = l.font ∧
    core (wantXf (if c then onCall (onCall l (.bstyle .bottom st)) (.bcolor .bottom n) else l)) =
    { core (wantXf l) with bottom := if c then ⟨st, Xf.Spec.colorCode n⟩ else (wantXf l).bottom } := by
  by_cases h : c
  · simp [h, h7, core, wantXf, onCall, Xf.Spec.want, last_append, last_cons, last_nil, Xf.Spec.line, Xf.Spec.lineStep, Xf.Spec.pickFont, Xf.Spec.pickFormat,
      Xf.Spec.pickHAlign, Xf.Spec.pickVAlign, Xf.Spec.pickIndent, Xf.Spec.pickOrient, Xf.Spec.pickFill, Xf.Spec.pickFg, Xf.Spec.pickBg,
      Xf.Spec.pickLocked, Xf.Spec.pickHidden, Xf.Spec.pickWrap, Xf.Spec.setsFont, Xf.Spec.setsFormat, Xf.Spec.setsAlign,
      Xf.Spec.setsProtect]
  · simp only [if_neg h]
    exact ⟨trivial, rfl⟩

theorem core_left (l : Look) (c : Prop) [Decidable c] (st n : Nat) (h7 : Xf.Spec.colorCode n % 128 = Xf.Spec.colorCode n) :
    (if c then onCall (onCall l (.bstyle .left st)) (.bcolor .left n) else l).font = l.font ∧
    core (wantXf (if c then onCall (onCall l (.bstyle .left st)) (.bcolor .left n) else l)) =
    { core (wantXf l) with left := if c then ⟨st, Xf.Spec.colorCode n⟩ else (wantXf l).left } := by
  by_cases h : c
  · simp [h, h7, core, wantXf, onCall, Xf.Spec.want, last_append, last_cons, last_nil, Xf.Spec.line, Xf.Spec.lineStep, Xf.Spec.pickFont, Xf.Spec.pickFormat,
      Xf.Spec.pickHAlign, Xf.Spec.pickVAlign, Xf.Spec.pickIndent, Xf.Spec.pickOrient, Xf.Spec.pickFill, Xf.Spec.pickFg, Xf.Spec.pickBg,
      Xf.Spec.pickLocked, Xf.Spec.pickHidden, Xf.Spec.pickWrap, Xf.Spec.setsFont, Xf.Spec.setsFormat, Xf.Spec.setsAlign,
      Xf.Spec.setsProtect]
  · simp only [if_neg h]
    exact ⟨trivial, rfl⟩

theorem core_right (l : Look) (c : Prop) [Decidable c] (st n : Nat) (h7 : Xf.Spec.colorCode n % 128 = Xf.Spec.colorCode n) :
    (if c then onCall (onCall l (.bstyle .right st)) (.bcolor .right n) else l).font = l.font ∧
    core (wantXf (if c then onCall (onCall l (.bstyle .right st)) (.bcolor .right n) else l)) =
    { core (wantXf l) with right := if c then ⟨st, Xf.Spec.colorCode n⟩ else (wantXf l).right } := by
  by_cases h : c
  · simp [h, h7, core, wantXf, onCall, Xf.Spec.want, last_append, last_cons, last_nil, Xf.Spec.line, Xf.Spec.lineStep, Xf.Spec.pickFont, Xf.Spec.pickFormat,
      Xf.Spec.pickHAlign, Xf.Spec.pickVAlign, Xf.Spec.pickIndent, Xf.Spec.pickOrient, Xf.Spec.pickFill, Xf.Spec.pickFg, Xf.Spec.pickBg,
      Xf.Spec.pickLocked, Xf.Spec.pickHidden, Xf.Spec.pickWrap, Xf.Spec.setsFont, Xf.Spec.setsFormat, Xf.Spec.setsAlign,
      Xf.Spec.setsProtect]
  · simp only [if_neg h]
    exact ⟨trivial, rfl⟩

theorem core_fill (l : Look) (fg bg fill : Nat) :
    (onCall (onCall (onCall l (.fg fg)) (.fg bg)) (.fill fill)).font = l.font ∧
    core (wantXf (onCall (onCall (onCall l (.fg fg)) (.fg bg)) (.fill fill))) =
    { core (wantXf l) with pattern := Xf.Spec.fillCode fill, fg := Xf.Spec.colorCode bg % 128 } := by
  simp [core, wantXf, onCall, Xf.Spec.want, last_append, last_cons, last_nil, Xf.Spec.line, Xf.Spec.lineStep, Xf.Spec.pickFont, Xf.Spec.pickFormat,
    Xf.Spec.pickHAlign, Xf.Spec.pickVAlign, Xf.Spec.pickIndent, Xf.Spec.pickOrient, Xf.Spec.pickFill, Xf.Spec.pickFg, Xf.Spec.pickBg,
    Xf.Spec.pickLocked, Xf.Spec.pickHidden, Xf.Spec.pickWrap, Xf.Spec.setsFont, Xf.Spec.setsFormat, Xf.Spec.setsAlign,
    Xf.Spec.setsProtect]

/-- The record a box should leave at `k` where `x` was, as far as `core` sees it: its border on the sides of the cell that are
    on the outline of the rectangle, its pattern and its two colours. -/
def boxed (r : Rect) (b : Box) (k : Key) (x : Xf.Seen) : Xf.Seen :=
  { core x with
    top := if k.1 = r.firstRow then ⟨b.border, Xf.Spec.colorCode b.color⟩ else x.top
    bottom := if k.1 = r.lastRow then ⟨b.border, Xf.Spec.colorCode b.color⟩ else x.bottom
    left := if k.2 = r.firstCol then ⟨b.border, Xf.Spec.colorCode b.color⟩ else x.left
    right := if k.2 = r.lastCol then ⟨b.border, Xf.Spec.colorCode b.color⟩ else x.right
    pattern := Xf.Spec.fillCode b.fill
    fg := Xf.Spec.colorCode b.fg
    bg := Xf.Spec.colorCode b.bg }

/-- What the calls of the box change in what a reader sees. -/
theorem box_want (fonts : Nat → Option FontH) (r : Rect) (b : Box) (k : Key) (l : Look) (hc : b.color < 59) (hb : b.bg < 59) :
    (rangeCalls fonts r k (.box b) l).font = l.font ∧
    core (wantXf (rangeCalls fonts r k (.box b) l)) = { boxed r b k (wantXf l) with fg := Xf.Spec.colorCode b.bg, bg := (wantXf l).bg } := by
  have h7 : ∀ n, n < 59 → Xf.Spec.colorCode n % 128 = Xf.Spec.colorCode n := by decide
  have key : ∀ (c : Prop) [Decidable c] (u v : Xf.Op) (l : Look), (if c then [u, v] else []).foldl onCall l = if c then onCall (onCall l u) v else l := by
    intro c _ u v l
    split <;> rfl
  simp only [rangeCalls, List.foldl_append, key]
  generalize e1 : (if k.1 = r.firstRow then onCall (onCall l (.bstyle .top b.border)) (.bcolor .top b.color) else l) = l1
  generalize e2 : (if k.1 = r.lastRow then onCall (onCall l1 (.bstyle .bottom b.border)) (.bcolor .bottom b.color) else l1) = l2
  generalize e3 : (if k.2 = r.firstCol then onCall (onCall l2 (.bstyle .left b.border)) (.bcolor .left b.color) else l2) = l3
  generalize e4 : (if k.2 = r.lastCol then onCall (onCall l3 (.bstyle .right b.border)) (.bcolor .right b.color) else l3) = l4
  have f1 := core_top l (k.1 = r.firstRow) b.border b.color (h7 _ hc)
  have f2 := core_bottom l1 (k.1 = r.lastRow) b.border b.color (h7 _ hc)
  have f3 := core_left l2 (k.2 = r.firstCol) b.border b.color (h7 _ hc)
  have f4 := core_right l3 (k.2 = r.lastCol) b.border b.color (h7 _ hc)
  have f5 := core_fill l4 b.fg b.bg b.fill
  rw [e1] at f1
  rw [e2] at f2
  rw [e3] at f3
  rw [e4] at f4
  have g1 : (wantXf l1).bottom = (wantXf l).bottom := congrArg (·.bottom) f1.2
  have g2 : (wantXf l2).left = (wantXf l).left := (congrArg (·.left) f2.2).trans (congrArg (·.left) f1.2)
  have g3 : (wantXf l3).right = (wantXf l).right :=
    (congrArg (·.right) f3.2).trans ((congrArg (·.right) f2.2).trans (congrArg (·.right) f1.2))
  refine ⟨f5.1.trans (f4.1.trans (f3.1.trans (f2.1.trans f1.1))), f5.2.trans ?_⟩
  rw [f4.2, f3.2, f2.2, f1.2, g1, g2, g3, h7 _ hb]
  rfl

/-- What a box finds at a coordinate: what is there, or a blank cell in the default format and font. -/
def found (s : State κ) (row col : Nat) : Option κ × Xf.Seen × Font.Seen :=
  (shown s row col).getD (none, wantXf plain, wantFont ⟨.dflt, []⟩)

theorem box_cell {s : State κ} {A G} (R : Rel s A G) (hx : s.st.xfs.length ≤ 65536) (r : Rect) (b : Box) (h1 : r.lastRow < 2 ^ 32 - 1)
    (h2 : r.lastCol < 2 ^ 32 - 1) (ho : ArgsOk G.fonts (.box b)) (hroom : RangeRoom s r (.box b)) :
    ∃ t, onRange s r (.box b) = some t ∧ (t.st.xfs.length ≤ 65536 → ∀ row col, Inside r (row, col) →
      ∃ x, shown t row col = some ((found s row col).1, x, (found s row col).2.2) ∧
        core x = { boxed r b (row, col) (found s row col).2.1 with fg := Xf.Spec.colorCode b.bg, bg := (found s row col).2.1.bg }) := by
  obtain ⟨t, A', t1, t2⟩ := range_rel R r h1 h2 (.box b) ho hroom
  refine ⟨t, t1, fun hy row col hi => ?_⟩
  obtain ⟨v, l, hv, hf⟩ : ∃ v l, orBlank G (row, col) = (v, l) ∧
      ∃ h, Styles.Spec.fontOf ⟨G.fonts, G.formats, fun _ => none⟩ l = some h ∧ found s row col = (v, wantXf l, wantFont h) := by
    have e2 := R.shown hx row col
    unfold found orBlank
    cases hg : G.grid (row, col) with
    | none =>
      rw [e2.1, want, hg]
      exact ⟨none, plain, rfl, ⟨.dflt, []⟩, rfl, rfl⟩
    | some c =>
      obtain ⟨v, l⟩ := c
      have hne : shown s row col ≠ none := fun h => by rw [e2.2 h] at hg; simp at hg
      obtain ⟨d, hd⟩ := Option.ne_none_iff_exists'.mp hne
      have e2 := e2.1
      rw [hd] at e2 ⊢
      rw [want, hg, Option.bind_some, eq_comm, Option.map_eq_some_iff] at e2
      obtain ⟨h', e, rfl⟩ := e2
      exact ⟨v, l, rfl, h', e, rfl⟩
  obtain ⟨h, f1, f2⟩ := hf
  have w := box_want G.fonts r b (row, col) l ho.2.1 ho.2.2.2.1
  rw [f2, (t2.shown hy row col).1, want]
  simp only [if_pos hi, here_eq, Option.bind_some, hv]
  refine ⟨_, ?_, w.2⟩
  have : Styles.Spec.fontOf ⟨G.fonts, G.formats, fun _ => none⟩ (rangeCalls G.fonts r (row, col) (.box b) l) = some h := by
    rw [← f1]
    unfold Styles.Spec.fontOf
    rw [w.1]
  rw [this]
  rfl

/-- C53, but for the colours of the filling: after every program within the conditions of `c42_sheet_partial`, drawing a box
    gives every cell of the rectangle the border on exactly its sides on the outline, and the pattern; the contents, the font and
    all else stay as they were (a blank cell is made where there was none).
    Missing for the full claim: the background colour, which is not set, and the foreground colour, which is the second of the two
    given (`c53_background`); and the conditions of C42. -/
theorem c53_box_partial (acts : List (Act κ)) (s0 s : State κ) (h0 : init κ = some s0) (hf : Fine s0 (start κ) acts)
    (hs : steps s0 acts = some s) (r : Rect) (b : Box) (h1 : r.lastRow < 2 ^ 32 - 1) (h2 : r.lastCol < 2 ^ 32 - 1)
    (ho : ArgsOk (asked s0 (start κ) acts).fonts (.box b)) (hroom : RangeRoom s r (.box b)) (hx : s.st.xfs.length ≤ 65536) :
    ∃ t, onRange s r (.box b) = some t ∧ (t.st.xfs.length ≤ 65536 → ∀ row col, Inside r (row, col) →
      ∃ x, shown t row col = some ((found s row col).1, x, (found s row col).2.2) ∧
        core x = { boxed r b (row, col) (found s row col).2.1 with fg := x.fg, bg := x.bg }) := by
  obtain ⟨A, R⟩ := at_state h0 hf hs
  obtain ⟨t, t1, t2⟩ := box_cell R hx r b h1 h2 ho hroom
  refine ⟨t, t1, fun hy row col hi => ?_⟩
  obtain ⟨x, x1, x2⟩ := t2 hy row col hi
  refine ⟨x, x1, ?_⟩
  have e1 : x.fg = Xf.Spec.colorCode b.bg := congrArg (·.fg) x2
  have e2 : x.bg = (found s row col).2.1.bg := congrArg (·.bg) x2
  rw [e1, e2]
  exact x2

/-- C53 is false for the colours: whatever the box and the program before it, the foreground of every cell becomes the colour
    given for the background, and the background stays what it was. -/
theorem c53_background (acts : List (Act κ)) (s0 s : State κ) (h0 : init κ = some s0) (hf : Fine s0 (start κ) acts)
    (hs : steps s0 acts = some s) (r : Rect) (b : Box) (h1 : r.lastRow < 2 ^ 32 - 1) (h2 : r.lastCol < 2 ^ 32 - 1)
    (ho : ArgsOk (asked s0 (start κ) acts).fonts (.box b)) (hroom : RangeRoom s r (.box b)) (hx : s.st.xfs.length ≤ 65536) :
    ∃ t, onRange s r (.box b) = some t ∧ (t.st.xfs.length ≤ 65536 → ∀ row col, Inside r (row, col) →
      ∃ v x f, shown t row col = some (v, x, f) ∧ x.fg = Xf.Spec.colorCode b.bg ∧ x.bg = (found s row col).2.1.bg) := by
  obtain ⟨A, R⟩ := at_state h0 hf hs
  obtain ⟨t, t1, t2⟩ := box_cell R hx r b h1 h2 ho hroom
  refine ⟨t, t1, fun hy row col hi => ?_⟩
  obtain ⟨x, x1, x2⟩ := t2 hy row col hi
  exact ⟨_, x, _, x1, congrArg (·.fg) x2, congrArg (·.bg) x2⟩

/-! ### A program that meets the conditions -/

def callB (fonts : Nat → Option FontH) (o : Xf.Op) : Bool :=
  decide (Xf.Spec.Valid o) && (match o with | .font (some p) => (fonts p).isSome | _ => true)

theorem callB_ok {fonts : Nat → Option FontH} {o : Xf.Op} (h : callB fonts o = true) : CallOk fonts o := by
  simp only [callB, Bool.and_eq_true, decide_eq_true_eq] at h
  refine ⟨h.1, ?_⟩
  rintro p rfl
  exact Option.isSome_iff_exists.mp h.2

def argsB (fonts : Nat → Option FontH) : RangeOp → Bool
  | .call o => callB fonts o
  | .font o => decide (Font.Spec.Valid o)
  | .color n => decide (n < 59)
  | .box b => decide (b.border < 8) && decide (b.color < 59) && decide (b.fg < 59) && decide (b.bg < 59) && decide (b.fill < 19)

theorem argsB_ok {fonts : Nat → Option FontH} {o : RangeOp} (h : argsB fonts o = true) : ArgsOk fonts o := by
  cases o with
  | call o => exact callB_ok h
  | font o => simp only [argsB, decide_eq_true_eq] at h; exact h
  | color n => simp only [argsB, decide_eq_true_eq] at h; exact h
  | box b =>
    simp only [argsB, Bool.and_eq_true, decide_eq_true_eq] at h
    exact ⟨h.1.1.1.1, h.1.1.1.2, h.1.1.2, h.1.2, h.2⟩

def roomB (s : Styles.State) : Bool := decide (s.fonts.length < 65535) && decide (s.xfs.length ≤ 65536)

theorem roomB_ok {s : Styles.State} (h : roomB s = true) : Room s := by
  simp only [roomB, Bool.and_eq_true, decide_eq_true_eq] at h
  exact h

def loopB {σ : Type} (P : σ → Bool) (body : Nat → Nat → σ → Option σ) : List Key → σ → Bool
  | [], _ => true
  | k :: r, s => P s && (match body k.1 k.2 s with | none => true | some t => loopB P body r t)

theorem loopB_ok {σ : Type} (P : σ → Bool) (Q : σ → Prop) (hPQ : ∀ s, P s = true → Q s) (body : Nat → Nat → σ → Option σ) (ks : List Key) (s : σ)
    (h : loopB P body ks s = true) : okLoop Q body ks s := by
  induction ks generalizing s with
  | nil => trivial
  | cons k r ih =>
    simp only [loopB, Bool.and_eq_true] at h
    refine ⟨hPQ _ h.1, fun t ht => ih t ?_⟩
    have := h.2
    rw [ht] at this
    exact this

def rangeRoomB (s : State κ) (r : Rect) : RangeOp → Bool
  | .call o => loopB (fun s => roomB s.st) (callBody o) (keys r) s
  | .font o => loopB (fun s => roomB s.st) (fontBody o) (keys r) s
  | .color n => loopB (fun w => roomB w.1.st) (memoBody (fun _ _ x => x.flags) (colorOps n)) (keys r) (s, [])
  | .box b => loopB (fun w => roomB w.1.st) (memoBody (boxTag r) (boxOps r b)) (keys r) (s, [])

theorem rangeRoomB_ok {s : State κ} {r : Rect} {o : RangeOp} (h : rangeRoomB s r o = true) : RangeRoom s r o := by
  cases o <;> exact loopB_ok _ _ (fun _ => roomB_ok) _ _ _ h

def okB (s : State κ) (G : Spec.State κ) : Act κ → Bool
  | .newFont n => decide (n.length < 256)
  | .font p o => (G.fonts p).isSome && decide (Font.Spec.Valid o)
  | .newXf => true
  | .xf q o => (G.formats q).isSome && callB G.fonts o && (s.st.xfs[q]?).all (!·.used)
  | .put _ _ _ none => true
  | .put _ _ _ (some q) => (G.formats q).isSome && (s.st.xfs[q]?).all (!Styles.dead ·)
  | .cell row col o => (G.grid (row, col)).isSome && callB G.fonts o
  | .cellFont row col o => (G.grid (row, col)).isSome && decide (Font.Spec.Valid o)
  | .range r o => decide (r.lastRow < 2 ^ 32 - 1) && decide (r.lastCol < 2 ^ 32 - 1) && argsB G.fonts o && rangeRoomB s r o

theorem okB_ok {s : State κ} {G : Spec.State κ} {a : Act κ} (h : okB s G a = true) : Ok s G a := by
  cases a with
  | newFont n => simp only [okB, decide_eq_true_eq] at h; exact h
  | newXf => trivial
  | font p o =>
    simp only [okB, Bool.and_eq_true, decide_eq_true_eq] at h
    exact ⟨Option.isSome_iff_exists.mp h.1, h.2⟩
  | xf q o =>
    simp only [okB, Bool.and_eq_true] at h
    refine ⟨Option.isSome_iff_exists.mp h.1.1, callB_ok h.1.2, fun e he => ?_⟩
    have := h.2
    rw [he] at this
    simpa using this
  | put row col v q =>
    cases q with
    | none => trivial
    | some q =>
      simp only [okB, Bool.and_eq_true] at h
      refine ⟨Option.isSome_iff_exists.mp h.1, fun e he => ?_⟩
      have := h.2
      rw [he] at this
      simpa using this
  | cell row col o =>
    simp only [okB, Bool.and_eq_true] at h
    exact ⟨Option.isSome_iff_exists.mp h.1, callB_ok h.2⟩
  | cellFont row col o =>
    simp only [okB, Bool.and_eq_true, decide_eq_true_eq] at h
    exact ⟨Option.isSome_iff_exists.mp h.1, h.2⟩
  | range r o =>
    simp only [okB, Bool.and_eq_true, decide_eq_true_eq] at h
    exact ⟨h.1.1.1, h.1.1.2, argsB_ok h.1.2, rangeRoomB_ok h.2⟩

def fineB (s : State κ) (G : Spec.State κ) : List (Act κ) → Bool
  | [] => true
  | a :: r => okB s G a && roomB s.st && (match step s a with | none => true | some t => fineB t (Spec.step (handle s a) G a) r)

theorem fineB_ok {s : State κ} {G : Spec.State κ} {acts : List (Act κ)} (h : fineB s G acts = true) : Fine s G acts := by
  induction acts generalizing s G with
  | nil => trivial
  | cons a r ih =>
    simp only [fineB, Bool.and_eq_true] at h
    refine ⟨okB_ok h.1.1, roomB_ok h.1.2, fun t ht => ih ?_⟩
    have := h.2
    rw [ht] at this
    exact this

/-- Cells with and without a format, a bold range over some of them, and a coloured one. -/
def sample : List (Act Nat) :=
  [.newFont [65], .newXf, .xf 21 (.font (some 5)), .put 1 1 (some 7) (some 21), .put 2 2 (some 8) none, .cell 2 2 (.halign 2),
   .range ⟨1, 1, 2, 3⟩ (.font (.bold 0)), .range ⟨2, 2, 3, 4⟩ (.color 5), .cellFont 1 1 (.italic true), .font 5 (.height 300)]

/-- A box over some of the cells of `sample`. -/
def sampleBox : Box := ⟨1, 2, 3, 9, 14⟩

example : ∃ s0 s, init Nat = some s0 ∧ Fine s0 (start Nat) sample ∧ steps s0 sample = some s ∧
    ArgsOk (asked s0 (start Nat) sample).fonts (.box sampleBox) ∧ RangeRoom s ⟨1, 0, 3, 2⟩ (.box sampleBox) ∧ s.st.xfs.length ≤ 65536 := by
  obtain ⟨s0, h0, A, R⟩ := init_rel (κ := Nat)
  have h : ((init Nat).map fun s => fineB s (start Nat) sample) = some true := by decide +kernel
  rw [h0] at h
  have hf := fineB_ok (Option.some.inj h)
  obtain ⟨s, A', hs, R'⟩ := sim_all R sample hf
  have h2 : (((init Nat).bind (steps · sample)).map fun s => rangeRoomB s ⟨1, 0, 3, 2⟩ (.box sampleBox) && decide (s.st.xfs.length ≤ 65536)) = some true := by
    decide +kernel
  rw [h0, Option.bind_some, hs, Option.map_some] at h2
  have h2 := Option.some.inj h2
  simp only [Bool.and_eq_true, decide_eq_true_eq] at h2
  exact ⟨s0, s, h0, hf, hs, argsB_ok rfl, rangeRoomB_ok h2.1, h2.2⟩

/-- What a reader sees of a cell: contents, weight, the styles of top, bottom, left and right, pattern, foreground, background. -/
def glance (s : State Nat) (row col : Nat) : Option (List Nat) :=
  (shown s row col).map fun c =>
    [c.1.getD 0, c.2.2.weight, c.2.1.top.style, c.2.1.bottom.style, c.2.1.left.style, c.2.1.right.style, c.2.1.pattern, c.2.1.fg, c.2.1.bg]

example : (((init Nat).bind (steps · (sample ++ [.range ⟨1, 0, 3, 2⟩ (.box sampleBox)]))).map fun s => (glance s 2 2, glance s 3 0, glance s 3 3)) =
    some (some [8, 700, 0, 0, 0, 1, 3, 12, 65], some [0, 400, 0, 1, 1, 0, 3, 12, 65], some [0, 400, 0, 0, 0, 0, 1, 56, 65]) := by decide +kernel

end Xls.Range
