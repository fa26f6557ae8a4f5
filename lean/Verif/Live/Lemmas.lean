import Verif.Live.Spec
/-
Nothing but saving looks at what cells and validations point to.
-/
namespace Xls.Live
open Xls.Biff Xls.Whole Xls.Cells Xls.Formula
open Xls.Page (Act)
open Xls.Range (Rect RangeOp Cache each for32)

variable {α β : Type}

/-! ### Ordered sets -/

theorem setInsert_map (k : α → Key) (k' : β → Key) (m : α → β) (hk : ∀ a, k' (m a) = k a) (x : α) (l : List α) :
    setInsert k' (m x) (l.map m) = ((setInsert k x l).1.map m, (setInsert k x l).2.map m) := by
  induction l with
  | nil => rfl
  | cons y r ih =>
    rw [List.map_cons]
    simp only [setInsert, hk]
    by_cases h1 : klt (k x) (k y) = true
    · rw [if_pos h1, if_pos h1]; rfl
    · rw [if_neg h1, if_neg h1]
      by_cases h2 : klt (k y) (k x) = true
      · rw [if_pos h2, if_pos h2, ih]; rfl
      · rw [if_neg h2, if_neg h2]; rfl

theorem setFind_map (k : α → Key) (k' : β → Key) (m : α → β) (hk : ∀ a, k' (m a) = k a) (q : Key) (l : List α) :
    setFind k' q (l.map m) = (setFind k q l).map m := by
  induction l with
  | nil => rfl
  | cons y r ih =>
    rw [List.map_cons]
    simp only [setFind, hk]
    by_cases h : (!klt q (k y) && !klt (k y) q) = true
    · rw [if_pos h, if_pos h]; rfl
    · rw [if_neg h, if_neg h, ih]

theorem setErase_map (k : α → Key) (k' : β → Key) (m : α → β) (hk : ∀ a, k' (m a) = k a) (q : Key) (l : List α) :
    setErase k' q (l.map m) = (setErase k q l).map m := by
  induction l with
  | nil => rfl
  | cons y r ih =>
    rw [List.map_cons]
    simp only [setErase, hk]
    by_cases h : (!klt q (k y) && !klt (k y) q) = true
    · rw [if_pos h, if_pos h]
    · rw [if_neg h, if_neg h, List.map_cons, ih]

/-! ### Cells -/

variable {f : Val → Val} {g : Act → Act}

/-- A cell with what it points to. -/
def cellOf (f : Val → Val) (c : WCell) : WCell := ⟨c.id, c.row, c.col, (c.val.1, f c.val.2)⟩

theorem sheetOf_cells (s : Cells.Sheet (Nat × Val)) : (sheetOf f s).cells = s.cells.map (cellOf f) := rfl

theorem addLoop_map (c : WCell) (n : Nat) (l : List WCell) :
    addLoop (cellOf f c) n (l.map (cellOf f)) = (addLoop c n l).map fun p => (p.1.map (cellOf f), p.2.map (cellOf f)) := by
  induction n generalizing l with
  | zero => rfl
  | succ n ih =>
    simp only [addLoop]
    rw [setInsert_map Cell.key Cell.key (cellOf f) (fun _ => rfl)]
    cases h : setInsert Cell.key c l with
    | mk l' o =>
      cases o with
      | none => rfl
      | some old =>
        simp only [Option.map_some]
        rw [show (cellOf f old).key = old.key from rfl, setErase_map Cell.key Cell.key (cellOf f) (fun _ => rfl), ih]
        cases addLoop c n (setErase Cell.key old.key l') with
        | none => rfl
        | some p => rfl

theorem addCell_map (s : Cells.Sheet (Nat × Val)) (c : WCell) :
    (sheetOf f s).addCell (cellOf f c) = (s.addCell c).map fun p => (sheetOf f p.1, p.2.map (cellOf f)) := by
  unfold Sheet.addCell
  rw [sheetOf_cells, List.length_map, addLoop_map]
  cases addLoop c (s.cells.length + 2) s.cells with
  | none => rfl
  | some p => rfl

theorem findCell_map (s : Cells.Sheet (Nat × Val)) (row col : Nat) : (sheetOf f s).findCell row col = (s.findCell row col).map (cellOf f) :=
  setFind_map Cell.key Cell.key (cellOf f) (fun _ => rfl) ..

/-- Labels are not touched. -/
def Mild (f : Val → Val) : Prop := f .blank = .blank ∧ ∀ v, (f v).label = v.label

theorem toL_map (hf : Mild f) (c : WCell) : toL (cellOf f c) = toL c := by
  simp [toL, cellOf, hf.2]

def bookOf (f : Val → Val) (b : Book) : Book := { b with sheets := fun i => sheetOf f (b.sheets i) }

theorem put_map (hf : Mild f) (b : Book) (i : Nat) (c : Cell Val) :
    (bookOf f b).put i ⟨c.id, c.row, c.col, f c.val⟩ = (b.put i c).map (bookOf f) := by
  unfold Book.put
  rw [show stamp i (⟨c.id, c.row, c.col, f c.val⟩ : Cell Val) = cellOf f (stamp i c) from rfl,
    show (bookOf f b).sheets i = sheetOf f (b.sheets i) from rfl, addCell_map]
  cases (b.sheets i).addCell (stamp i c) with
  | none => rfl
  | some p =>
    simp only [Option.map_some, Option.some.injEq]
    unfold bookOf
    simp only [Book.mk.injEq]
    refine ⟨?_, ?_⟩
    · funext j
      by_cases h : j = i
      · rw [if_pos h, if_pos h]
      · rw [if_neg h, if_neg h]
    · rw [toL_map hf, List.foldl_map]
      congr 1
      funext l d
      rw [toL_map hf]

theorem dead_map (b : Book) (i : Nat) (c : Cell Val) : Look.dead (bookOf f b) i ⟨c.id, c.row, c.col, f c.val⟩ = Look.dead b i c := by
  unfold Look.dead
  rw [show stamp i (⟨c.id, c.row, c.col, f c.val⟩ : Cell Val) = cellOf f (stamp i c) from rfl,
    show (bookOf f b).sheets i = sheetOf f (b.sheets i) from rfl, addCell_map]
  cases (b.sheets i).addCell (stamp i c) with
  | none => rfl
  | some p =>
    simp only [Option.map_some, List.map_map]
    rfl

/-! ### Calls -/

/-- A call with what it points to. -/
def lookCall (f : Val → Val) : Look.Call → Look.Call
  | .put i row col v q => .put i row col (f v) q
  | c => c

def progCall (f : Val → Val) (g : Act → Act) : Prog.Call → Prog.Call
  | .look c => .look (lookCall f c)
  | .page i a => .page i (g a)

def deskCall (f : Val → Val) (g : Act → Act) : Desk.Call → Desk.Call
  | .on c => .on (progCall f g c)
  | c => c

def areaCall (f : Val → Val) (g : Act → Act) : Area.Call → Area.Call
  | .desk c => .desk (deskCall f g c)
  | c => c

def lookOf (f : Val → Val) (s : Look.State) : Look.State := { s with book := bookOf f s.book }

def progOf (f : Val → Val) (g : Act → Act) (s : Prog.State) : Prog.State := { s with look := lookOf f s.look, acts := fun i => (s.acts i).map g }

theorem resolve_eq (s : Desk.State) : resolve f g s = { s with prog := progOf f g s.prog } := rfl

theorem look_map (hf : Mild f) (s : Look.State) (c : Look.Call) : Look.step (lookOf f s) (lookCall f c) = (Look.step s c).map (lookOf f) := by
  cases c with
  | put i row col v q =>
    simp only [lookCall, Look.step]
    have e1 := put_map hf s.book i ⟨s.styles.cells.length, row, col, v⟩
    have e2 := dead_map (f := f) s.book i ⟨s.styles.cells.length, row, col, v⟩
    show (((bookOf f s.book).put i ⟨s.styles.cells.length, row, col, f v⟩).bind fun b =>
      ((Look.dead (bookOf f s.book) i ⟨s.styles.cells.length, row, col, f v⟩).foldlM Styles.destroy (Styles.newCell s.styles q)).map fun t =>
        (⟨b, t, s.formats⟩ : Look.State)) = _
    rw [e1, e2]
    cases s.book.put i ⟨s.styles.cells.length, row, col, v⟩ with
    | none => rfl
    | some b =>
      simp only [Option.map_some, Option.bind_some]
      cases (Look.dead s.book i ⟨s.styles.cells.length, row, col, v⟩).foldlM Styles.destroy (Styles.newCell s.styles q) with
      | none => rfl
      | some t => rfl
  | style a =>
    simp only [lookCall, Look.step]
    show (Styles.step s.styles a).map _ = _
    cases Styles.step s.styles a with
    | none => rfl
    | some t => rfl
  | format code => rfl

/-- Only validations are touched. -/
def Quiet (g : Act → Act) : Prop := (∀ i a, Prog.slotOf i (g a) = Prog.slotOf i a) ∧ (∀ i a, Desk.wbOp (.on (.page i (g a))) = Desk.wbOp (.on (.page i a))) ∧
  ∀ i a, Desk.place (.on (.page i (g a))) = Desk.place (.on (.page i a))

theorem give_map (s : Prog.State) (k : Prog.Slot) (x : Option Nat) : Prog.give (progOf f g s) k x = (Prog.give s k x).map (progOf f g) := by
  unfold Prog.give
  show (match s.held k, x with
    | none, none => some (progOf f g s)
    | none, some q => some { progOf f g s with look := { lookOf f s.look with styles := Styles.newCell s.look.styles (some q) }, held := Prog.put s.held k (some s.look.styles.cells.length) }
    | some c, none => ((Styles.destroy s.look.styles c).bind (Prog.again k (s.look.styles.cells[c]?).join)).map fun t =>
        { progOf f g s with look := { lookOf f s.look with styles := t }, held := Prog.put s.held k none }
    | some c, some q => ((Styles.setXf s.look.styles c q).bind (Prog.again k (s.look.styles.cells[c]?).join)).map fun t =>
        { progOf f g s with look := { lookOf f s.look with styles := t } }) = _
  cases s.held k with
  | none => cases x <;> rfl
  | some c =>
    cases x with
    | none =>
      simp only
      cases (Styles.destroy s.look.styles c).bind (Prog.again k (s.look.styles.cells[c]?).join) <;> rfl
    | some q =>
      simp only
      cases (Styles.setXf s.look.styles c q).bind (Prog.again k (s.look.styles.cells[c]?).join) <;> rfl

theorem acts_map (s : Prog.State) (i : Nat) (a : Act) :
    ({ progOf f g s with acts := Prog.put (progOf f g s).acts i ((progOf f g s).acts i ++ [g a]) } : Prog.State) =
      progOf f g { s with acts := Prog.put s.acts i (s.acts i ++ [a]) } := by
  unfold progOf
  simp only [Prog.State.mk.injEq, true_and]
  funext j
  unfold Prog.put
  by_cases h : j = i
  · rw [if_pos h, if_pos h, List.map_append]; rfl
  · rw [if_neg h, if_neg h]

theorem prog_map (hf : Mild f) (hg : Quiet g) (s : Prog.State) (c : Prog.Call) :
    Prog.step (progOf f g s) (progCall f g c) = (Prog.step s c).map (progOf f g) := by
  cases c with
  | look c =>
    simp only [progCall, Prog.step]
    rw [show (progOf f g s).look = lookOf f s.look from rfl, look_map hf]
    cases Look.step s.look c <;> rfl
  | page i a =>
    simp only [progCall, Prog.step, hg.1]
    cases Prog.slotOf i a with
    | none =>
      simp only [Option.map_some, Option.some.injEq]
      exact acts_map s i a
    | some p =>
      simp only [give_map]
      cases Prog.give s p.1 p.2 with
      | none => rfl
      | some t =>
        simp only [Option.map_some, Option.some.injEq]
        exact acts_map t i a

theorem target_map (c : Desk.Call) : Desk.target (deskCall f g c) = Desk.target c := by
  cases c with
  | on c =>
    cases c with
    | look c => cases c <;> rfl
    | page i a => rfl
  | _ => rfl

theorem wbOp_map (hg : Quiet g) (c : Desk.Call) : Desk.wbOp (deskCall f g c) = Desk.wbOp c := by
  cases c with
  | on c =>
    cases c with
    | look c => cases c <;> rfl
    | page i a => exact hg.2.1 i a
  | _ => rfl

theorem place_map (hg : Quiet g) (c : Desk.Call) : Desk.place (deskCall f g c) = Desk.place c := by
  cases c with
  | on c =>
    cases c with
    | look c => cases c <;> rfl
    | page i a => exact hg.2.2 i a
  | _ => rfl

theorem desk_map (hf : Mild f) (hg : Quiet g) (s : Desk.State) (c : Desk.Call) :
    Desk.step (resolve f g s) (deskCall f g c) = (Desk.step s c).map (resolve f g) := by
  unfold Desk.step
  rw [target_map, wbOp_map hg, place_map hg, show (resolve f g s).wb = s.wb from rfl]
  by_cases ht : ((Desk.target c).all (· < s.wb.sheets.length)) = true
  · rw [if_pos ht, if_pos ht]
    cases Desk.wbOp c with
    | none =>
      simp only [Option.bind_some]
      cases c with
      | on c =>
        simp only [deskCall]
        rw [show (resolve f g s).prog = progOf f g s.prog from rfl, prog_map hf hg]
        cases Prog.step s.prog c <;> rfl
      | _ => rfl
    | some o =>
      simp only
      cases s.wb.op o with
      | none => rfl
      | some w =>
        simp only [Option.bind_some]
        cases c with
        | on c =>
          simp only [deskCall]
          rw [show (resolve f g s).prog = progOf f g s.prog from rfl, prog_map hf hg]
          cases Prog.step s.prog c <;> rfl
        | _ => rfl
  · rw [if_neg ht, if_neg ht]; rfl

theorem desk_steps_map (hf : Mild f) (hg : Quiet g) (l : List Desk.Call) (s : Desk.State) :
    Desk.steps (resolve f g s) (l.map (deskCall f g)) = (Desk.steps s l).map (resolve f g) := by
  induction l generalizing s with
  | nil => rfl
  | cons c r ih =>
    simp only [List.map_cons, Desk.steps, desk_map hf hg]
    cases Desk.step s c with
    | none => rfl
    | some t => exact ih t

/-! ### Ranges -/

theorem for32_map {σ τ : Type} (m : σ → τ) (last : Nat) (b : Nat → σ → Option σ) (b' : Nat → τ → Option τ) (h : ∀ i s, b' i (m s) = (b i s).map m)
    (n i : Nat) (s : σ) : for32 last b' n i (m s) = (for32 last b n i s).map m := by
  induction n generalizing i s with
  | zero => rfl
  | succ n ih =>
    simp only [for32, h]
    by_cases hi : i ≤ last
    · rw [if_pos hi, if_pos hi]
      cases b i s with
      | none => rfl
      | some t => exact ih _ t
    · rw [if_neg hi, if_neg hi]; rfl

theorem each_map {σ τ : Type} (m : σ → τ) (r : Rect) (b : Nat → Nat → σ → Option σ) (b' : Nat → Nat → τ → Option τ)
    (h : ∀ i j s, b' i j (m s) = (b i j s).map m) (s : σ) : each r b' (m s) = (each r b s).map m :=
  for32_map m _ _ _ (fun i s => for32_map m _ _ _ (h i) _ _ s) _ _ s

theorem blank_map (hf : Mild f) (hg : Quiet g) (s : Desk.State) (i row col : Nat) :
    Desk.step (resolve f g s) (Area.blankAt i row col) = (Desk.step s (Area.blankAt i row col)).map (resolve f g) := by
  have := desk_map hf hg s (Area.blankAt i row col)
  simp only [Area.blankAt, deskCall, progCall, lookCall, hf.1] at this
  exact this

theorem styled_map (hf : Mild f) (hg : Quiet g) (s : Desk.State) (a : Styles.Action) :
    Desk.step (resolve f g s) (Area.styled a) = (Desk.step s (Area.styled a)).map (resolve f g) := desk_map hf hg s (Area.styled a)

theorem findOrBlank_map (hf : Mild f) (hg : Quiet g) (s : Desk.State) (i row col : Nat) :
    Area.findOrBlank (resolve f g s) i row col = (Area.findOrBlank s i row col).map fun p => (resolve f g p.1, p.2) := by
  unfold Area.findOrBlank
  rw [show (resolve f g s).prog.look.book.sheets i = sheetOf f (s.prog.look.book.sheets i) from rfl, findCell_map]
  cases (s.prog.look.book.sheets i).findCell row col with
  | some x => rfl
  | none =>
    simp only [Option.map_none]
    rw [blank_map hf hg]
    cases Desk.step s (Area.blankAt i row col) <;> rfl

theorem callBody_map (hf : Mild f) (hg : Quiet g) (i : Nat) (o : Xf.Op) (row col : Nat) (s : Desk.State) :
    Area.callBody i o row col (resolve f g s) = (Area.callBody i o row col s).map (resolve f g) := by
  unfold Area.callBody
  rw [findOrBlank_map hf hg]
  cases Area.findOrBlank s i row col with
  | none => rfl
  | some p => exact styled_map hf hg p.1 _

theorem fontBody_map (hf : Mild f) (hg : Quiet g) (i : Nat) (o : Font.FOp) (row col : Nat) (s : Desk.State) :
    Area.fontBody i o row col (resolve f g s) = (Area.fontBody i o row col s).map (resolve f g) := by
  unfold Area.fontBody
  rw [findOrBlank_map hf hg]
  cases Area.findOrBlank s i row col with
  | none => rfl
  | some p => exact styled_map hf hg p.1 _

theorem memoBody_map (hf : Mild f) (hg : Quiet g) (i : Nat) (tag : Nat → Nat → Xf.Xf → Nat) (ops : Nat → Nat → List Xf.Op) (row col : Nat)
    (w : Desk.State × Cache) : Area.memoBody i tag ops row col (resolve f g w.1, w.2) =
      (Area.memoBody i tag ops row col w).map fun w => (resolve f g w.1, w.2) := by
  unfold Area.memoBody
  rw [findOrBlank_map hf hg]
  cases Area.findOrBlank w.1 i row col with
  | none => rfl
  | some r =>
    simp only [Option.map_some, Option.bind_some]
    rw [show (resolve f g r.1).prog.look.styles = r.1.prog.look.styles from rfl]
    cases (r.1.prog.look.styles.cells[r.2]?).join with
    | none => rfl
    | some q =>
      simp only [Option.bind_some]
      cases r.1.prog.look.styles.xfs[q]? with
      | none => rfl
      | some e =>
        simp only [Option.bind_some]
        cases w.2.lookup (e.index, tag row col e.xf) with
        | some p =>
          simp only
          rw [styled_map hf hg]
          cases Desk.step r.1 (Area.styled (.setXf r.2 p)) <;> rfl
        | none =>
          simp only
          have := desk_steps_map hf hg ((ops row col).map fun o => Area.styled (.cell r.2 o)) r.1
          rw [List.map_map, show (deskCall f g ∘ fun o => Area.styled (.cell r.2 o)) = fun o => Area.styled (.cell r.2 o) from rfl] at this
          rw [this]
          cases Desk.steps r.1 ((ops row col).map fun o => Area.styled (.cell r.2 o)) with
          | none => rfl
          | some t =>
            simp only [Option.map_some, Option.bind_some]
            rw [show (resolve f g t).prog.look.styles = t.prog.look.styles from rfl]
            cases (t.prog.look.styles.cells[r.2]?).join <;> rfl

theorem onRange_map (hf : Mild f) (hg : Quiet g) (s : Desk.State) (i : Nat) (r : Rect) (o : RangeOp) :
    Area.onRange (resolve f g s) i r o = (Area.onRange s i r o).map (resolve f g) := by
  cases o with
  | call o => exact each_map _ r _ _ (fun a b s => callBody_map hf hg i o a b s) s
  | font o => exact each_map _ r _ _ (fun a b s => fontBody_map hf hg i o a b s) s
  | color n =>
    simp only [Area.onRange]
    rw [each_map (fun w : Desk.State × Cache => (resolve f g w.1, w.2)) r _ _ (fun a b w => memoBody_map hf hg i _ _ a b w) (s, [])]
    cases each r (Area.memoBody i (fun _ _ x => x.flags) (Range.colorOps n)) (s, []) <;> rfl
  | box b =>
    simp only [Area.onRange]
    rw [each_map (fun w : Desk.State × Cache => (resolve f g w.1, w.2)) r _ _ (fun a b w => memoBody_map hf hg i _ _ a b w) (s, [])]
    cases each r (Area.memoBody i (Range.boxTag r) (Range.boxOps r b)) (s, []) <;> rfl

theorem area_map (hf : Mild f) (hg : Quiet g) (s : Desk.State) (c : Area.Call) :
    Area.step (resolve f g s) (areaCall f g c) = (Area.step s c).map (resolve f g) := by
  cases c with
  | desk c => exact desk_map hf hg s c
  | range i r o =>
    simp only [areaCall, Area.step]
    rw [show (resolve f g s).wb = s.wb from rfl, onRange_map hf hg]
    by_cases h : i < s.wb.sheets.length
    · rw [if_pos h, if_pos h]
    · rw [if_neg h, if_neg h]; rfl

/-! ### Pointers -/

theorem valOf_mild (F : List (Nat × Stack)) : Mild (valOf F) := ⟨rfl, fun v => by cases v <;> rfl⟩

theorem actOf_quiet (F : List (Nat × Stack)) : Quiet (actOf F) := by
  refine ⟨fun i a => ?_, fun i a => ?_, fun i a => ?_⟩ <;> cases a with
  | call c => cases c <;> rfl
  | _ => rfl

theorem deref_ptr (F : List (Nat × Stack)) (h : Nat) : deref F (ptr h) = ((F[h]?).map (·.2.bytes)).getD [] := by
  simp [deref, ptr]

theorem bare_map (F : List (Nat × Stack)) (c : Area.Call) (h : bare c = true) : areaCall (valOf F) (actOf F) c = c := by
  cases c with
  | range i r o => rfl
  | desk c =>
    cases c with
    | on c =>
      cases c with
      | look c =>
        cases c with
        | put i row col v q => cases v <;> first | rfl | cases h
        | _ => rfl
      | page i a =>
        cases a with
        | call c =>
          cases c with
          | validate v =>
            simp only [bare, Bool.and_eq_true, Option.isNone_iff_eq_none] at h
            simp only [areaCall, deskCall, progCall, actOf, h.1, h.2, condOf, Option.map_none]
            cases v
            simp only at h
            rw [h.1, h.2]
          | _ => rfl
        | _ => rfl
    | _ => rfl

theorem point_map (F : List (Nat × Stack)) (v : Sheet.DVal) (c1 c2 : Option Nat) :
    actOf F (.call (.validate (point v c1 c2))) = .call (.validate { v with
      cond1 := c1.map fun h => ((deref F (ptr h)).length, deref F (ptr h)), cond2 := c2.map fun h => ((deref F (ptr h)).length, deref F (ptr h)) }) := by
  simp only [actOf, point, condOf, Option.map_map]
  rfl

/-! ### The run -/

/-- The formulas that a program makes and fills. -/
theorem formulas_run (p : List Call) (s t : State) (h : steps s p = some t) (k : Nat) :
    t.formulas[k]? = ((s.formulas ++ (madeFor p).map fun i => (i, ({} : Stack)))[k]?).map fun f => (f.1, (f.2.pushes (some f.1) (pushesOn k p)).1) := by
  induction p generalizing s with
  | nil =>
    cases Option.some.inj h
    simp only [madeFor, pushesOn, List.filterMap_nil, List.map_nil, List.append_nil, Stack.pushes]
    cases t.formulas[k]? <;> rfl
  | cons c r ih =>
    rw [steps] at h
    obtain ⟨u, hu, hr⟩ := Option.bind_eq_some_iff.mp h
    have := ih u hr
    have same : u.formulas = s.formulas → madeFor (c :: r) = madeFor r → pushesOn k (c :: r) = pushesOn k r →
        t.formulas[k]? = ((s.formulas ++ (madeFor (c :: r)).map fun i => (i, ({} : Stack)))[k]?).map fun f => (f.1, (f.2.pushes (some f.1) (pushesOn k (c :: r))).1) := by
      intro e1 e2 e3
      rw [e2, e3, ← e1]
      exact this
    cases c with
    | other c =>
      simp only [step] at hu
      split at hu
      · obtain ⟨d, -, rfl⟩ := Option.map_eq_some_iff.mp hu
        exact same rfl rfl rfl
      · cases hu
    | make i =>
      simp only [step] at hu
      split at hu
      · cases Option.some.inj hu
        rw [this, show madeFor (.make i :: r) = i :: madeFor r from rfl, show pushesOn k (.make i :: r) = pushesOn k r from rfl, List.map_cons,
          List.append_assoc, List.singleton_append]
      · cases hu
    | push j c =>
      simp only [step] at hu
      obtain ⟨q, hq, rfl⟩ := Option.map_eq_some_iff.mp hu
      rw [this]
      have hj : j < s.formulas.length := by
        rcases Nat.lt_or_ge j s.formulas.length with h | h
        · exact h
        · rw [List.getElem?_eq_none h] at hq; cases hq
      have em : madeFor (.push j c :: r) = madeFor r := rfl
      rw [em]
      by_cases hk : j = k
      · subst hk
        have ep : pushesOn j (.push j c :: r) = c :: pushesOn j r := by simp [pushesOn]
        rw [ep, List.getElem?_append_left (by simpa using hj), List.getElem?_append_left hj, List.getElem?_set_self (by simpa using hj), hq]
        rfl
      · have ep : pushesOn k (.push j c :: r) = pushesOn k r := by simp [pushesOn, hk]
        rw [ep]
        by_cases hl : k < s.formulas.length
        · rw [List.getElem?_append_left (by simpa using hl), List.getElem?_append_left hl, List.getElem?_set_ne hk]
        · rw [List.getElem?_append_right (by simp; omega), List.getElem?_append_right (by omega), List.length_set]
    | cell i row col a j q =>
      simp only [step] at hu
      split at hu
      · obtain ⟨d, -, rfl⟩ := Option.map_eq_some_iff.mp hu
        exact same rfl rfl rfl
      · cases hu
    | validate i v c1 c2 =>
      simp only [step] at hu
      split at hu
      · obtain ⟨d, -, rfl⟩ := Option.map_eq_some_iff.mp hu
        exact same rfl rfl rfl
      · cases hu

/-- The workbook is, whatever its formulas are at the end, the one of the program that had them from the beginning. -/
theorem desk_run (F : List (Nat × Stack)) (p : List Call) (s t : State) (h : steps s p = some t) :
    Area.steps (resolve (valOf F) (actOf F) s.desk) (p.filterMap (told fun k => deref F (ptr k))) = some (resolve (valOf F) (actOf F) t.desk) := by
  induction p generalizing s with
  | nil => cases Option.some.inj h; rfl
  | cons c r ih =>
    rw [steps] at h
    obtain ⟨u, hu, hr⟩ := Option.bind_eq_some_iff.mp h
    have := ih u hr
    have go : ∀ c', told (fun k => deref F (ptr k)) c = some (areaCall (valOf F) (actOf F) c') → Area.step s.desk c' = some u.desk →
        Area.steps (resolve (valOf F) (actOf F) s.desk) ((c :: r).filterMap (told fun k => deref F (ptr k))) = some (resolve (valOf F) (actOf F) t.desk) := by
      intro c' e1 e2
      rw [List.filterMap_cons_some e1, Area.steps, area_map (valOf_mild F) (actOf_quiet F), e2]
      exact this
    cases c with
    | other c =>
      simp only [step] at hu
      split at hu
      · rename_i hb
        obtain ⟨d, hd, rfl⟩ := Option.map_eq_some_iff.mp hu
        exact go c (by rw [bare_map F c hb]; rfl) hd
      · cases hu
    | make i =>
      simp only [step] at hu
      split at hu
      · cases Option.some.inj hu
        rw [List.filterMap_cons_none rfl]
        exact this
      · cases hu
    | push j c =>
      simp only [step] at hu
      obtain ⟨q, -, rfl⟩ := Option.map_eq_some_iff.mp hu
      rw [List.filterMap_cons_none rfl]
      exact this
    | cell i row col a j q =>
      simp only [step] at hu
      split at hu
      · obtain ⟨d, hd, rfl⟩ := Option.map_eq_some_iff.mp hu
        exact go _ rfl hd
      · cases hu
    | validate i v c1 c2 =>
      simp only [step] at hu
      split at hu
      · obtain ⟨d, hd, rfl⟩ := Option.map_eq_some_iff.mp hu
        exact go _ (by simp only [told, areaCall, deskCall, progCall, point_map]) hd
      · cases hu

end Xls.Live
