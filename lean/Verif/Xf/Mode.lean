import Verif.Xf.Props
/-
C79: formats that are turned into styles and back.
-/
namespace Xls.Xf
open Xls.Xf.Spec

/-! ### Model -/

/-- A setter of `xf_t`, or `SetCellMode`, extformat.h 544-546; cbridge.cpp 477. -/
inductive ModeCall
  | set (o : Op)
  | mode (b : Bool)
deriving Repr, DecidableEq

/-- `SetCellMode`, extformat.cpp 1096-1099. -/
def setCellMode (x : Xf) (b : Bool) : Xf := { x with isCell := b }

def ModeCall.run (x : Xf) : ModeCall → Option Xf
  | .set o => o.run x
  | .mode b => some (setCellMode x b)

/-- Calls on one format, extformat.cpp 631-1099. -/
def runModes (x : Xf) : List ModeCall → Option Xf
  | [] => some x
  | c :: r => (c.run x).bind fun x => runModes x r

/-- The bytes written for a user format (`workbook::xformat`, workbook.cpp 203-234) after the calls. -/
def writtenModes (cs : List ModeCall) : Option Bytes := ((new true true false).bind fun x => runModes x cs).bind record

/-! ### Specification -/

namespace Spec

/-- The setters among the calls. -/
def setters (cs : List ModeCall) : List Op := cs.filterMap fun | .set o => some o | .mode _ => none

/-- A cell format, or a style? -/
def modeStep (b : Bool) : ModeCall → Bool
  | .set _ => b
  | .mode c => c
def cellMode (cs : List ModeCall) : Bool := cs.foldl modeStep true

/-- The mode in which a group of attributes was last asked for; `false` if it never was. -/
def groupStep (q : Op → Bool) (s : Bool × Bool) (c : ModeCall) : Bool × Bool :=
  (modeStep s.1 c, match c with | .set o => if q o then s.1 else s.2 | .mode _ => s.2)
def group (q : Op → Bool) (cs : List ModeCall) : Bool := (cs.foldl (groupStep q) (true, false)).2

/-- A line of the border: as for cell formats, but in style mode a side without colour stays so. -/
def sideStep (s : Side) (l : Bool × Line) (c : ModeCall) : Bool × Line :=
  (modeStep l.1 c, match c with
    | .set (.bstyle t n) => if l.1 then lineStep s l.2 (.bstyle t n) else if t = s then ⟨n, l.2.color⟩ else l.2
    | .set o => lineStep s l.2 o
    | .mode _ => l.2)
def side (s : Side) (cs : List ModeCall) : Line :=
  let l := (cs.foldl (sideStep s) (true, ⟨0, 0⟩)).2
  ⟨l.style, l.color % 128⟩

/-- What the record must say: the attributes of the last setters, whatever the mode was when they were called; the type of the last `SetCellMode`; and the six
    flags as the modes in which their groups were last asked for. -/
def wantModes (cs : List ModeCall) : Seen :=
  { want (setters cs) with
    isStyle := !cellMode cs
    parent := if cellMode cs then 0 else 0xFFF
    usesFormat := group setsFormat cs
    usesFont := group setsFont cs
    usesAlign := group setsAlign cs
    usesBorder := group setsBorder cs
    usesPattern := group setsPattern cs
    usesProtect := group setsProtect cs
    left := side .left cs, right := side .right cs, top := side .top cs, bottom := side .bottom cs
    diagonal := ⟨0, 0⟩, diagWhich := 0 }

end Spec

/-! ### Proof -/

/-- All but the type, the border and the flags. -/
def bare (x : Xf) : Xf := { x with isCell := true, bstyle := ⟨0, 0, 0, 0, 0⟩, bcolor := ⟨0, 0, 0, 0, 0⟩, flags := 0 }

/-- A line after one call in style mode. -/
def styleLine (s : Side) (l : Line) : Op → Line
  | .bstyle t n => if t = s then ⟨n, l.color⟩ else l
  | o => lineStep s l o

def styleFlags (f : Nat) (o : Op) : Nat := if flagOf o = 0 then f else f &&& (0xFF ^^^ flagOf o)

macro "attrs'" : tactic => `(tactic|
  simp [Op.run, setFont, setFormatIndex, setUserFormat, setFgIdx, setBgIdx, setLocked, setHidden, setWrap, setBorderColorIdx,
    flagIf, setFlag, track, last, lineStep, flagOf, setsFont, setsFormat, setsAlign, setsBorder, setsPattern, setsProtect, five,
    lineOf, Five.get, pickFormat, pickFontPtr, pickFormatPtr, pickHAlign, pickVAlign, pickIndentCode, pickOrient, pickFill,
    pickFg, pickBg, pickLocked, pickHidden, pickWrap, bare, styleLine, styleFlags, atrNum, atrFont, atrAlc, atrBdr, atrPat, atrProt])

/-- One setter in style mode. -/
theorem run_style (x : Xf) (hx : x.isCell = false) (o : Op) (ho : Valid o) : ∃ y, o.run x = some y ∧ bare y = bare (track x [o]) ∧
    (∀ s, lineOf y s = styleLine s (lineOf x s) o) ∧ y.flags = styleFlags x.flags o ∧ y.isCell = false := by
  obtain ⟨xfi, xf, xfm, xha, xva, xin, xor, xfl, xfg, xbg, xl, xh, xw, xc, xu, ⟨s1, s2, s3, s4, s5⟩, ⟨c1, c2, c3, c4, c5⟩, xf⟩ := x
  simp only at hx
  subst hx
  cases o with
  | font f => cases f <;> attrs'
  | formatIndex i => cases h : (i != 0) <;> simp_all <;> attrs' <;> simp_all
  | format n =>
    simp only [Op.run, setFormat, format_code, Option.map_some]
    cases h : (formatCode n != 0) <;> simp_all <;> attrs' <;> simp_all
  | userFormat k =>
    cases k with
    | none => attrs'
    | some k =>
      have e := user_code k ho
      attrs'
      simp [e]
  | halign n =>
    simp only [Op.run, setHAlign, halign_code n ho, Option.map_some]
    cases h : (n != 0) <;> simp_all <;> attrs' <;> simp_all
  | valign n =>
    simp only [Op.run, setVAlign, valign_code n ho, Option.map_some]
    cases h : (n != 2) <;> simp_all <;> attrs' <;> simp_all
  | indent n =>
    simp only [Op.run, setIndent, indent_code n ho, Option.map_some]
    cases h : (n != 0) <;> simp_all <;> attrs' <;> simp_all
  | orient n =>
    simp only [Op.run, setOrient, orient_code n ho, Option.map_some]
    cases h : (n != 0) <;> simp_all <;> attrs' <;> simp_all
  | fg n =>
    simp only [Op.run, setFg, color_code n ho, Option.map_some]
    cases h : (n != 57) <;> simp_all <;> attrs' <;> simp_all
  | bg n =>
    simp only [Op.run, setBg, color_code n ho, Option.map_some]
    cases h : (n != 58) <;> simp_all <;> attrs' <;> simp_all
  | fgIdx c => attrs'
  | bgIdx c => attrs'
  | fill n =>
    simp only [Op.run, setFill, fill_code n ho, Option.map_some]
    cases h : (n != 0) <;> simp_all <;> attrs' <;> simp_all
  | locked b => cases b <;> attrs'
  | hidden b => cases b <;> attrs'
  | wrap b => cases b <;> attrs'
  | bstyle s n =>
    simp only [Op.run, setBorderStyle, border_code n ho, Option.bind_some]
    cases h : (n != 0) <;> cases s <;> simp_all <;> attrs' <;> simp_all [Five.set] <;> intro t <;> cases t <;> simp
  | bcolor s n =>
    have e := color_zero n ho
    simp only [Op.run, setBorderColor, color_code n ho, Option.map_some]
    cases h : (n != 0) <;> cases s <;> simp_all <;> attrs' <;> simp_all [Five.set] <;> intro t <;> cases t <;> simp
  | bcolorIdx s c => cases h : (c != 0) <;> cases s <;> simp_all <;> attrs' <;> simp_all [Five.set] <;> intro t <;> cases t <;> simp

theorem track_append (x : Xf) (a b : List Op) : track x (a ++ b) = track (track x a) b := by
  simp only [track, last, List.foldl_append, five, lineOf, Five.get]

theorem bare_track {x z : Xf} (h : bare x = bare z) (o : Op) : bare (track x [o]) = bare (track z [o]) := by
  obtain ⟨x1, x2, x3, x4, x5, x6, x7, x8, x9, x10, x11, x12, x13, x14, x15, x16, x17, x18⟩ := x
  obtain ⟨z1, z2, z3, z4, z5, z6, z7, z8, z9, z10, z11, z12, z13, z14, z15, z16, z17, z18⟩ := z
  simp only [bare, Xf.mk.injEq] at h
  obtain ⟨rfl, rfl, rfl, rfl, rfl, rfl, rfl, rfl, rfl, rfl, rfl, rfl, rfl, -, rfl, -, -, -⟩ := h
  rfl

theorem flagOf_cases (o : Op) : flagOf o = 0 ∨ flagOf o = 4 ∨ flagOf o = 8 ∨ flagOf o = 16 ∨ flagOf o = 32 ∨ flagOf o = 64 ∨ flagOf o = 128 := by
  unfold flagOf atrFont atrNum atrAlc atrBdr atrPat atrProt
  split
  · simp
  · split
    · simp
    · split
      · simp
      · split
        · simp
        · split
          · simp
          · split <;> simp

theorem bits_test (n k : Nat) : (bits n k 1 == 1) = n.testBit k := by
  rw [bits, Nat.testBit_eq_decide_div_mod_eq]
  rfl

/-- A flag after a setter in style mode. -/
theorem style_bit (f : Nat) (o : Op) (k : Nat) (hk : k < 8) : (bits (styleFlags f o) k 1 == 1) = ((bits f k 1 == 1) && !(bits (flagOf o) k 1 == 1)) := by
  rw [bits_test, bits_test, bits_test, styleFlags]
  split
  · rename_i h
    rw [h]
    simp
  · rw [Nat.testBit_and]
    congr 1
    rcases flagOf_cases o with h | h | h | h | h | h | h <;> rw [h] <;> revert k <;> decide

/-- The groups and their flags. -/
def groups : List (Nat × (Op → Bool)) := [(2, setsFormat), (3, setsFont), (4, setsAlign), (5, setsBorder), (6, setsPattern), (7, setsProtect)]

theorem group_flag : ∀ g ∈ groups, g.1 < 8 ∧ ∀ o, (bits (flagOf o) g.1 1 == 1) = g.2 o := by
  intro g hg
  simp only [groups, List.mem_cons, List.not_mem_nil, or_false] at hg
  rcases hg with rfl | rfl | rfl | rfl | rfl | rfl
  · exact ⟨by decide, flag_num⟩
  · exact ⟨by decide, flag_font⟩
  · exact ⟨by decide, flag_alc⟩
  · exact ⟨by decide, flag_bdr⟩
  · exact ⟨by decide, flag_pat⟩
  · exact ⟨by decide, flag_prot⟩

/-- The state of a format after the calls. -/
structure After (cs : List ModeCall) (x : Xf) : Prop where
  bare : bare x = bare (track fresh (setters cs))
  cell : x.isCell = cellMode cs
  line : ∀ s, cs.foldl (sideStep s) (true, ⟨0, 0⟩) = (x.isCell, lineOf x s)
  flag : ∀ g ∈ groups, cs.foldl (groupStep g.2) (true, false) = (x.isCell, bits x.flags g.1 1 == 1)

theorem after_step {cs : List ModeCall} {x : Xf} (h : After cs x) (c : ModeCall) (hv : ∀ o, c = .set o → Valid o) :
    ∃ y, c.run x = some y ∧ After (cs ++ [c]) y := by
  cases c with
  | mode b =>
    refine ⟨_, rfl, ?_, ?_, fun s => ?_, fun g hg => ?_⟩
    · rw [show setters (cs ++ [.mode b]) = setters cs by simp [setters], ← h.bare]
      rfl
    · simp [cellMode, modeStep, setCellMode]
    · rw [List.foldl_append, h.line s]
      rfl
    · rw [List.foldl_append, h.flag g hg]
      rfl
  | set o =>
    have ho := hv o rfl
    have hs : setters (cs ++ [.set o]) = setters cs ++ [o] := by simp [setters]
    cases hc : x.isCell with
    | true =>
      refine ⟨_, run_track x hc o ho, ?_, ?_, fun s => ?_, fun g hg => ?_⟩
      · rw [hs, track_append]
        exact bare_track h.bare o
      · rw [cellMode, List.foldl_append]
        exact h.cell
      · rw [List.foldl_append, h.line s, hc]
        have e : lineOf (track x [o]) s = lineStep s (lineOf x s) o := by cases s <;> rfl
        rw [e]
        show sideStep s (true, lineOf x s) (.set o) = (x.isCell, _)
        rw [hc]
        cases o <;> rfl
      · rw [List.foldl_append, h.flag g hg, hc]
        show groupStep g.2 (true, _) (.set o) = (x.isCell, bits (x.flags ||| flagOf o) g.1 1 == 1)
        rw [bits_or, (group_flag g hg).2, hc]
        simp only [groupStep, modeStep]
        cases g.2 o <;> simp
    | false =>
      obtain ⟨y, y1, y2, y3, y4, y5⟩ := run_style x hc o ho
      refine ⟨y, y1, ?_, ?_, fun s => ?_, fun g hg => ?_⟩
      · rw [hs, track_append, y2]
        exact bare_track h.bare o
      · rw [cellMode, List.foldl_append, y5, ← hc]
        exact h.cell
      · rw [List.foldl_append, h.line s, hc, y3, y5]
        cases o <;> rfl
      · rw [List.foldl_append, h.flag g hg, hc, y4, y5, style_bit _ _ _ (group_flag g hg).1, (group_flag g hg).2]
        simp only [groupStep, modeStep, List.foldl_cons, List.foldl_nil]
        cases g.2 o <;> simp

theorem after_all (cs : List ModeCall) : ∀ (before : List ModeCall) (x : Xf), After before x → (∀ o, .set o ∈ cs → Valid o) →
    ∃ y, runModes x cs = some y ∧ After (before ++ cs) y := by
  induction cs with
  | nil => exact fun before x h _ => ⟨x, rfl, by rw [List.append_nil]; exact h⟩
  | cons c r ih =>
    intro before x h hv
    obtain ⟨y, y1, y2⟩ := after_step h c (fun o e => hv o (by rw [e]; exact List.mem_cons_self ..))
    obtain ⟨z, z1, z2⟩ := ih _ y y2 (fun o ho => hv o (List.mem_cons_of_mem _ ho))
    refine ⟨z, ?_, by rw [List.append_cons]; exact z2⟩
    rw [runModes, y1, Option.bind_some, z1]

theorem after_new : After [] fresh := by
  refine ⟨rfl, rfl, fun s => by cases s <;> rfl, ?_⟩
  decide

theorem side_style (s : Side) (cs : List ModeCall) (hv : ∀ o, .set o ∈ cs → Valid o) (l : Bool × Line) (hl : l.2.style < 8) :
    (cs.foldl (sideStep s) l).2.style < 8 := by
  induction cs generalizing l with
  | nil => exact hl
  | cons c r ih =>
    refine ih (fun o h => hv o (List.mem_cons_of_mem _ h)) _ ?_
    cases c with
    | mode b => exact hl
    | set o =>
      have ho := hv o (List.mem_cons_self ..)
      have hst := line_style s [o] (by intro o' h; rw [List.mem_singleton.mp h]; exact ho) l.2 hl
      cases o <;> try exact hst
      simp only [sideStep]
      split
      · exact hst
      · split
        · exact ho
        · exact hl

theorem setters_valid {cs : List ModeCall} (hv : ∀ o, .set o ∈ cs → Valid o) : ∀ o ∈ setters cs, Valid o := by
  intro o ho
  obtain ⟨c, hc, he⟩ := List.mem_filterMap.mp ho
  cases c with
  | set o' => cases he; exact hv _ hc
  | mode b => cases he

/-- C79, apart from the diagonal border: for every history of setters and of `SetCellMode` the record is a cell's or a style's as the last `SetCellMode` says,
    and has every attribute as last asked for, whatever the mode was then; a flag is the mode in which its group was last asked for.
    Missing for the full claim: the diagonals (C28), and that the flags go with the type of the record, `c79_flags_stay`. -/
theorem c79_mode_partial (cs : List ModeCall) (hv : ∀ o, .set o ∈ cs → Valid o) :
    ∃ bs, writtenModes cs = some bs ∧ bs.length = 24 ∧ bs.take 4 = [0xE0, 0, 20, 0] ∧ readXf (bs.drop 4) = some (wantModes cs) := by
  obtain ⟨x, hx, H⟩ := after_all cs [] fresh after_new hv
  rw [List.nil_append] at H
  have ho := setters_valid hv
  obtain ⟨i1, i2⟩ := indent_last _ ho
  have hb := H.bare
  have hi : x.indent ∈ indentTable := by
    show (bare x).indent ∈ indentTable
    rw [hb]
    show last pickIndentCode 0 (setters cs) ∈ indentTable
    rw [i1]
    exact (indent_codes _ i2).1
  obtain ⟨bs, h1, h2, h3, h4⟩ := read_record x hi
  refine ⟨bs, ?_, h3, h2, ?_⟩
  · rw [writtenModes, new_user, Option.bind_some, hx, Option.bind_some, h1]
  · rw [h4]
    have hseen := seen_track _ ho
    have hl : ∀ s, (side s cs) = ⟨x.bstyle.get s % 16, x.bcolor.get s % 128⟩ := by
      intro s
      have := side_style s cs hv (true, ⟨0, 0⟩) (by decide)
      simp only [side, H.line s] at this ⊢
      simp only [lineOf] at this ⊢
      rw [Nat.mod_eq_of_lt (show x.bstyle.get s < 16 by omega)]
    have hg : ∀ g ∈ groups, group g.2 cs = (bits x.flags g.1 1 == 1) := fun g hg => by rw [group, H.flag g hg]
    have e1 := hg (2, setsFormat) (by simp [groups])
    have e2 := hg (3, setsFont) (by simp [groups])
    have e3 := hg (4, setsAlign) (by simp [groups])
    have e4 := hg (5, setsBorder) (by simp [groups])
    have e5 := hg (6, setsPattern) (by simp [groups])
    have e6 := hg (7, setsProtect) (by simp [groups])
    have el := hl .left
    have er := hl .right
    have et := hl .top
    have eb := hl .bottom
    rw [wantModes, e1, e2, e3, e4, e5, e6, el, er, et, eb, ← H.cell]
    have hs : seenOf x = { seenOf (track fresh (setters cs)) with
        isStyle := !x.isCell, parent := if x.isCell then 0 else 0xFFF
        usesFormat := bits x.flags 2 1 == 1, usesFont := bits x.flags 3 1 == 1, usesAlign := bits x.flags 4 1 == 1
        usesBorder := bits x.flags 5 1 == 1, usesPattern := bits x.flags 6 1 == 1, usesProtect := bits x.flags 7 1 == 1
        left := ⟨x.bstyle.left % 16, x.bcolor.left % 128⟩, right := ⟨x.bstyle.right % 16, x.bcolor.right % 128⟩
        top := ⟨x.bstyle.top % 16, x.bcolor.top % 128⟩, bottom := ⟨x.bstyle.bottom % 16, x.bcolor.bottom % 128⟩ } := by
      generalize track fresh (setters cs) = z at hb
      obtain ⟨x1, x2, x3, x4, x5, x6, x7, x8, x9, x10, x11, x12, x13, x14, x15, x16, x17, x18⟩ := x
      obtain ⟨z1, z2, z3, z4, z5, z6, z7, z8, z9, z10, z11, z12, z13, z14, z15, z16, z17, z18⟩ := z
      simp only [bare, Xf.mk.injEq] at hb
      obtain ⟨rfl, rfl, rfl, rfl, rfl, rfl, rfl, rfl, rfl, rfl, rfl, rfl, rfl, -, rfl, -, -, -⟩ := hb
      rfl
    rw [hs, hseen]
    rfl

/-- What the flags of a record mean (used attributes in the OpenOffice documentation of the file format; extformat.cpp 505-513): set in a cell's record, the cell has its own attributes of the group; set in a style's, the style
    does not have them. -/
def Seen.uses (s : Seen) : List Bool :=
  [s.usesFormat, s.usesFont, s.usesAlign, s.usesBorder, s.usesPattern, s.usesProtect].map (· != s.isStyle)

/-- Was the group asked for? -/
def asks (ops : List Op) : List Bool :=
  [ops.any setsFormat, ops.any setsFont, ops.any setsAlign, ops.any setsBorder, ops.any setsPattern, ops.any setsProtect]

/-- C79 fails for the flags: a font set before the format is turned into a style is a font the style does not have, while it has all the groups never asked for. -/
theorem c79_flags_stay : ∃ cs bs s, (∀ o, .set o ∈ cs → Valid o) ∧ writtenModes cs = some bs ∧ readXf (bs.drop 4) = some s ∧
    s.isStyle = true ∧ asks (setters cs) = [false, true, false, false, false, false] ∧ s.uses = [true, false, true, true, true, true] := by
  have hv : ∀ o, ModeCall.set o ∈ [.set (.font (some 5)), .mode false] → Valid o := by
    intro o h
    simp only [List.mem_cons, ModeCall.set.injEq, List.not_mem_nil, or_false, reduceCtorEq] at h
    subst h
    exact (by decide : (5 : Nat) < 65535)
  obtain ⟨bs, h1, -, -, h4⟩ := c79_mode_partial _ hv
  exact ⟨_, bs, _, hv, h1, h4, rfl, rfl, rfl⟩

theorem foldl_sets (f : Bool × Bool → ModeCall → Bool × Bool) (q : Op → Bool) (hf : f = groupStep q) (ops : List Op) (b g : Bool) :
    (ops.map ModeCall.set).foldl f (b, g) = (b, if ops.any q then b else g) := by
  subst hf
  induction ops generalizing g with
  | nil => rfl
  | cons o r ih =>
    rw [List.map_cons, List.foldl_cons, show groupStep q (b, g) (.set o) = (b, if q o then b else g) from rfl, ih]
    cases h : q o <;> simp [h]

/-- The flags go with the type if `SetCellMode` is called before the setters: a cell's record has the groups that were asked for, a style's has all. -/
theorem c79_mode_first (b : Bool) (ops : List Op) (hv : ∀ o ∈ ops, Valid o) :
    ∃ bs s, writtenModes (.mode b :: ops.map .set) = some bs ∧ readXf (bs.drop 4) = some s ∧ s.isStyle = !b ∧
      s.uses = (asks ops).map fun a => a || !b := by
  obtain ⟨bs, h1, -, -, h4⟩ := c79_mode_partial (.mode b :: ops.map .set) (by
    intro o h
    simp only [List.mem_cons, reduceCtorEq, List.mem_map, ModeCall.set.injEq, exists_eq_right, false_or] at h
    exact hv o h)
  have hc : cellMode (.mode b :: ops.map .set) = b := by
    have : ∀ (l : List Op) (c : Bool), (l.map ModeCall.set).foldl modeStep c = c := by
      intro l
      induction l with
      | nil => exact fun _ => rfl
      | cons o r ih => exact fun c => ih c
    exact this ops b
  have hg : ∀ q, group q (.mode b :: ops.map .set) = (ops.any q && b) := by
    intro q
    rw [group, List.foldl_cons, show groupStep q (true, false) (.mode b) = (b, false) from rfl, foldl_sets _ q rfl]
    cases ops.any q <;> cases b <;> rfl
  refine ⟨bs, _, h1, h4, ?_, ?_⟩
  · simp only [wantModes, hc]
  · simp only [Seen.uses, wantModes, hc, hg, asks, List.map_cons, List.map_nil]
    cases b <;> simp

/-- Turning a format into a style and back without a setter in between changes nothing. -/
theorem c79_back (cs ds : List ModeCall) (hv : ∀ o, .set o ∈ cs → Valid o) (h : cellMode cs = true) :
    writtenModes (cs ++ .mode false :: .mode true :: ds) = writtenModes (cs ++ ds) := by
  have ap : ∀ (a b : List ModeCall) (x : Xf), runModes x (a ++ b) = (runModes x a).bind fun y => runModes y b := by
    intro a b
    induction a with
    | nil => exact fun x => rfl
    | cons c r ih =>
      intro x
      rw [List.cons_append, runModes, runModes]
      cases c.run x with
      | none => rfl
      | some y => exact ih y
  simp only [writtenModes, new_user, Option.bind_some, ap]
  obtain ⟨y, e, H⟩ := after_all cs [] fresh after_new hv
  rw [e]
  have hc : y.isCell = true := by rw [H.cell]; exact h
  show (runModes (setCellMode (setCellMode y false) true) ds).bind record = (runModes y ds).bind record
  rw [show setCellMode (setCellMode y false) true = y by obtain ⟨⟩ := y; cases hc; rfl]

example : (∀ o, .set o ∈ [ModeCall.set (.wrap true)] → Valid o) ∧ cellMode [.set (.wrap true)] = true :=
  ⟨fun o h => by cases List.mem_singleton.mp h; trivial, rfl⟩

/-- A font, style mode, an alignment and a border, cell mode, a border without a colour of its own. -/
def modeSample : List ModeCall := [.set (.font (some 5)), .mode false, .set (.halign 2), .set (.bstyle .top 2), .mode true, .set (.bstyle .left 1)]

example : ∃ bs, writtenModes modeSample = some bs ∧
    (readXf (bs.drop 4)).map (fun s => (s.isStyle, s.parent, s.font, s.halign)) = some (false, 0, 6, 2) ∧
    (readXf (bs.drop 4)).map (fun s => (s.top, s.left, s.usesFont, s.usesAlign, s.usesBorder)) = some (⟨2, 0⟩, ⟨1, 64⟩, true, false, true) := by
  obtain ⟨bs, h1, -, -, h4⟩ := c79_mode_partial modeSample (by
    intro o h
    simp only [modeSample, List.mem_cons, ModeCall.set.injEq, List.not_mem_nil, or_false, reduceCtorEq, false_or] at h
    rcases h with rfl | rfl | rfl | rfl <;> simp [Valid])
  exact ⟨bs, h1, by rw [h4]; rfl, by rw [h4]; rfl⟩

end Xls.Xf
