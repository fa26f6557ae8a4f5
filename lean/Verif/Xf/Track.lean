import Verif.Xf.Want
import Verif.Xf.Record
namespace Xls.Xf
open Xls.Xf.Spec

/-- A new user cell format, as the constructor leaves it. -/
def fresh : Xf :=
  ⟨0, none, none, 0, 2, 0, 0, 0, 0x40, 0x41, true, false, false, true, true, ⟨0, 0, 0, 0, 0⟩, ⟨0, 0, 0, 0, 0⟩, 0⟩

theorem new_user : new true true false = some fresh := rfl

/-- The flag a call switches on. -/
def flagOf (o : Op) : Nat :=
  if setsFont o then atrFont else if setsFormat o then atrNum else if setsAlign o then atrAlc
  else if setsBorder o then atrBdr else if setsPattern o then atrPat else if setsProtect o then atrProt else 0

/-- Pointer-level view of the font and format attributes. -/
def pickFontPtr : Op → Option (Option Nat)
  | .font f => some f
  | _ => none

def pickFormatPtr : Op → Option (Option Nat)
  | .formatIndex _ => some none
  | .format _ => some none
  | .userFormat (some k) => some (some k)
  | _ => none

def indentCode (n : Nat) : Nat := if n < 16 then n else if n = 16 then 0x10 else if n = 17 then 0x40 else 0x80

def pickIndentCode : Op → Option Nat
  | .indent n => some (indentCode n)
  | _ => none

def lineOf (x : Xf) (s : Side) : Line := ⟨x.bstyle.get s, x.bcolor.get s⟩

def five (f : Side → Nat) : Five := ⟨f .bottom, f .top, f .left, f .right, f .diagonals⟩

/-- The state after `ops`, attribute by attribute. -/
def track (x : Xf) (ops : List Op) : Xf where
  formatIndex := last pickFormat x.formatIndex ops
  font := last pickFontPtr x.font ops
  format := last pickFormatPtr x.format ops
  halign := last pickHAlign x.halign ops
  valign := last pickVAlign x.valign ops
  indent := last pickIndentCode x.indent ops
  orient := last pickOrient x.orient ops
  fill := last pickFill x.fill ops
  fg := last pickFg x.fg ops
  bg := last pickBg x.bg ops
  locked := last pickLocked x.locked ops
  hidden := last pickHidden x.hidden ops
  wrap := last pickWrap x.wrap ops
  isCell := x.isCell
  isUser := x.isUser
  bstyle := five fun s => (ops.foldl (lineStep s) (lineOf x s)).style
  bcolor := five fun s => (ops.foldl (lineStep s) (lineOf x s)).color
  flags := ops.foldl (fun f o => f ||| flagOf o) x.flags

theorem track_nil (x : Xf) : track x [] = x := rfl

theorem track_congr (x y : Xf) (o : Op) (r : List Op) (h : track x [o] = y) : track x (o :: r) = track y r := by
  subst h
  simp only [track, last, List.foldl_cons, List.foldl_nil, five, lineOf, Five.get]

theorem halign_code : ∀ n, n < 7 → halignTable[n]? = some n := by decide
theorem valign_code : ∀ n, n < 4 → valignTable[n]? = some n := by decide
theorem indent_code : ∀ n, n < 19 → indentTable[n]? = some (indentCode n) := by decide
theorem orient_code : ∀ n, n < 4 → orientTable[n]? = some (orientCode n) := by decide
theorem fill_code : ∀ n, n < 19 → fillTable[n]? = some (fillCode n) := by decide
theorem color_code : ∀ n, n < 59 → colorTable[n]? = some (colorCode n) := by decide
theorem color_zero : ∀ n, n < 59 → (colorCode n != 0) = (n != 0) := by decide
theorem border_code : ∀ n, n < 8 → borderTable[n]? = some n := by decide
theorem format_small : ∀ n, n < 36 → format2index n = some (formatCode n) := by decide

theorem format_code (n : Nat) : format2index (if n > 35 then 0 else n) = some (formatCode n) := by
  by_cases h : n > 35
  · rw [if_pos h, formatCode, if_neg (by omega), if_neg (by omega)]
    rfl
  · rw [if_neg h]
    exact format_small n (by omega)

theorem font_code (p : Nat) (h : p < 65535) : fontIndexOf p = fontCode p := by
  unfold fontIndexOf fontCode
  split
  · rfl
  · omega

theorem user_code (k : Nat) (h : k < 65372) : formatIndexOf k = 164 + k := by
  unfold formatIndexOf
  omega

macro "attrs" : tactic => `(tactic|
  simp [Op.run, setFont, setFormatIndex, setUserFormat, setFgIdx, setBgIdx, setLocked, setHidden, setWrap, setBorderColorIdx,
    flagIf, setFlag, track, last, lineStep, flagOf, setsFont, setsFormat, setsAlign, setsBorder, setsPattern, setsProtect, five,
    lineOf, Five.get, pickFormat, pickFontPtr, pickFormatPtr, pickHAlign, pickVAlign, pickIndentCode, pickOrient, pickFill,
    pickFg, pickBg, pickLocked, pickHidden, pickWrap])

/-- One call. -/
theorem run_track (x : Xf) (hx : x.isCell = true) (o : Op) (ho : Valid o) : o.run x = some (track x [o]) := by
  obtain ⟨xfi, xf, xfm, xha, xva, xin, xor, xfl, xfg, xbg, xl, xh, xw, xc, xu, ⟨s1, s2, s3, s4, s5⟩, ⟨c1, c2, c3, c4, c5⟩, xf⟩ := x
  simp only at hx
  subst hx
  cases o with
  | font f => cases f <;> attrs
  | formatIndex i => cases h : (i != 0) <;> simp_all <;> attrs <;> simp_all
  | format n =>
    simp only [Op.run, setFormat, format_code, Option.map_some]
    cases h : (formatCode n != 0) <;> simp_all <;> attrs <;> simp_all
  | userFormat k =>
    cases k with
    | none => attrs
    | some k =>
      have e := user_code k ho
      attrs
      simp [e]
  | halign n =>
    simp only [Op.run, setHAlign, halign_code n ho, Option.map_some]
    cases h : (n != 0) <;> simp_all <;> attrs <;> simp_all
  | valign n =>
    simp only [Op.run, setVAlign, valign_code n ho, Option.map_some]
    cases h : (n != 2) <;> simp_all <;> attrs <;> simp_all
  | indent n =>
    simp only [Op.run, setIndent, indent_code n ho, Option.map_some]
    cases h : (n != 0) <;> simp_all <;> attrs <;> simp_all
  | orient n =>
    simp only [Op.run, setOrient, orient_code n ho, Option.map_some]
    cases h : (n != 0) <;> simp_all <;> attrs <;> simp_all
  | fg n =>
    simp only [Op.run, setFg, color_code n ho, Option.map_some]
    cases h : (n != 57) <;> simp_all <;> attrs <;> simp_all
  | bg n =>
    simp only [Op.run, setBg, color_code n ho, Option.map_some]
    cases h : (n != 58) <;> simp_all <;> attrs <;> simp_all
  | fgIdx c => attrs
  | bgIdx c => attrs
  | fill n =>
    simp only [Op.run, setFill, fill_code n ho, Option.map_some]
    cases h : (n != 0) <;> simp_all <;> attrs <;> simp_all
  | locked b => cases b <;> attrs
  | hidden b => cases b <;> attrs
  | wrap b => cases b <;> attrs
  | bstyle s n =>
    simp only [Op.run, setBorderStyle, border_code n ho, Option.bind_some, show colorTable[57]? = some 0x40 from rfl]
    cases h : (n != 0) <;> cases s <;> simp_all <;> attrs <;> simp_all [Five.set] <;> split <;> simp_all
  | bcolor s n =>
    have e := color_zero n ho
    simp only [Op.run, setBorderColor, color_code n ho, Option.map_some]
    cases h : (n != 0) <;> cases s <;> simp_all <;> attrs <;> simp_all [Five.set]
  | bcolorIdx s c => cases h : (c != 0) <;> cases s <;> simp_all <;> attrs <;> simp_all [Five.set]

theorem runAll_track (x : Xf) (hx : x.isCell = true) (ops : List Op) (ho : ∀ o ∈ ops, Valid o) :
    runAll x ops = some (track x ops) := by
  induction ops generalizing x with
  | nil => rfl
  | cons o r ih =>
    rw [runAll, run_track x hx o (ho o (by simp)), Option.bind_some,
      ih (track x [o]) hx (fun o h => ho o (by simp [h])), track_congr x _ o r rfl]

/-! ### Folds -/

theorem last_inv {α : Type} (pick : Op → Option α) (P : α → Prop) (d : α) (ops : List Op) (hd : P d)
    (h : ∀ o ∈ ops, ∀ v, pick o = some v → P v) : P (last pick d ops) := by
  induction ops generalizing d with
  | nil => exact hd
  | cons o r ih =>
    refine ih _ ?_ (fun o' h' => h o' (by simp [h']))
    show P ((pick o).getD d)
    cases hp : pick o with
    | none => simpa using hd
    | some v => simpa using h o (by simp) v hp

theorem last_map {α β : Type} (f : α → β) (p : Op → Option α) (q : Op → Option β) (d : α) (ops : List Op)
    (h : ∀ o ∈ ops, q o = (p o).map f) : f (last p d ops) = last q (f d) ops := by
  induction ops generalizing d with
  | nil => rfl
  | cons o r ih =>
    have e : f ((p o).getD d) = (q o).getD (f d) := by
      rw [h o (by simp)]
      cases p o <;> rfl
    show f (last p ((p o).getD d) r) = last q ((q o).getD (f d)) r
    rw [ih _ (fun o' h' => h o' (by simp [h'])), e]

theorem bits_or (a b k : Nat) : (bits (a ||| b) k 1 == 1) = ((bits a k 1 == 1) || (bits b k 1 == 1)) := by
  have e : ∀ n, (bits n k 1 == 1) = n.testBit k := by
    intro n
    rw [bits, Nat.testBit_eq_decide_div_mod_eq]
    rfl
  rw [e, e, e, Nat.testBit_or]

theorem flags_any (k : Nat) (q : Op → Bool) (h : ∀ o, (bits (flagOf o) k 1 == 1) = q o) (f : Nat) (ops : List Op) :
    (bits (ops.foldl (fun f o => f ||| flagOf o) f) k 1 == 1) = ((bits f k 1 == 1) || ops.any q) := by
  induction ops generalizing f with
  | nil => simp
  | cons o r ih => rw [List.foldl_cons, ih, bits_or, h, List.any_cons, Bool.or_assoc]

theorem excl (o : Op) : [setsFont o, setsFormat o, setsAlign o, setsBorder o, setsPattern o, setsProtect o].count true ≤ 1 := by
  cases o <;> (try rename_i v; cases v) <;> simp [setsFont, setsFormat, setsAlign, setsBorder, setsPattern, setsProtect] <;>
    (try split) <;> simp [List.count_cons] <;> split <;> omega

macro "oneflag" : tactic => `(tactic|
  (intro o
   have h := excl o
   revert h
   unfold flagOf
   generalize setsFont o = a, setsFormat o = b, setsAlign o = c, setsBorder o = d, setsPattern o = e, setsProtect o = f
   revert a b c d e f
   decide))

theorem flag_num : ∀ o, (bits (flagOf o) 2 1 == 1) = setsFormat o := by oneflag
theorem flag_font : ∀ o, (bits (flagOf o) 3 1 == 1) = setsFont o := by oneflag
theorem flag_alc : ∀ o, (bits (flagOf o) 4 1 == 1) = setsAlign o := by oneflag
theorem flag_bdr : ∀ o, (bits (flagOf o) 5 1 == 1) = setsBorder o := by oneflag
theorem flag_pat : ∀ o, (bits (flagOf o) 6 1 == 1) = setsPattern o := by oneflag
theorem flag_prot : ∀ o, (bits (flagOf o) 7 1 == 1) = setsProtect o := by oneflag

theorem line_style (s : Side) (ops : List Op) (ho : ∀ o ∈ ops, Valid o) (l : Line) (hl : l.style < 8) :
    (ops.foldl (lineStep s) l).style < 8 := by
  induction ops generalizing l with
  | nil => exact hl
  | cons o r ih =>
    refine ih (fun o h => ho o (by simp [h])) _ ?_
    have hv := ho o (by simp)
    cases o <;> simp only [lineStep] <;> (try exact hl)
    · split
      · exact hv
      · exact hl
    · split <;> exact hl
    · split <;> exact hl

theorem font_last (ops : List Op) (ho : ∀ o ∈ ops, Valid o) :
    fontIndex (track fresh ops) = last pickFont 0 ops ∧ last pickFont 0 ops < 65536 := by
  let f : Option Nat → Nat := fun q => match q with | none => 0 | some p => fontIndexOf p
  have e : f (last pickFontPtr none ops) = last pickFont 0 ops := by
    refine last_map f pickFontPtr pickFont none ops ?_
    intro o hm
    have hv := ho o hm
    cases o <;> simp only [pickFont, pickFontPtr, Option.map_none, Option.map_some]
    rename_i q
    cases q with
    | none => rfl
    | some p => exact congrArg some (font_code p hv).symm
  refine ⟨e, ?_⟩
  refine last_inv _ (· < 65536) _ _ (by decide) ?_
  intro o hm v h
  have hv := ho o hm
  cases o <;> simp only [pickFont, reduceCtorEq] at h
  rename_i q
  cases q with
  | none => simp only [Option.some.injEq] at h; omega
  | some p =>
    simp only [Option.some.injEq, fontCode] at h
    simp only [Valid] at hv
    split at h <;> omega

theorem format_last (ops : List Op) (ho : ∀ o ∈ ops, Valid o) : last pickFormat 0 ops < 65536 := by
  refine last_inv _ (· < 65536) _ _ (by decide) ?_
  intro o hm v h
  have hv := ho o hm
  cases o <;> simp only [pickFormat, reduceCtorEq] at h
  · simp only [Option.some.injEq] at h; simp only [Valid] at hv; omega
  · simp only [Option.some.injEq, formatCode] at h
    split at h
    · omega
    · split at h <;> omega
  · rename_i k
    cases k with
    | none => simp at h
    | some k => simp only [Option.some.injEq] at h; simp only [Valid] at hv; omega

theorem indent_last (ops : List Op) (ho : ∀ o ∈ ops, Valid o) :
    last pickIndentCode 0 ops = indentCode (last pickIndent 0 ops) ∧ last pickIndent 0 ops < 19 := by
  refine ⟨(last_map indentCode pickIndent pickIndentCode 0 ops ?_).symm, ?_⟩
  · intro o _
    cases o <;> rfl
  · refine last_inv _ (· < 19) _ _ (by decide) ?_
    intro o hm v h
    have hv := ho o hm
    cases o <;> simp only [pickIndent, reduceCtorEq] at h
    simp only [Option.some.injEq] at h; simp only [Valid] at hv; omega

theorem halign_last (ops : List Op) (ho : ∀ o ∈ ops, Valid o) : last pickHAlign 0 ops < 8 := by
  refine last_inv _ (· < 8) _ _ (by decide) ?_
  intro o hm v h
  have hv := ho o hm
  cases o <;> simp only [pickHAlign, reduceCtorEq] at h
  simp only [Option.some.injEq] at h; simp only [Valid] at hv; omega

theorem valign_last (ops : List Op) (ho : ∀ o ∈ ops, Valid o) : last pickVAlign 2 ops < 8 := by
  refine last_inv _ (· < 8) _ _ (by decide) ?_
  intro o hm v h
  have hv := ho o hm
  cases o <;> simp only [pickVAlign, reduceCtorEq] at h
  simp only [Option.some.injEq] at h; simp only [Valid] at hv; omega

theorem orient_last (ops : List Op) : last pickOrient 0 ops < 256 := by
  refine last_inv _ (· < 256) _ _ (by decide) ?_
  intro o hm v h
  cases o <;> simp only [pickOrient, reduceCtorEq] at h
  simp only [Option.some.injEq, orientCode] at h
  split at h <;> omega

theorem fill_last (ops : List Op) (ho : ∀ o ∈ ops, Valid o) : last pickFill 0 ops < 64 := by
  refine last_inv _ (· < 64) _ _ (by decide) ?_
  intro o hm v h
  have hv := ho o hm
  cases o <;> simp only [pickFill, reduceCtorEq] at h
  simp only [Option.some.injEq] at h; simp only [Valid] at hv
  subst h
  rename_i n
  exact (by decide : ∀ n, n < 19 → fillCode n < 64) n hv

theorem indent_codes : ∀ n, n < 19 → indentCode n ∈ indentTable ∧ indentCode n % 16 = (if n < 16 then n else 0) ∧
    (bits (indentCode n) 4 1 == 1) = (n == 16) ∧
    bits (indentCode n) 6 2 = (if n = 17 then 1 else if n = 18 then 2 else 0) := by decide

/-- What the record of the tracked state says. -/
theorem seen_track (ops : List Op) (ho : ∀ o ∈ ops, Valid o) :
    seenOf (track fresh ops) = { want ops with diagonal := ⟨0, 0⟩, diagWhich := 0 } := by
  obtain ⟨f1, f2⟩ := font_last ops ho
  obtain ⟨i1, i2⟩ := indent_last ops ho
  obtain ⟨-, i3, i4, i5⟩ := indent_codes _ i2
  have hs : ∀ s, (ops.foldl (lineStep s) ⟨0, 0⟩).style % 16 = (ops.foldl (lineStep s) ⟨0, 0⟩).style := fun s =>
    Nat.mod_eq_of_lt (by have := line_style s ops ho ⟨0, 0⟩ (by decide); omega)
  have hfl : ∀ k, (bits 0 k 1 == 1) = false := by intro k; simp [bits]
  simp only [seenOf, f1, Nat.mod_eq_of_lt f2]
  simp only [track, want, line, fresh, lineOf, Five.get, five, i1, i3, i4, i5, hs, Nat.mod_eq_of_lt (format_last ops ho),
    Nat.mod_eq_of_lt (halign_last ops ho), Nat.mod_eq_of_lt (valign_last ops ho), Nat.mod_eq_of_lt (orient_last ops),
    Nat.mod_eq_of_lt (fill_last ops ho), flags_any 2 _ flag_num, flags_any 3 _ flag_font, flags_any 4 _ flag_alc,
    flags_any 5 _ flag_bdr, flags_any 6 _ flag_pat, flags_any 7 _ flag_prot, hfl, Bool.false_or, Bool.not_true, if_true]

end Xls.Xf
