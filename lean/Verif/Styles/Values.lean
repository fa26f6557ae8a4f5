import Verif.Styles.Spec
import Verif.Xf.Track
import Verif.Font.Props
/-
What the objects hold, without the usage counters: the relation to the specification.
-/
namespace Xls.Styles
open Xls.Xf (Xf track fresh)
open Xls.Font (Font FOp)
open Spec

def baseFont : Base → Option Font
  | .dflt => Font.defaults[0]?
  | .stock n => Font.defaults[n]?
  | .named n => some { Font.fresh with name := n }

/-- A name fits the record. -/
def BaseOk : Base → Prop
  | .dflt => True
  | .stock n => n < 5
  | .named n => n.length < 256

/-- A font value is what the calls made of it. -/
def FontIs (f : Font) (h : FontH) : Prop :=
  BaseOk h.base ∧ (∀ o ∈ h.calls, Font.Spec.Valid o) ∧ (baseFont h.base).bind (Font.runAll · h.calls) = some f

def FontLooks (fv : List Font) (mine : Nat → Option FontH) (font : Option Nat) : Ref → Prop
  | .shared p => font = some p ∧ p < 65535 ∧ ∃ h, mine p = some h
  | .own h => (font = none ∧ h = ⟨.dflt, []⟩) ∨
      ∃ p f, font = some p ∧ p < 65535 ∧ mine p = none ∧ fv[p]? = some f ∧ FontIs f h

structure Looks (fv : List Font) (mine : Nat → Option FontH) (x : Xf) (l : Look) : Prop where
  valid : ∀ o ∈ l.calls, Xf.Spec.Valid o
  attrs : { x with font := none, isUser := true } = { track fresh l.calls with font := none }
  flag : x.font ≠ none → l.calls.any Xf.Spec.setsFont = true
  font : FontLooks fv mine x.font l.font

structure Rel (fv : List Font) (xv : List Xf) (cells : List (Option Nat)) (A : Spec.State) : Prop where
  stock : ∀ (i : Nat) d, Font.defaults[i]? = some d → fv[i]? = some d
  x15 : xv[15]? = some { fresh with isUser := false }
  fonts : ∀ p h, A.fonts p = some h → 5 ≤ p ∧ ∃ f, fv[p]? = some f ∧ FontIs f h
  formats : ∀ q l, A.formats q = some l → 21 ≤ q ∧ ∃ x, xv[q]? = some x ∧ Looks fv A.fonts x l
  live : ∀ c q, cells[c]? = some (some q) → (q = 15 ∨ 21 ≤ q) ∧ ∃ x l, xv[q]? = some x ∧ A.cells c = some l ∧ Looks fv A.fonts x l
  gone : ∀ c, (∀ q, cells[c]? ≠ some (some q)) → A.cells c = none

theorem Rel.f0 {fv xv cells A} (R : Rel fv xv cells A) : fv[0]? = Font.defaults[0]? := R.stock 0 _ rfl

/-! ### Formats -/

theorem snoc_ind {α : Type} {P : List α → Prop} (nil : P []) (snoc : ∀ r o, P r → P (r ++ [o])) : ∀ l, P l := by
  have : ∀ l : List α, P l.reverse := by
    intro l
    induction l with
    | nil => exact nil
    | cons o r ih => rw [List.reverse_cons]; exact snoc _ _ ih
  intro l
  have h := this l.reverse
  rwa [List.reverse_reverse] at h

theorem track_append (x : Xf) (a b : List Xf.Op) : track x (a ++ b) = track (track x a) b := by
  simp only [track, Xf.Spec.last, List.foldl_append, Xf.five, Xf.lineOf, Xf.Five.get]

theorem flags_font (f : Nat) (ops : List Xf.Op) (h : ops.any Xf.Spec.setsFont = true) :
    ops.foldl (fun f o => f ||| Xf.flagOf o) f ||| Xf.atrFont = ops.foldl (fun f o => f ||| Xf.flagOf o) f := by
  induction ops using snoc_ind generalizing f with
  | nil => simp at h
  | snoc r o ih =>
    rw [List.foldl_append, List.foldl_cons, List.foldl_nil]
    simp only [List.any_append, List.any_cons, List.any_nil, Bool.or_false, Bool.or_eq_true] at h
    rcases h with h | h
    · rw [Nat.or_assoc, Nat.or_comm (Xf.flagOf o), ← Nat.or_assoc, ih f h]
    · have : Xf.flagOf o = Xf.atrFont := by rw [Xf.flagOf, if_pos h]
      rw [this, Nat.or_assoc, Nat.or_self]

/-- A format object with a number-format object has its index, and the flag. -/
theorem format_ptr (ops : List Xf.Op) (ho : ∀ o ∈ ops, Xf.Spec.Valid o) (k : Nat) (h : (track fresh ops).format = some k) :
    (track fresh ops).formatIndex = Xf.formatIndexOf k ∧ (track fresh ops).flags ||| Xf.atrNum = (track fresh ops).flags := by
  induction ops using snoc_ind with
  | nil => simp [track, Xf.Spec.last, fresh] at h
  | snoc r o ih =>
    rw [track_append] at h ⊢
    have ih := ih (fun o h => ho o (by simp [h]))
    have ho := ho o (by simp)
    generalize track fresh r = x at *
    have keep : Xf.pickFormatPtr o = none → Xf.Spec.pickFormat o = none → (track x [o]).formatIndex = Xf.formatIndexOf k ∧
        (track x [o]).flags ||| Xf.atrNum = (track x [o]).flags := by
      intro h1 h2
      simp only [track, Xf.Spec.last, List.foldl_cons, List.foldl_nil, h1, h2, Option.getD_none] at h ⊢
      obtain ⟨i1, i2⟩ := ih h
      exact ⟨i1, by rw [Nat.or_assoc, Nat.or_comm (Xf.flagOf o), ← Nat.or_assoc, i2]⟩
    cases o with
    | formatIndex i => simp [track, Xf.Spec.last, Xf.pickFormatPtr] at h
    | format i => simp [track, Xf.Spec.last, Xf.pickFormatPtr] at h
    | userFormat i =>
      cases i with
      | none => exact keep rfl rfl
      | some j =>
        simp [track, Xf.Spec.last, Xf.pickFormatPtr] at h
        subst h
        simp [track, Xf.Spec.last, Xf.Spec.pickFormat, Xf.user_code j ho, Xf.flagOf, Xf.Spec.setsFont, Xf.Spec.setsFormat,
          Nat.or_assoc]
    | _ => exact keep rfl rfl

theorem Looks.isCell {fv mine x l} (h : Looks fv mine x l) : x.isCell = true := by
  have := congrArg Xf.isCell h.attrs
  exact this

theorem Looks.flags {fv mine x l} (h : Looks fv mine x l) : x.flags = (track fresh l.calls).flags := by
  have := congrArg Xf.flags h.attrs
  exact this

/-- The copy constructor copies. -/
theorem Looks.dup {fv mine x l} (h : Looks fv mine x l) : Xf.dup x = { x with isUser := true } := by
  have hc := h.isCell
  have h1 := h.attrs
  have hf := h.flags
  have hfl := h.flag
  have e1 : Xf.setFont { x with font := none, format := none, isCell := true, isUser := true } x.font =
      { x with isUser := true, format := none } := by
    obtain ⟨a1, a2, a3, a4, a5, a6, a7, a8, a9, a10, a11, a12, a13, a14, a15, a16, a17, a18⟩ := x
    simp only at hc hf hfl
    subst hc
    cases a2 with
    | none => simp [Xf.setFont, Xf.flagIf]
    | some p =>
      have := flags_font 0 l.calls (hfl (by simp))
      have e : a18 ||| Xf.atrFont = a18 := by rw [hf]; exact this
      simp [Xf.setFont, Xf.flagIf, Xf.setFlag, e]
  rw [Xf.dup, e1]
  obtain ⟨a1, a2, a3, a4, a5, a6, a7, a8, a9, a10, a11, a12, a13, a14, a15, a16, a17, a18⟩ := x
  simp only at hc hf
  subst hc
  cases a3 with
  | none => rfl
  | some k =>
    have h2 := congrArg Xf.format h1
    have h3 := congrArg Xf.formatIndex h1
    obtain ⟨i1, i2⟩ := format_ptr l.calls h.valid k h2.symm
    have e : a18 ||| Xf.atrNum = a18 := by rw [hf]; exact i2
    have e2 : Xf.formatIndexOf k = a1 := by rw [← i1]; exact h3.symm
    by_cases h0 : a1 = 0 <;> simp [Xf.setUserFormat, Xf.flagIf, Xf.setFlag, e, e2, h0]

theorem track_font (x : Xf) (f : Option Nat) (u : Bool) (o : Xf.Op) :
    track { x with font := f, isUser := u } [o] = { track x [o] with font := (Xf.pickFontPtr o).getD f, isUser := u } := rfl

theorem set_attrs (x y : Xf) (o : Xf.Op)
    (h : { x with font := none, isUser := true } = { y with font := none }) :
    { track x [o] with font := none, isUser := true } = { track y [o] with font := none } := by
  have e1 : ({ track x [o] with font := none, isUser := true } : Xf) =
      { track { x with font := none, isUser := true } [o] with font := none } := rfl
  have e2 : ({ track y [o] with font := none } : Xf) = { track { y with font := none } [o] with font := none } := rfl
  rw [e1, e2, h]

/-- A format call on a copy. -/
theorem Looks.call {fv mine x l} (h : Looks fv mine x l) (o : Xf.Op) (ho : Xf.Spec.Valid o)
    (hm : ∀ p, o = .font (some p) → ∃ f, mine p = some f) :
    ∃ x', o.run x = some x' ∧ Looks fv mine x' (onCall l o) ∧ x'.font = (Xf.pickFontPtr o).getD x.font := by
  refine ⟨_, Xf.run_track x h.isCell o ho, ⟨?_, ?_, ?_, ?_⟩, rfl⟩
  · intro o' h'
    simp only [onCall, List.mem_append, List.mem_singleton] at h'
    rcases h' with h' | h'
    · exact h.valid o' h'
    · exact h' ▸ ho
  · rw [show (onCall l o).calls = l.calls ++ [o] from rfl, track_append]
    exact set_attrs x _ o h.attrs
  · intro hf
    have hf : (Xf.pickFontPtr o).getD x.font ≠ none := hf
    simp only [onCall, List.any_append, Bool.or_eq_true]
    cases o with
    | font f =>
      cases f with
      | none => simp [Xf.pickFontPtr] at hf
      | some p => right; simp [Xf.Spec.setsFont]
    | _ => left; exact h.flag hf
  · show FontLooks fv mine ((Xf.pickFontPtr o).getD x.font) (onCall l o).font
    cases o with
    | font f =>
      cases f with
      | none => exact .inl ⟨rfl, rfl⟩
      | some p => exact ⟨rfl, ho, hm p rfl⟩
    | _ => exact h.font

/-- A font of its own. -/
theorem Looks.ownFont {fv mine x l} (h : Looks fv mine x l) (p : Nat) (hp : p < 65535) (f : Font) (hf : fv[p]? = some f) (g : FontH)
    (hm : mine p = none) (hg : FontIs f g) :
    Looks fv mine (Xf.setFont x (some p)) ⟨l.calls ++ [.font (some 0)], .own g⟩ := by
  have e : Xf.setFont x (some p) = track x [.font (some p)] :=
    Option.some.inj (Xf.run_track x h.isCell (.font (some p)) hp)
  rw [e]
  refine ⟨?_, ?_, ?_, ?_⟩
  · intro o' h'
    simp only [List.mem_append, List.mem_singleton] at h'
    rcases h' with h' | h'
    · exact h.valid o' h'
    · subst h'; exact (by decide : 0 < 65535)
  · simp only [track_append]
    exact set_attrs x _ (.font (some p)) h.attrs
  · intro _
    simp [Xf.Spec.setsFont]
  · exact .inr ⟨p, f, rfl, hp, hm, hf, hg⟩

theorem Looks.user {fv mine x l} (h : Looks fv mine x l) : Looks fv mine { x with isUser := true } l :=
  ⟨h.valid, h.attrs, h.flag, h.font⟩

theorem getElem?_prefix {α : Type} {a b : List α} (h : a <+: b) {i : Nat} {v : α} (hi : a[i]? = some v) : b[i]? = some v := by
  obtain ⟨t, rfl⟩ := h
  rw [List.getElem?_append_left ((List.getElem?_eq_some_iff.mp hi).1), hi]

theorem Looks.mono {fv fv' mine x l} (h : Looks fv mine x l) (hp : fv <+: fv') : Looks fv' mine x l := by
  refine ⟨h.valid, h.attrs, h.flag, ?_⟩
  have := h.font
  revert this
  cases l.font with
  | shared p => exact id
  | own g =>
    rintro (h | ⟨p, f, h1, h2, h3, h4, h5⟩)
    · exact .inl h
    · exact .inr ⟨p, f, h1, h2, h3, getElem?_prefix hp h4, h5⟩

theorem fresh_looks (fv mine) (u : Bool) : Looks fv mine { fresh with isUser := u } plain :=
  ⟨by simp [plain], rfl, by simp [fresh], .inl ⟨rfl, rfl⟩⟩

end Xls.Styles
