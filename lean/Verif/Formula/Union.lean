import Verif.Formula.CellProps
/-
C81: the objects that hold the result of a formula (`estimated_formula_result_t`, formula_estimate.{h,cpp}), with their union and the texts they
allocate.

Simplifications: texts are given as converted (`char2str16`, `wide2str16`: Verif/Text); `new` succeeds.  Reading a member of the union that was not
written last, deleting or following a pointer to a deleted text, and a call on an object that does not exist are `none`.
-/
namespace Xls.Formula
open Xls.Num

/-! ### Model -/

/-- `value`, the union of formula_estimate.h 67-74; `zero` is its state after the `memset` of formula_estimate.cpp 72. -/
inductive Member
  | zero
  | b (v : Bool)
  | i (z : Int)
  | f (bits : Nat)
  | p (text : Nat)
  | e (code : Nat)
deriving Repr, DecidableEq

/-- `value_type`, formula_estimate.h 75-83. -/
inductive Kind | unknown | boolean | integer | floating | string | error
deriving Repr, DecidableEq

/-- `estimated_formula_result_t`, formula_estimate.h 66-88. -/
structure Result where
  value : Member
  kind : Kind
  always : Bool
  onLoad : Bool
deriving Repr, DecidableEq

/-- The texts allocated so far; a deleted one is `none`. -/
abbrev Texts := List (Option (List UInt16))

/-- `delete` of a text. -/
def delText (h : Texts) (n : Nat) : Option Texts :=
  match h[n]? with
  | some (some _) => some (h.set n none)
  | _ => none

/-- An assignment to a text. -/
def putText (h : Texts) (n : Nat) (s : List UInt16) : Option Texts :=
  match h[n]? with
  | some (some _) => some (h.set n (some s))
  | _ => none

/-- `clear_value`, formula_estimate.cpp 86-95. -/
def clearValue (o : Result) (h : Texts) (incoming : Kind) : Option (Result × Texts) :=
  if o.kind = .string ∧ incoming ≠ .string then
    match o.value with
    | .p n => (delText h n).map fun h => ({ o with kind := incoming }, h)
    | _ => none
  else if o.kind ≠ .string ∧ incoming = .string then
    some ({ o with value := .p h.length, kind := incoming }, h ++ [some []])
  else some ({ o with kind := incoming }, h)

/-- `SetBoolean`, `SetInteger`, `SetFloatingPoint`, `SetText`, `SetErrorCode`, formula_estimate.cpp 112-156. -/
def setResult (o : Result) (h : Texts) : Est → Option (Result × Texts)
  | .unknown => none
  | .bool v => (clearValue o h .boolean).map fun r => ({ r.1 with value := .b v }, r.2)
  | .int z => (clearValue o h .integer).map fun r => ({ r.1 with value := .i z }, r.2)
  | .dbl v => (clearValue o h .floating).map fun r => ({ r.1 with value := .f v }, r.2)
  | .str s => (clearValue o h .string).bind fun r =>
      match r.1.value with
      | .p n => (putText r.2 n s).map fun h => (r.1, h)
      | _ => none
  | .err c => (clearValue o h .error).map fun r => ({ r.1 with value := .e c }, r.2)

/-- All results that exist; a destroyed one is `none`. -/
structure Results where
  objs : List (Option Result)
  texts : Texts
deriving Repr, DecidableEq

inductive ResultCall
  /-- the constructor, formula_estimate.cpp 44-73 -/
  | make
  /-- a setter, formula_estimate.cpp 112-156; there is none for `unknown` -/
  | set (i : Nat) (v : Est)
  /-- `SetCalcOnLoad`, formula_estimate.cpp 97-100 -/
  | onLoad (i : Nat)
  /-- `SetCalcAlways`, formula_estimate.cpp 102-105 -/
  | always (i : Nat)
  /-- the copy constructor, which the compiler provides (formula_estimate.h 90-91 only declares the assignment) -/
  | copy (i : Nat)
  /-- the destructor, formula_estimate.cpp 75-78 -/
  | destroy (i : Nat)
deriving Repr, DecidableEq

def Results.step (w : Results) : ResultCall → Option Results
  | .make => some { w with objs := w.objs ++ [some ⟨.zero, .unknown, false, false⟩] }
  | .set i v => (w.objs[i]?).join.bind fun o => (setResult o w.texts v).map fun r => ⟨w.objs.set i (some r.1), r.2⟩
  | .onLoad i => (w.objs[i]?).join.map fun o => { w with objs := w.objs.set i (some { o with onLoad := true }) }
  | .always i => (w.objs[i]?).join.map fun o => { w with objs := w.objs.set i (some { o with always := true }) }
  | .copy i => (w.objs[i]?).join.map fun o => { w with objs := w.objs ++ [some o] }
  | .destroy i => (w.objs[i]?).join.bind fun o => (clearValue o w.texts .unknown).map fun r => ⟨w.objs.set i none, r.2⟩

def Results.run (w : Results) : List ResultCall → Option Results
  | [] => some w
  | c :: r => (w.step c).bind fun w => w.run r

/-- `GetEncodedValue`, formula_estimate.cpp 158-190, on the union. -/
def encodedOf (o : Result) : Option Nat :=
  match o.kind, o.value with
  | .unknown, .zero => some 0xFFFF000000000001
  | .unknown, .b v => some (0xFFFF000000000001 ||| ((if v then 1 else 0) * 2 ^ 16))
  | .boolean, .zero => some 0xFFFF000000000001
  | .boolean, .b v => some (0xFFFF000000000001 ||| ((if v then 1 else 0) * 2 ^ 16))
  | .integer, .i z => some (dblOfInt z)
  | .floating, .f b => some b
  | .string, _ => some 0xFFFF000000000000
  | .error, .e c => some (0xFFFF000000000002 ||| (c * 2 ^ 16 % 2 ^ 32))
  | _, _ => none

/-- `GetStringValue`, formula_estimate.cpp 197-203, with the text its answer points at; the outer `none` is a pointer to a deleted text. -/
def textOf (w : Results) (o : Result) : Option (Option (List UInt16)) :=
  if o.kind = .string then
    match o.value with
    | .p n => match w.texts[n]? with
      | some (some s) => some (some s)
      | _ => none
    | _ => none
  else some none

/-- `GetOptionFlags`, formula_estimate.cpp 107-110. -/
def optionsOf (o : Result) : Nat := (if o.onLoad then 2 else 0) ||| (if o.always then 1 else 0)

/-! ### Specification -/

/-- Results as plain values (`Estimate` of the model of formulas): nothing is shared. -/
abbrev Values := List (Option Estimate)

def Values.step (t : Values) : ResultCall → Option Values
  | .make => some (t ++ [some ⟨.unknown, false, false⟩])
  | .set _ .unknown => none
  | .set i v => (t[i]?).join.map fun e => t.set i (some { e with val := v })
  | .onLoad i => (t[i]?).join.map fun e => t.set i (some { e with onLoad := true })
  | .always i => (t[i]?).join.map fun e => t.set i (some { e with always := true })
  | .copy i => (t[i]?).join.map fun e => t ++ [some e]
  | .destroy i => (t[i]?).join.map fun _ => t.set i none

def Values.run (t : Values) : List ResultCall → Option Values
  | [] => some t
  | c :: r => (Values.step t c).bind fun t => Values.run t r

/-- The text of a value. -/
def Est.text : Est → Option (List UInt16)
  | .str s => some s
  | _ => none

/-! ### Proof -/

/-- The object holds the value. -/
def Holds (h : Texts) (o : Result) (e : Estimate) : Prop :=
  o.always = e.always ∧ o.onLoad = e.onLoad ∧
  match e.val with
  | .unknown => o.kind = .unknown ∧ o.value = .zero
  | .bool v => o.kind = .boolean ∧ o.value = .b v
  | .int z => o.kind = .integer ∧ o.value = .i z
  | .dbl v => o.kind = .floating ∧ o.value = .f v
  | .str s => o.kind = .string ∧ ∃ n, o.value = .p n ∧ h[n]? = some (some s)
  | .err c => o.kind = .error ∧ o.value = .e c

/-- The text an object owns. -/
def owns (o : Result) (n : Nat) : Prop := o.kind = .string ∧ o.value = .p n

structure Own (w : Results) (t : List (Option Estimate)) : Prop where
  len : w.objs.length = t.length
  gone : ∀ i : Nat, w.objs[i]? = some none → t[i]? = some none
  holds : ∀ (i : Nat) o, w.objs[i]? = some (some o) → ∃ e, t[i]? = some (some e) ∧ Holds w.texts o e
  apart : ∀ (i j : Nat) o o' n, w.objs[i]? = some (some o) → w.objs[j]? = some (some o') → owns o n → owns o' n → i = j
  kept : ∀ (n : Nat) s, w.texts[n]? = some (some s) → ∃ (i : Nat) (o : Result), w.objs[i]? = some (some o) ∧ owns o n

theorem Own.find {w : Results} {t : Values} (H : Own w t) {i : Nat} {e : Estimate} (h : (t[i]?).join = some e) :
    ∃ o, w.objs[i]? = some (some o) ∧ Holds w.texts o e ∧ i < w.objs.length := by
  have ht : t[i]? = some (some e) := by
    cases hi : t[i]? with
    | none => rw [hi] at h; cases h
    | some x => rw [hi] at h; exact congrArg _ h
  have hl : i < t.length := by
    rcases Nat.lt_or_ge i t.length with h | h
    · exact h
    · rw [List.getElem?_eq_none h] at ht; cases ht
  have hw : i < w.objs.length := by rw [H.len]; exact hl
  cases ho : w.objs[i]? with
  | none => rw [List.getElem?_eq_getElem hw] at ho; cases ho
  | some x =>
    cases x with
    | none => rw [H.gone i ho] at ht; cases ht
    | some o =>
      obtain ⟨e', h1, h2⟩ := H.holds i o ho
      rw [ht] at h1
      cases h1
      exact ⟨o, rfl, h2, hw⟩

/-- What a change of one object's value does to the texts. -/
structure Change (h h' : Texts) (o o' : Result) : Prop where
  /-- texts of others stay -/
  other : ∀ (n : Nat) s, ¬ owns o n → h[n]? = some (some s) → h'[n]? = some (some s)
  /-- the new text is the old one, or one that nobody had -/
  own : ∀ n : Nat, owns o' n → owns o n ∨ h[n]? = none
  /-- nothing else comes into being, and the old text goes if it is not kept -/
  only : ∀ (n : Nat) s, h'[n]? = some (some s) → owns o' n ∨ (¬ owns o n ∧ h[n]? = some (some s))

theorem clear_change {h : Texts} {o : Result} {e : Estimate} (H : Holds h o e) {k : Kind} (hk : k ≠ .string) (o' : Result) (ho : o'.kind = k) :
    ∃ v h', clearValue o h k = some ({ o with value := v, kind := k }, h') ∧ Change h h' o o' := by
  have no : ∀ n, ¬ owns o' n := fun n hn => hk (ho ▸ hn.1)
  by_cases hs : o.kind = .string
  · obtain ⟨-, -, H⟩ := H
    obtain ⟨s, n, hv, hn⟩ : ∃ s n, o.value = .p n ∧ h[n]? = some (some s) := by
      revert H
      cases e.val <;> intro H <;> first | (rw [hs] at H; cases H.1; done) | skip
      obtain ⟨-, n, h1, h2⟩ := H
      exact ⟨_, n, h1, h2⟩
    have hl : n < h.length := by
      rcases Nat.lt_or_ge n h.length with h' | h'
      · exact h'
      · rw [List.getElem?_eq_none h'] at hn; cases hn
    refine ⟨o.value, h.set n none, ?_, ?_, fun m hm => absurd hm (no m), ?_⟩
    · rw [clearValue, if_pos ⟨hs, hk⟩, hv]
      simp only [delText, hn, Option.map_some]
    · intro m s' hm h'
      have : n ≠ m := fun e => hm (e ▸ ⟨hs, hv⟩)
      rw [List.getElem?_set_ne this, h']
    · intro m s' h'
      by_cases hm : n = m
      · subst hm
        rw [List.getElem?_set_self hl] at h'
        cases h'
      · rw [List.getElem?_set_ne hm] at h'
        refine .inr ⟨fun hw => hm ?_, h'⟩
        have := hw.2
        rw [hv] at this
        cases this
        rfl
  · refine ⟨o.value, h, ?_, fun n s _ h => h, fun n hn => absurd hn (no n), fun n s h' => .inr ⟨fun hw => hs hw.1, h'⟩⟩
    rw [clearValue, if_neg (fun h => hs h.1), if_neg (fun h => hk h.2)]

theorem text_change {h : Texts} {o : Result} {e : Estimate} (H : Holds h o e) (s : List UInt16) :
    ∃ o' h', setResult o h (.str s) = some (o', h') ∧ Holds h' o' { e with val := .str s } ∧ Change h h' o o' := by
  obtain ⟨ha, hl, H⟩ := H
  by_cases hs : o.kind = .string
  · obtain ⟨s', n, hv, hn⟩ : ∃ s n, o.value = .p n ∧ h[n]? = some (some s) := by
      revert H
      cases e.val <;> intro H <;> first | (rw [hs] at H; cases H.1; done) | skip
      obtain ⟨-, n, h1, h2⟩ := H
      exact ⟨_, n, h1, h2⟩
    have hln : n < h.length := by
      rcases Nat.lt_or_ge n h.length with h' | h'
      · exact h'
      · rw [List.getElem?_eq_none h'] at hn; cases hn
    refine ⟨o, h.set n (some s), ?_, ⟨ha, hl, hs, n, hv, List.getElem?_set_self hln⟩, ?_, fun m hm => .inl hm, ?_⟩
    · rw [setResult, clearValue, if_neg (fun h => h.2 rfl), if_neg (fun h => h.1 hs), Option.bind_some]
      simp only [hv, putText, hn, Option.map_some]
      rw [← hs, ← hv]
    · intro m s' hm h'
      have : n ≠ m := fun e => hm (e ▸ ⟨hs, hv⟩)
      rw [List.getElem?_set_ne this, h']
    · intro m s' h'
      by_cases hm : n = m
      · subst hm
        exact .inl ⟨hs, hv⟩
      · rw [List.getElem?_set_ne hm] at h'
        refine .inr ⟨fun hw => hm ?_, h'⟩
        have := hw.2
        rw [hv] at this
        cases this
        rfl
  · refine ⟨{ o with value := .p h.length, kind := .string }, h ++ [some s], ?_, ⟨ha, hl, rfl, h.length, rfl, by simp⟩, ?_, ?_, ?_⟩
    · rw [setResult, clearValue, if_neg (fun h => hs h.1), if_pos ⟨hs, rfl⟩, Option.bind_some]
      simp [putText]
    · intro m s' _ h'
      rw [List.getElem?_append_left, h']
      rcases Nat.lt_or_ge m h.length with h1 | h1
      · exact h1
      · rw [List.getElem?_eq_none h1] at h'; cases h'
    · intro m hm
      have := hm.2
      cases this
      exact .inr (by simp)
    · intro m s' h'
      by_cases hm : m < h.length
      · rw [List.getElem?_append_left hm] at h'
        exact .inr ⟨fun hw => hs hw.1, h'⟩
      · rcases Nat.lt_or_ge h.length m with h1 | h1
        · rw [List.getElem?_eq_none (by simp; omega)] at h'; cases h'
        · have : m = h.length := by omega
          subst this
          exact .inl ⟨rfl, rfl⟩

theorem set_change {h : Texts} {o : Result} {e : Estimate} (H : Holds h o e) {v : Est} (hv : v ≠ .unknown) :
    ∃ o' h', setResult o h v = some (o', h') ∧ Holds h' o' { e with val := v } ∧ Change h h' o o' := by
  have go : ∀ (k : Kind) (m : Member), k ≠ .string → (∀ h', Holds h' ⟨m, k, o.always, o.onLoad⟩ { e with val := v }) →
      setResult o h v = (clearValue o h k).map (fun r => ({ r.1 with value := m }, r.2)) →
      ∃ o' h', setResult o h v = some (o', h') ∧ Holds h' o' { e with val := v } ∧ Change h h' o o' := by
    intro k m hk hh he
    obtain ⟨v', h', h1, h2⟩ := clear_change H hk ⟨m, k, o.always, o.onLoad⟩ rfl
    exact ⟨_, h', by rw [he, h1]; rfl, hh h', h2⟩
  cases v with
  | unknown => exact absurd rfl hv
  | bool v => exact go .boolean (.b v) (by decide) (fun _ => ⟨H.1, H.2.1, rfl, rfl⟩) rfl
  | int v => exact go .integer (.i v) (by decide) (fun _ => ⟨H.1, H.2.1, rfl, rfl⟩) rfl
  | dbl v => exact go .floating (.f v) (by decide) (fun _ => ⟨H.1, H.2.1, rfl, rfl⟩) rfl
  | err v => exact go .error (.e v) (by decide) (fun _ => ⟨H.1, H.2.1, rfl, rfl⟩) rfl
  | str s => exact text_change H s

theorem holds_other {h h' : Texts} {o o' : Result} (C : Change h h' o o') {p : Result} {e : Estimate} (H : Holds h p e)
    (hp : ∀ n, owns p n → ¬ owns o n) : Holds h' p e := by
  obtain ⟨h1, h2, H⟩ := H
  refine ⟨h1, h2, ?_⟩
  revert H
  cases e.val <;> intro H <;> try exact H
  obtain ⟨hk, n, hv, hn⟩ := H
  exact ⟨hk, n, hv, C.other n _ (hp n ⟨hk, hv⟩) hn⟩

/-- A change of object `i` keeps the invariant. -/
theorem own_change {w : Results} {t : Values} (H : Own w t) {i : Nat} {o : Result} (hi : w.objs[i]? = some (some o)) (hl : i < w.objs.length)
    {h' : Texts} {x : Option Result} {y : Option Estimate} {o' : Result} (C : Change w.texts h' o o')
    (hx : ∀ p, x = some p → p = o' ∧ ∃ e, y = some e ∧ Holds h' o' e) (hy : x = none → y = none ∧ ∀ n, ¬ owns o' n) :
    Own ⟨w.objs.set i x, h'⟩ (t.set i y) := by
  have hlt : i < t.length := by rw [← H.len]; exact hl
  refine ⟨by simp [H.len], fun j hj => ?_, fun j p hj => ?_, fun j k p p' n hj hk hp hp' => ?_, fun n s hn => ?_⟩
  · by_cases e : i = j
    · subst e
      rw [List.getElem?_set_self hl] at hj
      rw [List.getElem?_set_self hlt, (hy (Option.some.inj hj)).1]
    · rw [List.getElem?_set_ne e] at hj ⊢
      exact H.gone j hj
  · by_cases e : i = j
    · subst e
      rw [List.getElem?_set_self hl] at hj
      obtain ⟨rfl, e, he, hh⟩ := hx p (Option.some.inj hj)
      exact ⟨e, by rw [List.getElem?_set_self hlt, he], hh⟩
    · rw [List.getElem?_set_ne e] at hj ⊢
      obtain ⟨e', h1, h2⟩ := H.holds j p hj
      exact ⟨e', h1, holds_other C h2 fun n hp ho => e (H.apart i j o p n hi hj ho hp)⟩
  · have live : ∀ (j : Nat) p, w.objs[j]? = some (some p) → owns p n → w.texts[n]? ≠ none := by
      intro j p hj hp hn
      obtain ⟨e, -, -, -, h3⟩ := H.holds j p hj
      revert h3
      cases e.val <;> intro h3
      case str =>
        obtain ⟨-, m, h4, h5⟩ := h3
        rw [hp.2] at h4
        cases h4
        rw [hn] at h5
        cases h5
      all_goals (have := h3.1; rw [hp.1] at this; cases this)
    have mine : ∀ (j : Nat) p, j ≠ i → w.objs[j]? = some (some p) → owns p n → owns o' n → False := by
      intro j p hj hw hp ho
      rcases C.own n ho with h | h
      · exact hj (H.apart j i p o n hw hi hp h)
      · exact live j p hw hp h
    by_cases e : i = j <;> by_cases e' : i = k
    · rw [← e, ← e']
    · subst e
      rw [List.getElem?_set_self hl] at hj
      rw [List.getElem?_set_ne e'] at hk
      obtain ⟨rfl, -⟩ := hx p (Option.some.inj hj)
      exact (mine k p' (Ne.symm e') hk hp' hp).elim
    · subst e'
      rw [List.getElem?_set_self hl] at hk
      rw [List.getElem?_set_ne e] at hj
      obtain ⟨rfl, -⟩ := hx p' (Option.some.inj hk)
      exact (mine j p (Ne.symm e) hj hp hp').elim
    · rw [List.getElem?_set_ne e] at hj
      rw [List.getElem?_set_ne e'] at hk
      exact H.apart j k p p' n hj hk hp hp'
  · rcases C.only n s hn with h | ⟨h1, h2⟩
    · cases x with
      | none => exact absurd h ((hy rfl).2 n)
      | some p =>
        obtain ⟨rfl, -⟩ := hx p rfl
        exact ⟨i, p, List.getElem?_set_self hl, h⟩
    · obtain ⟨j, p, hj, hp⟩ := H.kept n s h2
      have : i ≠ j := by
        intro e
        subst e
        rw [hi] at hj
        cases hj
        exact h1 hp
      exact ⟨j, p, by rw [List.getElem?_set_ne this, hj], hp⟩

theorem Change.refl (h : Texts) {o o' : Result} (ho : ∀ n, owns o' n ↔ owns o n) : Change h h o o' :=
  ⟨fun _ _ _ h => h, fun n hn => .inl ((ho n).1 hn), fun n s hn => by
    by_cases hw : owns o n
    · exact .inl ((ho n).2 hw)
    · exact .inr ⟨hw, hn⟩⟩

/-- One call that is not a copy: the objects do what the values do. -/
theorem own_step {w : Results} {t t' : Values} (H : Own w t) {c : ResultCall} (hc : ∀ i, c ≠ .copy i) (h : Values.step t c = some t') :
    ∃ w', w.step c = some w' ∧ Own w' t' := by
  cases c with
  | copy i => exact absurd rfl (hc i)
  | make =>
    cases h
    have app : ∀ {α : Type} (l : List α) (x y : α) (j : Nat), (l ++ [x])[j]? = some y → l[j]? = some y ∨ (j = l.length ∧ x = y) := by
      intro α l x y j hj
      by_cases hl : j < l.length
      · rw [List.getElem?_append_left hl] at hj
        exact .inl hj
      · rw [List.getElem?_append_right (by omega)] at hj
        have h0 : j - l.length = 0 := by
          rcases Nat.eq_zero_or_pos (j - l.length) with h | h
          · exact h
          · rw [List.getElem?_eq_none (by simp; omega)] at hj; cases hj
        rw [h0] at hj
        exact .inr ⟨by omega, Option.some.inj hj⟩
    have left : ∀ {α : Type} (l : List α) (x y : α) (j : Nat), l[j]? = some y → (l ++ [x])[j]? = some y := by
      intro α l x y j hj
      rw [List.getElem?_append_left, hj]
      rcases Nat.lt_or_ge j l.length with h1 | h1
      · exact h1
      · rw [List.getElem?_eq_none h1] at hj; cases hj
    refine ⟨_, rfl, ?_, fun j hj => ?_, fun j p hj => ?_, fun j k p p' n hj hk hp hp' => ?_, fun n s hn => ?_⟩
    · simp [H.len]
    · rcases app _ _ _ _ hj with h | ⟨-, h⟩
      · exact left _ _ _ _ (H.gone j h)
      · cases h
    · rcases app _ _ _ _ hj with h | ⟨h1, h2⟩
      · obtain ⟨e, he, hh⟩ := H.holds j p h
        exact ⟨e, left _ _ _ _ he, hh⟩
      · cases h2
        exact ⟨⟨.unknown, false, false⟩, by rw [h1, H.len]; simp, rfl, rfl, rfl, rfl⟩
    · rcases app _ _ _ _ hj with h | ⟨-, h⟩
      · rcases app _ _ _ _ hk with h' | ⟨-, h'⟩
        · exact H.apart j k p p' n h h' hp hp'
        · cases h'
          cases hp'.1
      · cases h
        cases hp.1
    · obtain ⟨j, p, hj, hp⟩ := H.kept n s hn
      exact ⟨j, p, left _ _ _ _ hj, hp⟩
  | set i v =>
    have hv : v ≠ .unknown := by rintro rfl; cases h
    have h : (t[i]?).join.map (fun e => t.set i (some { e with val := v })) = some t' := by cases v <;> first | exact h | exact absurd rfl hv
    obtain ⟨e, he, rfl⟩ := Option.map_eq_some_iff.1 h
    obtain ⟨o, ho, hh, hl⟩ := H.find he
    obtain ⟨o', h', h1, h2, h3⟩ := set_change hh hv
    refine ⟨⟨w.objs.set i (some o'), h'⟩, by rw [Results.step, ho, Option.join_some, Option.bind_some, h1]; rfl, ?_⟩
    exact own_change H ho hl h3 (fun p hp => ⟨(Option.some.inj hp).symm, _, rfl, h2⟩) (fun h => by cases h)
  | onLoad i =>
    obtain ⟨e, he, rfl⟩ := Option.map_eq_some_iff.1 h
    obtain ⟨o, ho, hh, hl⟩ := H.find he
    refine ⟨_, by rw [Results.step, ho]; rfl, ?_⟩
    exact own_change (o' := { o with onLoad := true }) H ho hl (Change.refl _ fun _ => Iff.rfl)
      (fun p hp => ⟨(Option.some.inj hp).symm, _, rfl, hh.1, rfl, hh.2.2⟩) (fun h => by cases h)
  | always i =>
    obtain ⟨e, he, rfl⟩ := Option.map_eq_some_iff.1 h
    obtain ⟨o, ho, hh, hl⟩ := H.find he
    refine ⟨_, by rw [Results.step, ho]; rfl, ?_⟩
    exact own_change (o' := { o with always := true }) H ho hl (Change.refl _ fun _ => Iff.rfl)
      (fun p hp => ⟨(Option.some.inj hp).symm, _, rfl, rfl, hh.2.1, hh.2.2⟩) (fun h => by cases h)
  | destroy i =>
    obtain ⟨e, he, rfl⟩ := Option.map_eq_some_iff.1 h
    obtain ⟨o, ho, hh, hl⟩ := H.find he
    obtain ⟨v, h', h1, h2⟩ := clear_change hh (k := .unknown) (by decide) { o with kind := .unknown } rfl
    refine ⟨⟨w.objs.set i none, h'⟩, by rw [Results.step, ho, Option.join_some, Option.bind_some, h1]; rfl, ?_⟩
    exact own_change H ho hl h2 (fun p hp => by cases hp) (fun _ => ⟨rfl, fun n hn => by cases hn.1⟩)

theorem own_run {cs : List ResultCall} : ∀ {w : Results} {t t' : Values}, Own w t → (∀ i, .copy i ∉ cs) → Values.run t cs = some t' →
    ∃ w', w.run cs = some w' ∧ Own w' t' := by
  induction cs with
  | nil => intro w t t' H _ h; cases h; exact ⟨w, rfl, H⟩
  | cons c r ih =>
    intro w t t' H hc h
    obtain ⟨u, hu, h⟩ := Option.bind_eq_some_iff.1 h
    obtain ⟨w1, e1, H1⟩ := own_step H (fun i e => hc i (by rw [e]; exact List.mem_cons_self ..)) hu
    obtain ⟨w2, e2, H2⟩ := ih H1 (fun i h => hc i (List.mem_cons_of_mem _ h)) h
    exact ⟨w2, by rw [Results.run, e1, Option.bind_some, e2], H2⟩

theorem own_init : Own ⟨[], []⟩ [] :=
  ⟨rfl, fun i h => by simp at h, fun i o h => by simp at h, fun i j o o' n h => by simp at h, fun n s h => by simp at h⟩

/-- C81: as long as no result is copied, every program that only uses results that exist is defined, and every result answers what was last put into it:
    its eight bytes, its text and its options.  Missing for the full claim: copies, `c81_copy`. -/
theorem c81_values_partial (cs : List ResultCall) (hc : ∀ i, .copy i ∉ cs) (t : Values) (h : Values.run [] cs = some t) :
    ∃ w, Results.run ⟨[], []⟩ cs = some w ∧ w.objs.length = t.length ∧
      ∀ (i : Nat) e, t[i]? = some (some e) → ∃ o, w.objs[i]? = some (some o) ∧ encodedOf o = some e.val.encode ∧
        textOf w o = some e.val.text ∧ optionsOf o = e.flags := by
  obtain ⟨w, hw, H⟩ := own_run own_init hc h
  refine ⟨w, hw, H.len, fun i e he => ?_⟩
  obtain ⟨o, ho, ⟨h1, h2, hh⟩, -⟩ := H.find (i := i) (e := e) (by rw [he]; rfl)
  refine ⟨o, ho, ?_, ?_, by rw [optionsOf, h1, h2]; rfl⟩
  · revert hh
    cases e.val <;> intro hh <;> obtain ⟨k, hh⟩ := hh
    case str => rw [encodedOf, k]; rfl
    all_goals (rw [encodedOf, k, hh]; rfl)
  · revert hh
    cases e.val <;> intro hh <;> obtain ⟨k, hh⟩ := hh
    case str =>
      obtain ⟨n, hn, hs⟩ := hh
      rw [textOf, if_pos k, hn]
      simp only [hs]
      rfl
    all_goals (rw [textOf, if_neg (by rw [k]; decide)]; rfl)

/-- C81: a text exists exactly as long as a result holds it, so when all results are gone every text has been released, and none twice. -/
theorem c81_released (cs : List ResultCall) (hc : ∀ i, .copy i ∉ cs) (t : Values) (h : Values.run [] cs = some t) :
    ∃ w, Results.run ⟨[], []⟩ cs = some w ∧
      (∀ (n : Nat) s, w.texts[n]? = some (some s) → ∃ (i : Nat) (e : Estimate), t[i]? = some (some e) ∧ e.val = .str s) ∧
      ((∀ i : Nat, t[i]? = none ∨ t[i]? = some none) → ∀ (n : Nat) s, w.texts[n]? ≠ some (some s)) := by
  obtain ⟨w, hw, H⟩ := own_run own_init hc h
  have key : ∀ (n : Nat) s, w.texts[n]? = some (some s) → ∃ (i : Nat) (e : Estimate), t[i]? = some (some e) ∧ e.val = .str s := by
    intro n s hn
    obtain ⟨i, o, ho, hp⟩ := H.kept n s hn
    obtain ⟨e, he, -, -, hh⟩ := H.holds i o ho
    refine ⟨i, e, he, ?_⟩
    revert hh
    cases e.val <;> intro hh
    case str =>
      obtain ⟨-, m, h4, h5⟩ := hh
      rw [hp.2] at h4
      cases h4
      rw [hn] at h5
      cases h5
      rfl
    all_goals (have := hh.1; rw [hp.1] at this; cases this)
  refine ⟨w, hw, key, fun hg n s hn => ?_⟩
  obtain ⟨i, e, he, -⟩ := key n s hn
  rcases hg i with h | h <;> rw [h] at he <;> cases he

/-- C81 fails for copies: whatever was done before, a result with a text that is copied and then destroyed leaves a copy that cannot be destroyed, nor given
    another value, and whose text cannot be read. -/
theorem c81_copy (cs : List ResultCall) (hc : ∀ i, .copy i ∉ cs) (t : Values) (h : Values.run [] cs = some t) (i : Nat) (e : Estimate) (s : List UInt16)
    (hi : t[i]? = some (some e)) (hs : e.val = .str s) :
    ∃ w o, Results.run ⟨[], []⟩ (cs ++ [.copy i, .destroy i]) = some w ∧ w.objs[t.length]? = some (some o) ∧ textOf w o = none ∧
      w.step (.destroy t.length) = none ∧ ∀ v, w.step (.set t.length v) = none := by
  obtain ⟨w, hw, H⟩ := own_run own_init hc h
  obtain ⟨o, ho, ⟨-, -, hh⟩, hl⟩ := H.find (i := i) (e := e) (by rw [hi]; rfl)
  rw [hs] at hh
  obtain ⟨hk, n, hn, ht⟩ := hh
  have hln : n < w.texts.length := by
    rcases Nat.lt_or_ge n w.texts.length with h' | h'
    · exact h'
    · rw [List.getElem?_eq_none h'] at ht; cases ht
  have run_append : ∀ (a b : List ResultCall) (x : Results), x.run (a ++ b) = (x.run a).bind fun y => y.run b := by
    intro a b
    induction a with
    | nil => exact fun x => rfl
    | cons c r ih =>
      intro x
      rw [List.cons_append, Results.run, Results.run]
      cases x.step c with
      | none => rfl
      | some y => exact ih y
  have cl : ∀ k, k ≠ .string → clearValue o (w.texts.set n none) k = none := by
    intro k hk'
    rw [clearValue, if_pos ⟨hk, hk'⟩, hn]
    simp only [delText, List.getElem?_set_self hln, Option.map_none]
  have h2 : (w.objs ++ [some o])[i]? = some (some o) := by rw [List.getElem?_append_left hl, ho]
  have h3 : ((w.objs ++ [some o]).set i none)[t.length]? = some (some o) := by
    rw [List.getElem?_set_ne (by rw [← H.len]; omega), ← H.len, List.getElem?_append_right (Nat.le_refl _), Nat.sub_self]
    rfl
  refine ⟨⟨(w.objs ++ [some o]).set i none, w.texts.set n none⟩, o, ?_, h3, ?_, ?_, ?_⟩
  · rw [run_append, hw, Option.bind_some, Results.run, Results.step, ho, Option.join_some, Option.map_some, Option.bind_some, Results.run, Results.step, h2,
      Option.join_some, Option.bind_some, clearValue, if_pos ⟨hk, by decide⟩, hn]
    simp only [delText, ht, Option.map_some]
    rfl
  · rw [textOf, if_pos hk, hn]
    simp only [List.getElem?_set_self hln]
  · simp only [Results.step, h3, Option.join_some, Option.bind_some, cl .unknown (by decide), Option.map_none]
  · intro v
    simp only [Results.step, h3, Option.join_some, Option.bind_some]
    cases v with
    | unknown => rfl
    | str s' =>
      rw [setResult, clearValue, if_neg (fun h => h.2 rfl), if_neg (fun h => h.1 hk), Option.bind_some]
      simp only [hn, putText, List.getElem?_set_self hln, Option.map_none]
    | bool v => rw [setResult, cl .boolean (by decide)]; rfl
    | int v => rw [setResult, cl .integer (by decide)]; rfl
    | dbl v => rw [setResult, cl .floating (by decide)]; rfl
    | err v => rw [setResult, cl .error (by decide)]; rfl

/-- Two results, a text that is replaced by a number and by a text again, and one that stays. -/
def resultSample : List ResultCall :=
  [.make, .make, .set 0 (.str [65]), .set 1 (.str [66, 67]), .set 0 (.int 7), .onLoad 0, .set 0 (.str [68]), .set 1 (.str []), .always 1, .destroy 0]

example : (∀ i, .copy i ∉ resultSample) ∧ Values.run [] resultSample = some [none, some ⟨.str [], true, false⟩] ∧
    (Results.run ⟨[], []⟩ resultSample).map (fun w => w.texts) = some [none, some [], none] :=
  ⟨fun i h => by simp [resultSample] at h, rfl, rfl⟩

end Xls.Formula
