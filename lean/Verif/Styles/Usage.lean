import Verif.Styles.Values
/-
The usage counters: a font in use by several formats is known to be.
-/
namespace Xls.Styles
open Xls.Xf (Xf)
open Xls.Font (Font FOp)

/-- Used once, and by nothing now: the marks on its font are gone. -/
def dead (e : XEnt) : Bool := e.used && e.usage == 0

def holds (p : Nat) (e : XEnt) : Bool := e.xf.font == some p && !dead e

/-- The formats that count as users of a font. -/
def refs (xs : List XEnt) (p : Nat) : Nat := xs.countP (holds p)

def usage (s : State) (p : Nat) : Nat := match s.fonts[p]? with | some f => f.usage | none => 0

structure FontsOk (s : State) : Prop where
  five : 5 ≤ s.fonts.length
  index : ∀ p f, s.fonts[p]? = some f → f.index = Xf.fontIndexOf p
  next : s.fontNext = (s.fonts.length + 1) % 65536

/-- `n q` cells are on format `q`. -/
structure Inv (n : Nat → Nat) (s : State) : Prop where
  fonts : FontsOk s
  many : 21 ≤ s.xfs.length
  ptr : ∀ e ∈ s.xfs, ∀ p, e.xf.font = some p → p < s.fonts.length
  use : ∀ q e, s.xfs[q]? = some e → n q + (if q < 21 then 2 else 0) ≤ e.usage ∧ (e.used = false → e.usage = 0)
  out : ∀ q, s.xfs.length ≤ q → n q = 0
  shared : ∀ p, p < s.fonts.length → refs s.xfs p ≤ usage s p
  index : ∀ q e, s.xfs[q]? = some e → e.index = q % 65536
  next : s.xfNext = s.xfs.length % 65536

def fv (s : State) : List Font := s.fonts.map (·.font)
def xv (s : State) : List Xf := s.xfs.map (·.xf)

theorem split_at {α : Type} (xs : List α) (q : Nat) (e : α) (h : xs[q]? = some e) :
    ∃ l1 l2, xs = l1 ++ e :: l2 ∧ l1.length = q ∧ ∀ f : α → α, xs.modify q f = l1 ++ f e :: l2 := by
  induction xs generalizing q with
  | nil => simp at h
  | cons x r ih =>
    cases q with
    | zero => simp at h; subst h; exact ⟨[], r, rfl, rfl, fun f => rfl⟩
    | succ q =>
      obtain ⟨l1, l2, h1, h2, h3⟩ := ih q (by simpa using h)
      exact ⟨x :: l1, l2, by rw [h1, List.cons_append], by rw [List.length_cons, h2], fun f => by rw [List.modify_succ_cons, h3 f, List.cons_append]⟩

theorem refs_modify (xs : List XEnt) (q : Nat) (e : XEnt) (h : xs[q]? = some e) (f : XEnt → XEnt) (p : Nat) :
    refs (xs.modify q f) p + (holds p e).toNat = refs xs p + (holds p (f e)).toNat := by
  obtain ⟨l1, l2, h1, -, h3⟩ := split_at xs q e h
  rw [h3 f, refs, refs, h1]
  simp only [List.countP_append, List.countP_cons]
  cases holds p e <;> cases holds p (f e) <;> simp <;> omega

theorem mod_same {α : Type} {xs : List α} {q : Nat} {e : α} (f : α → α) (h : xs[q]? = some e) : (xs.modify q f)[q]? = some (f e) := by
  simp [List.getElem?_modify, h]

theorem mod_ne {α : Type} {xs : List α} {q q' : Nat} (f : α → α) (h : q' ≠ q) : (xs.modify q f)[q']? = xs[q']? := by
  have : q ≠ q' := fun e => h e.symm
  simp [List.getElem?_modify, this]

theorem map_modify_same {α β : Type} (g : α → β) (f : α → α) (h : ∀ a, g (f a) = g a) (xs : List α) (q : Nat) :
    (xs.modify q f).map g = xs.map g := by
  induction xs generalizing q with
  | nil => simp
  | cons x r ih => cases q <;> simp [List.modify_succ_cons, h, ih]

/-! ### Marks on fonts -/

theorem FontsOk.modify {s : State} (h : FontsOk s) (p : Nat) (f : FEnt → FEnt) (hf : ∀ e, (f e).index = e.index) :
    FontsOk { s with fonts := s.fonts.modify p f } := by
  refine ⟨by simpa using h.five, ?_, by simpa using h.next⟩
  intro p' f' h'
  have h' : (s.fonts.modify p f)[p']? = some f' := h'
  by_cases hc : p' = p
  · subst hc
    cases hs : s.fonts[p']? with
    | none => simp [List.getElem?_modify, hs] at h'
    | some g =>
      rw [mod_same f hs] at h'
      rw [← Option.some.inj h', hf, h.index p' g hs]
  · rw [mod_ne f hc] at h'
    exact h.index p' f' h'

theorem usage_modify (s : State) (p : Nat) (f : FEnt → FEnt) (g : Nat → Nat) (hf : ∀ e, (f e).usage = g e.usage) (p' : Nat)
    (h : p' < s.fonts.length) : usage { s with fonts := s.fonts.modify p f } p' = if p = p' then g (usage s p') else usage s p' := by
  have e := List.getElem?_eq_getElem h
  by_cases hc : p = p'
  · subst hc
    rw [if_pos rfl]
    simp only [usage, mod_same f e, e]
    exact hf _
  · rw [if_neg hc]
    simp only [usage, mod_ne f (fun h => hc h.symm)]

theorem mark_len (s : State) (o : Option Nat) : (markFont? s o).fonts.length = s.fonts.length := by
  cases o <;> simp [markFont?, markFont]

theorem unmark_len (s : State) (o : Option Nat) : (unmarkFont? s o).fonts.length = s.fonts.length := by
  cases o <;> simp [unmarkFont?, unmarkFont]

theorem usage_mark (s : State) (o : Option Nat) (p : Nat) (h : p < s.fonts.length) :
    usage (markFont? s o) p = usage s p + if o = some p then 1 else 0 := by
  cases o with
  | none => simp [markFont?]
  | some q =>
    rw [markFont?, markFont, usage_modify s q _ (· + 1) (fun _ => rfl) p h]
    simp only [Option.some.injEq]
    split <;> rfl

theorem usage_unmark (s : State) (o : Option Nat) (p : Nat) (h : p < s.fonts.length) :
    usage (unmarkFont? s o) p = usage s p - if o = some p then 1 else 0 := by
  cases o with
  | none => simp [unmarkFont?]
  | some q =>
    rw [unmarkFont?, unmarkFont, usage_modify s q _ (· - 1) (fun _ => rfl) p h]
    simp only [Option.some.injEq]
    split <;> rfl

theorem FontsOk.mark {s : State} (h : FontsOk s) (o : Option Nat) : FontsOk (markFont? s o) := by
  cases o with
  | none => exact h
  | some p => exact h.modify p _ fun _ => rfl

theorem FontsOk.unmark {s : State} (h : FontsOk s) (o : Option Nat) : FontsOk (unmarkFont? s o) := by
  cases o with
  | none => exact h
  | some p => exact h.modify p _ fun _ => rfl

theorem mark_rest (s : State) (o : Option Nat) : (markFont? s o).xfs = s.xfs ∧ (markFont? s o).xfNext = s.xfNext ∧
    (markFont? s o).cells = s.cells ∧ fv (markFont? s o) = fv s := by
  cases o with
  | none => exact ⟨rfl, rfl, rfl, rfl⟩
  | some p => exact ⟨rfl, rfl, rfl, map_modify_same FEnt.font _ (by intro a; rfl) _ _⟩

theorem unmark_rest (s : State) (o : Option Nat) : (unmarkFont? s o).xfs = s.xfs ∧ (unmarkFont? s o).xfNext = s.xfNext ∧
    (unmarkFont? s o).cells = s.cells ∧ fv (unmarkFont? s o) = fv s := by
  cases o with
  | none => exact ⟨rfl, rfl, rfl, rfl⟩
  | some p => exact ⟨rfl, rfl, rfl, map_modify_same FEnt.font _ (by intro a; rfl) _ _⟩

/-! ### Marks on formats -/

/-- Everything of the invariant that a change of the usage of one format could touch. -/
theorem Inv.modify {n n' : Nat → Nat} {s : State} (h : Inv n s) (q : Nat) (e : XEnt) (he : s.xfs[q]? = some e) (f : XEnt → XEnt)
    (t : State) (htf : FontsOk t) (htl : t.fonts.length = s.fonts.length) (htx : t.xfs = s.xfs.modify q f)
    (htn : t.xfNext = s.xfNext) (hn : ∀ q', q' ≠ q → n' q' = n q')
    (hp : ∀ p, (f e).xf.font = some p → p < s.fonts.length) (hi : (f e).index = e.index)
    (hu : n' q + (if q < 21 then 2 else 0) ≤ (f e).usage ∧ ((f e).used = false → (f e).usage = 0))
    (hr : ∀ p, p < s.fonts.length → refs t.xfs p ≤ usage t p) : Inv n' t := by
  have hq : q < s.xfs.length := (List.getElem?_eq_some_iff.mp he).1
  have look : ∀ q' e', t.xfs[q']? = some e' → (q' = q ∧ e' = f e) ∨ (q' ≠ q ∧ s.xfs[q']? = some e') := by
    intro q' e' h'
    rw [htx] at h'
    by_cases hc : q' = q
    · subst hc
      rw [mod_same f he] at h'
      exact .inl ⟨rfl, (Option.some.inj h').symm⟩
    · rw [mod_ne f hc] at h'
      exact .inr ⟨hc, h'⟩
  refine ⟨htf, by rw [htx]; simpa using h.many, ?_, ?_, ?_, ?_, ?_, ?_⟩
  · intro e' he' p hp'
    obtain ⟨q', hq', he'⟩ := List.getElem_of_mem he'
    rw [htl]
    rcases look q' e' (by rw [List.getElem?_eq_getElem hq', he']) with ⟨-, h2⟩ | ⟨-, h2⟩
    · exact hp p (h2 ▸ hp')
    · exact h.ptr e' (List.mem_of_getElem? h2) p hp'
  · intro q' e' h'
    rcases look q' e' h' with ⟨h1, h2⟩ | ⟨h1, h2⟩
    · subst h1 h2; exact hu
    · rw [hn q' h1]; exact h.use q' e' h2
  · intro q' h'
    rw [htx, List.length_modify] at h'
    rw [hn q' (by omega)]
    exact h.out q' h'
  · intro p hp'
    exact hr p (htl ▸ hp')
  · intro q' e' h'
    rcases look q' e' h' with ⟨h1, h2⟩ | ⟨h1, h2⟩
    · subst h1 h2; rw [hi]; exact h.index q' e he
    · exact h.index q' e' h2
  · rw [htn, htx, List.length_modify]; exact h.next

def plus (n : Nat → Nat) (q : Nat) : Nat → Nat := fun q' => if q' = q then n q' + 1 else n q'
def minus (n : Nat → Nat) (q : Nat) : Nat → Nat := fun q' => if q' = q then n q' - 1 else n q'

/-- A format taken into use: it must not be dead, or its font must have a mark to spare. -/
theorem Inv.mark {n : Nat → Nat} {s : State} (h : Inv n s) (q : Nat) (e : XEnt) (he : s.xfs[q]? = some e)
    (hd : dead e = true → ∀ p, e.xf.font = some p → refs s.xfs p + 1 ≤ usage s p) : Inv (plus n q) (markXf s q) := by
  have hq : q < s.xfs.length := (List.getElem?_eq_some_iff.mp he).1
  refine h.modify q e he _ (markXf s q) ⟨h.fonts.1, h.fonts.2, h.fonts.3⟩ rfl rfl rfl (fun q' h' => by simp [plus, h'])
    (h.ptr e (List.mem_of_getElem? he)) rfl ?_ ?_
  · have := (h.use q e he).1
    refine ⟨?_, by simp⟩
    simp only [plus, if_true]
    omega
  · intro p hp
    have h1 := refs_modify s.xfs q e he (fun e => { e with usage := e.usage + 1, used := true }) p
    have h2 : usage (markXf s q) p = usage s p := rfl
    have h3 := h.shared p hp
    rw [h2]
    show refs (s.xfs.modify q _) p ≤ _
    have hd2 : dead { e with usage := e.usage + 1, used := true } = false := by simp [dead]
    by_cases hf : e.xf.font = some p
    · cases hde : dead e with
      | true =>
        have := hd hde p hf
        simp [holds, hf, hde, hd2] at h1
        omega
      | false =>
        simp [holds, hf, hde, hd2] at h1
        omega
    · have hb : (e.xf.font == some p) = false := by simpa using hf
      simp only [holds, hb, Bool.false_and, Bool.toNat_false, Nat.add_zero] at h1
      omega

/-- A format given up. -/
theorem Inv.unmark {n : Nat → Nat} {s : State} (h : Inv n s) (q : Nat) (e : XEnt) (he : s.xfs[q]? = some e) (hq : 1 ≤ n q) :
    ∃ t, unmarkXf s q = some t ∧ Inv (minus n q) t ∧ fv t = fv s ∧ xv t = xv s ∧ t.cells = s.cells ∧
      t.fonts.length = s.fonts.length ∧ t.fontNext = s.fontNext ∧
      (∀ q' e', q' ≠ q → s.xfs[q']? = some e' → t.xfs[q']? = some e') := by
  have hu := h.use q e he
  have hu1 : 1 ≤ e.usage := by omega
  have husd : e.used = true := by
    cases hb : e.used with
    | true => rfl
    | false => have := hu.2 hb; omega
  have hx : (s.xfs.modify q fun e => { e with usage := e.usage - 1 }).map (·.xf) = s.xfs.map (·.xf) :=
    map_modify_same XEnt.xf _ (by intro a; rfl) _ _
  have hother : ∀ q' e', q' ≠ q → s.xfs[q']? = some e' →
      (s.xfs.modify q fun e => { e with usage := e.usage - 1 })[q']? = some e' := by
    intro q' e' h1 h2
    rw [mod_ne _ h1, h2]
  have hdead : dead e = false := by
    have : e.usage ≠ 0 := by omega
    simp [dead, this]
  have hrm := refs_modify s.xfs q e he (fun e => { e with usage := e.usage - 1 })
  let s1 : State := { s with xfs := s.xfs.modify q fun e => { e with usage := e.usage - 1 } }
  by_cases hz : e.usage - 1 = 0
  · refine ⟨unmarkFont? s1 e.xf.font, by simp only [unmarkXf, he, Option.map_some, hz, if_true]; rfl, ?_, ?_, ?_, ?_, ?_, ?_, ?_⟩
    · obtain ⟨r1, r2, -, -⟩ := unmark_rest s1 e.xf.font
      refine h.modify q e he (fun e => { e with usage := e.usage - 1 }) _ (FontsOk.unmark (s := s1) ⟨h.fonts.1, h.fonts.2, h.fonts.3⟩ _)
        (unmark_len _ _) r1 r2 (fun q' h' => by simp [minus, h']) (h.ptr e (List.mem_of_getElem? he)) rfl ?_ ?_
      · refine ⟨?_, by simp [husd]⟩
        simp only [minus, if_true]
        omega
      · intro p hp
        rw [r1, usage_unmark s1 e.xf.font p hp]
        show refs (s.xfs.modify q _) p ≤ usage s p - _
        have h3 := h.shared p hp
        have h1 := hrm p
        have hd2 : dead { e with usage := e.usage - 1 } = true := by simp [dead, husd, hz]
        by_cases hf : e.xf.font = some p
        · simp [holds, hf, hdead, hd2] at h1
          simp only [hf, if_true]
          omega
        · have hb : (e.xf.font == some p) = false := by simpa using hf
          simp only [holds, hb, Bool.false_and, Bool.toNat_false, Nat.add_zero] at h1
          simp only [hf, if_false]
          omega
    · exact (unmark_rest s1 _).2.2.2
    · rw [xv, (unmark_rest s1 _).1]; exact hx
    · exact (unmark_rest s1 _).2.2.1
    · exact unmark_len s1 _
    · cases e.xf.font <;> rfl
    · rw [(unmark_rest s1 _).1]; exact hother
  · refine ⟨s1, by simp only [unmarkXf, he, Option.map_some, hz, if_false]; rfl, ?_, rfl, hx, rfl, rfl, rfl, hother⟩
    refine h.modify q e he (fun e => { e with usage := e.usage - 1 }) s1 ⟨h.fonts.1, h.fonts.2, h.fonts.3⟩ rfl rfl rfl
      (fun q' h' => by simp [minus, h']) (h.ptr e (List.mem_of_getElem? he)) rfl ?_ ?_
    · refine ⟨?_, by simp [husd]⟩
      simp only [minus, if_true]
      omega
    · intro p hp
      have h3 := h.shared p hp
      have h1 := hrm p
      have h2 : usage s1 p = usage s p := rfl
      rw [h2]
      show refs (s.xfs.modify q _) p ≤ _
      have : ∀ e' : XEnt, (holds p { e with usage := e.usage - 1 }) = holds p e := by
        intro _
        have : dead { e with usage := e.usage - 1 } = false := by simp [dead, hz]
        simp [holds, hdead, this]
      rw [this e] at h1
      omega

/-! ### New objects -/

theorem Inv.addFont {n : Nat → Nat} {s : State} (h : Inv n s) (f : Font) : Inv n (addFont s f) := by
  have hl : (Styles.addFont s f).fonts.length = s.fonts.length + 1 := by simp [Styles.addFont]
  refine ⟨⟨by rw [hl]; have := h.fonts.five; omega, ?_, ?_⟩, h.many, ?_, h.use, h.out, ?_, h.index, h.next⟩
  · intro p g hg
    rw [Styles.addFont] at hg
    rcases Nat.lt_or_ge p s.fonts.length with hp | hp
    · rw [List.getElem?_append_left hp] at hg
      exact h.fonts.index p g hg
    · rw [List.getElem?_append_right hp] at hg
      have h5 := h.fonts.five
      cases hd : p - s.fonts.length with
      | zero =>
        rw [hd] at hg
        simp at hg
        rw [← hg]
        show s.fontNext = _
        rw [h.fonts.next, Xf.fontIndexOf, if_neg (by omega)]
        congr 1
        omega
      | succ k => rw [hd] at hg; simp at hg
  · show (s.fontNext + 1) % 65536 = _
    rw [hl, h.fonts.next]
    omega
  · intro e he p hp
    rw [hl]
    exact Nat.lt_succ_of_lt (h.ptr e he p hp)
  · intro p hp
    rw [hl] at hp
    rcases Nat.lt_or_ge p s.fonts.length with hp' | hp'
    · have : usage (Styles.addFont s f) p = usage s p := by
        simp only [usage, Styles.addFont, List.getElem?_append_left hp']
      rw [this]
      exact h.shared p hp'
    · have : refs s.xfs p = 0 := by
        rw [refs, List.countP_eq_zero]
        intro e he
        simp only [holds, Bool.and_eq_true, beq_iff_eq, not_and]
        intro hf
        have := h.ptr e he p hf
        omega
      show refs s.xfs p ≤ _
      omega

/-- A new format object, its font marked. -/
theorem Inv.add {n : Nat → Nat} {s : State} (h : Inv n s) (x : Xf) (hx : ∀ p, x.font = some p → p < s.fonts.length) :
    Inv n (addXf (markFont? s x.font) x) := by
  obtain ⟨r1, r2, -, -⟩ := mark_rest s x.font
  have e1 : (addXf (markFont? s x.font) x).xfs = s.xfs ++ [⟨x, s.xfNext, 0, false⟩] := by simp [addXf, r1, r2]
  have e2 : (addXf (markFont? s x.font) x).fonts = (markFont? s x.font).fonts := rfl
  have look : ∀ q e, (s.xfs ++ [⟨x, s.xfNext, 0, false⟩])[q]? = some e →
      s.xfs[q]? = some e ∨ (q = s.xfs.length ∧ e = ⟨x, s.xfNext, 0, false⟩) := by
    intro q e hq
    rcases Nat.lt_or_ge q s.xfs.length with hl | hl
    · exact .inl (by rwa [List.getElem?_append_left hl] at hq)
    · rw [List.getElem?_append_right hl] at hq
      cases hd : q - s.xfs.length with
      | zero => rw [hd] at hq; simp at hq; exact .inr ⟨by omega, hq.symm⟩
      | succ k => rw [hd] at hq; simp at hq
  have hf := FontsOk.mark h.fonts x.font
  refine ⟨⟨hf.1, hf.2, hf.3⟩, ?_, ?_, ?_, ?_, ?_, ?_, ?_⟩
  · rw [e1, List.length_append]; have := h.many; omega
  · intro e he p hp
    rw [e1] at he
    rw [e2, mark_len]
    simp only [List.mem_append, List.mem_singleton] at he
    rcases he with he | he
    · exact h.ptr e he p hp
    · subst he; exact hx p hp
  · intro q e hq
    rw [e1] at hq
    rcases look q e hq with h' | ⟨h1, h2⟩
    · exact h.use q e h'
    · subst h1 h2
      refine ⟨?_, fun _ => rfl⟩
      rw [h.out _ (Nat.le_refl _), if_neg (by have := h.many; omega)]
      exact Nat.le_refl _
  · intro q hq
    rw [e1, List.length_append] at hq
    exact h.out q (by simp at hq; omega)
  · intro p hp
    rw [e2, mark_len] at hp
    have h1 : usage (addXf (markFont? s x.font) x) p = usage (markFont? s x.font) p := rfl
    rw [h1, usage_mark s x.font p hp, e1, refs, List.countP_append]
    have := h.shared p hp
    rw [refs] at this
    by_cases hxf : x.font = some p
    · rw [if_pos hxf]
      have : List.countP (holds p) [(⟨x, s.xfNext, 0, false⟩ : XEnt)] ≤ 1 := List.countP_le_length
      omega
    · rw [if_neg hxf]
      have : List.countP (holds p) [(⟨x, s.xfNext, 0, false⟩ : XEnt)] = 0 := by simp [holds, hxf]
      omega
  · intro q e hq
    rw [e1] at hq
    rcases look q e hq with h' | ⟨h1, h2⟩
    · exact h.index q e h'
    · subst h1 h2
      exact h.next
  · show ((markFont? s x.font).xfNext + 1) % 65536 = _
    rw [r2, e1, List.length_append, h.next]
    simp only [List.length_singleton]
    omega

end Xls.Styles
