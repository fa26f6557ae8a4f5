import Verif.Prog.Spec
import Verif.Look.Lemmas
import Verif.Page.Calls
/-
Every call keeps the workbook in step with what was asked for.
-/
namespace Xls.Prog
open Xls.Page (Act latest latest_snoc)
open Xls.Whole Xls.Cells
open Xls.Styles.Spec (upd fontOf wantXf wantFont)

/-- The conditions of C57, and formats given to columns and rows exist and were not given up by all their users. -/
def Mild (s : State) (A : Asked) : Call → Prop
  | .look c => Look.Ok s.look A.look c
  | .page i a => ∀ k q, slotOf i a = some (k, some q) →
      (∃ l, A.look.looks.formats q = some l) ∧ ∀ e, s.look.styles.xfs[q]? = some e → Styles.dead e = false

/-- A row that has a format is not given a height again (`c61_row_replaced`). -/
def Kept (A : Asked) : Call → Prop
  | .look _ => True
  | .page i a => ∀ k x, slotOf i a = some (k, x) → k.row = true → ∀ q, latest (gives true k.num) (A.acts i) ≠ some (some q)

def Ok (s : State) (A : Asked) (c : Call) : Prop := Mild s A c ∧ Kept A c

/-- The specification with the columns and rows that have a format added to the cells, and without. -/
structure Agree (held : Slot → Option Nat) (B A : Look.Asked) : Prop where
  writes : B.writes = A.writes
  codes : B.codes = A.codes
  fonts : B.looks.fonts = A.looks.fonts
  formats : B.looks.formats = A.looks.formats
  cells : ∀ c, (∀ k, held k ≠ some c) → B.looks.cells c = A.looks.cells c
  apart : ∀ k c, held k = some c → A.looks.cells c = none
  live : ∀ k c, held k = some c → ∃ l, B.looks.cells c = some l

structure Good (s : State) (A : Asked) : Prop where
  look : ∃ B, Look.Good s.look B ∧ Agree s.held B A.look
  acts : s.acts = A.acts
  inj : ∀ k k' c, s.held k = some c → s.held k' = some c → k = k'
  placed : ∀ k c, s.held k = some c → ∀ i row col d, lastWrite A.look.writes i row col = some d → d.id ≠ c
  given : ∀ k c, s.held k = some c → ∃ q, latest (gives k.row k.num) (A.acts k.sheet) = some (some q)
  known : ∀ i, ∀ a ∈ A.acts i, ∀ k q, slotOf i a = some (k, some q) → ∃ l, A.look.looks.formats q = some l

theorem Agree.font {held : Slot → Option Nat} {B A : Look.Asked} (h : Agree held B A) (l : Styles.Spec.Look) : fontOf B.looks l = fontOf A.looks l := by
  unfold fontOf
  rw [h.fonts]

/-- A handle that the program has is not that of a column or row. -/
theorem Agree.cell {held : Slot → Option Nat} {B A : Look.Asked} (h : Agree held B A) {c : Nat} {l : Styles.Spec.Look} (hl : A.looks.cells c = some l) :
    (∀ k, held k ≠ some c) ∧ B.looks.cells c = some l := by
  have : ∀ k, held k ≠ some c := fun k hk => by rw [h.apart k c hk] at hl; cases hl
  exact ⟨this, by rw [h.cells c this, hl]⟩

theorem Agree.styleOk {held : Slot → Option Nat} {B A : Look.Asked} (h : Agree held B A) {s : Styles.State} {a : Styles.Action} (ok : Styles.Ok s A.looks a) :
    Styles.Ok s B.looks a := by
  have call : ∀ o, Styles.CallOk A.looks o → Styles.CallOk B.looks o := fun o ho => ⟨ho.1, by rw [h.fonts]; exact ho.2⟩
  have cell : ∀ c, (∃ l, A.looks.cells c = some l) → ∃ l, B.looks.cells c = some l := fun c ⟨l, hl⟩ => ⟨l, (h.cell hl).2⟩
  cases a with
  | newFont n => exact ok
  | stockFont n => exact ok
  | copyFont p => show ∃ l, _ = _; rw [h.fonts]; exact ok
  | copyXf q => show ∃ l, _ = _; rw [h.formats]; exact ok
  | font p o => exact ⟨by rw [h.fonts]; exact ok.1, ok.2⟩
  | newXf => exact ok
  | xf q o => exact ⟨by rw [h.formats]; exact ok.1, call o ok.2.1, ok.2.2⟩
  | newCell q =>
    cases q with
    | none => exact ok
    | some q => exact ⟨by rw [h.formats]; exact ok.1, ok.2⟩
  | destroy c => exact cell c ok
  | setXf c q => exact ⟨cell c ok.1, by rw [h.formats]; exact ok.2.1, ok.2.2⟩
  | adopt c q ops => exact ⟨cell c ok.1, fun o ho => call o (ok.2.1 o ho), ok.2.2⟩
  | cell c o => exact ⟨cell c ok.1, call o ok.2⟩
  | cellFont c o => exact ⟨cell c ok.1, ok.2⟩

theorem Agree.ok {held : Slot → Option Nat} {B A : Look.Asked} (h : Agree held B A) {s : Look.State} {c : Look.Call} (ok : Look.Ok s A c) : Look.Ok s B c := by
  cases c with
  | put i row col v q => exact h.styleOk ok
  | style a => exact ⟨h.styleOk ok.1, by rw [h.writes]; exact ok.2⟩
  | format code => exact ⟨by rw [h.codes]; exact ok.1, ok.2⟩

/-- The same change of a cell on both sides. -/
theorem Agree.set {held : Slot → Option Nat} {B A : Look.Asked} (h : Agree held B A) {c : Nat} (hc : ∀ k, held k ≠ some c) {v w : Option Styles.Spec.Look}
    (hv : v = w) :
    Agree held { B with looks := { B.looks with cells := upd B.looks.cells c v } } { A with looks := { A.looks with cells := upd A.looks.cells c w } } := by
  refine ⟨h.writes, h.codes, h.fonts, h.formats, ?_, ?_, ?_⟩
  · intro x hx
    simp only [upd]
    by_cases e : x = c
    · rw [if_pos e, if_pos e, hv]
    · rw [if_neg e, if_neg e, h.cells x hx]
  · intro k x hk
    have e : x ≠ c := fun e => hc k (e ▸ hk)
    simp only [upd]
    rw [if_neg e, h.apart k x hk]
  · intro k x hk
    have e : x ≠ c := fun e => hc k (e ▸ hk)
    simp only [upd]
    rw [if_neg e]
    exact h.live k x hk

theorem Agree.lt {held : Slot → Option Nat} {B A : Look.Asked} (h : Agree held B A) {s : Look.State} (G : Look.Good s B) {k : Slot} {c : Nat} (hk : held k = some c) :
    c < s.styles.cells.length := by
  obtain ⟨l, hl⟩ := h.live k c hk
  obtain ⟨q, e, h1, -⟩ := G.styles.cell hl
  exact (List.getElem?_eq_some_iff.mp h1).1

theorem Agree.style {held : Slot → Option Nat} {B A : Look.Asked} (h : Agree held B A) {s : Look.State} (G : Look.Good s B) (a : Styles.Action)
    (ok : Styles.Ok s.styles A.looks a) :
    Agree held { B with looks := Styles.Spec.step (Styles.handle s.styles a) B.looks a } { A with looks := Styles.Spec.step (Styles.handle s.styles a) A.looks a } := by
  have fresh : ∀ k, held k ≠ some s.styles.cells.length := fun k hk => by have := h.lt G hk; omega
  cases a with
  | newFont n => exact ⟨h.writes, h.codes, by simp only [Styles.Spec.step, h.fonts], h.formats, h.cells, h.apart, h.live⟩
  | stockFont n => exact ⟨h.writes, h.codes, by simp only [Styles.Spec.step, h.fonts], h.formats, h.cells, h.apart, h.live⟩
  | copyFont p => exact ⟨h.writes, h.codes, by simp only [Styles.Spec.step, h.fonts], h.formats, h.cells, h.apart, h.live⟩
  | copyXf q => exact ⟨h.writes, h.codes, h.fonts, by simp only [Styles.Spec.step, h.formats], h.cells, h.apart, h.live⟩
  | font p o => exact ⟨h.writes, h.codes, by simp only [Styles.Spec.step, h.fonts], h.formats, h.cells, h.apart, h.live⟩
  | newXf => exact ⟨h.writes, h.codes, h.fonts, by simp only [Styles.Spec.step, h.formats], h.cells, h.apart, h.live⟩
  | xf q o => exact ⟨h.writes, h.codes, h.fonts, by simp only [Styles.Spec.step, h.formats], h.cells, h.apart, h.live⟩
  | newCell q =>
    cases q with
    | none => exact h.set fresh rfl
    | some q => exact h.set fresh (by rw [h.formats])
  | destroy c =>
    obtain ⟨l, hl⟩ := ok
    exact h.set (h.cell hl).1 rfl
  | setXf c q =>
    obtain ⟨⟨l, hl⟩, -⟩ := ok
    exact h.set (h.cell hl).1 (by rw [h.formats])
  | adopt c q ops =>
    obtain ⟨⟨l, hl⟩, -⟩ := ok
    exact h.set (h.cell hl).1 (by rw [(h.cell hl).2, hl])
  | cell c o =>
    obtain ⟨⟨l, hl⟩, -⟩ := ok
    exact h.set (h.cell hl).1 (by rw [(h.cell hl).2, hl])
  | cellFont c o =>
    obtain ⟨⟨l, hl⟩, -⟩ := ok
    refine h.set (h.cell hl).1 ?_
    rw [(h.cell hl).2, hl, Option.bind_some, Option.bind_some, Styles.Spec.onFontCall, Styles.Spec.onFontCall, h.font]

theorem Agree.ask {held : Slot → Option Nat} {B A : Look.Asked} (h : Agree held B A) {s : Look.State} (G : Look.Good s B) (c : Look.Call)
    (ok : Look.Ok s A c) (hp : ∀ k c, held k = some c → ∀ i row col d, lastWrite A.writes i row col = some d → d.id ≠ c) :
    Agree held (Look.ask s B c) (Look.ask s A c) := by
  cases c with
  | style a => exact h.style G a ok.1
  | format code => exact ⟨h.writes, by simp only [Look.ask, h.codes], h.fonts, h.formats, h.cells, h.apart, h.live⟩
  | put i row col v q =>
    have h1 := h.style G (.newCell q) ok
    have h2 : Agree held
        { B with looks := Styles.Spec.step s.styles.cells.length B.looks (.newCell q), writes := B.writes ++ [(i, ⟨s.styles.cells.length, row, col, v⟩)] }
        { A with looks := Styles.Spec.step s.styles.cells.length A.looks (.newCell q), writes := A.writes ++ [(i, ⟨s.styles.cells.length, row, col, v⟩)] } :=
      ⟨by rw [h.writes], h1.codes, h1.fonts, h1.formats, h1.cells, h1.apart, h1.live⟩
    simp only [Look.ask, h.writes]
    cases hw : lastWrite A.writes i row col with
    | none => exact (by rw [h.writes] at h2; exact h2)
    | some d =>
      have := h2.set (c := d.id) (v := none) (fun k hk => hp k d.id hk i row col d hw rfl) rfl
      rw [h.writes] at this
      exact this

/-- No call takes a format away. -/
theorem formats_stay {s : Look.State} {A : Look.Asked} (c : Look.Call) (ok : Look.Ok s A c) {q : Nat} {l : Styles.Spec.Look}
    (h : A.looks.formats q = some l) :
    ∃ l', (Look.ask s A c).looks.formats q = some l' := by
  have style : ∀ k a, (∀ p, a = .copyXf p → ∃ l, A.looks.formats p = some l) → ∃ l', (Styles.Spec.step k A.looks a).formats q = some l' := by
    intro k a hc
    cases a with
    | newXf =>
      by_cases e : q = k
      · exact ⟨_, by simp only [Styles.Spec.step, upd, if_pos e]; rfl⟩
      · exact ⟨l, by simp only [Styles.Spec.step, upd, if_neg e, h]⟩
    | copyXf p =>
      obtain ⟨m, hm⟩ := hc p rfl
      by_cases e : q = k
      · exact ⟨m, by simp only [Styles.Spec.step, upd, if_pos e, hm]⟩
      · exact ⟨l, by simp only [Styles.Spec.step, upd, if_neg e, h]⟩
    | xf p o =>
      by_cases e : q = p
      · exact ⟨_, by simp only [Styles.Spec.step, upd, if_pos e]; rw [← e, h]; rfl⟩
      · exact ⟨l, by simp only [Styles.Spec.step, upd, if_neg e, h]⟩
    | newCell x => cases x <;> exact ⟨l, h⟩
    | _ => exact ⟨l, h⟩
  cases c with
  | style a => exact style _ a (fun p e => by subst e; exact ok.1)
  | format code => exact ⟨l, h⟩
  | put i row col v x =>
    simp only [Look.ask]
    cases lastWrite A.writes i row col <;> exact style _ _ (fun p e => by cases e)

theorem sim_look {s : State} {A : Asked} (G : Good s A) (c : Look.Call) (ok : Look.Ok s.look A.look c) (hmany : s.look.styles.fonts.length < 65535) :
    ∃ t, step s (.look c) = some t ∧ Good t (ask s A (.look c)) := by
  obtain ⟨B, GB, ag⟩ := G.look
  obtain ⟨t, t1, t2⟩ := Look.sim GB c (ag.ok ok) hmany
  refine ⟨{ s with look := t }, by simp [step, t1], ⟨_, t2, ag.ask GB c ok G.placed⟩, G.acts, G.inj, ?_, G.given, ?_⟩
  · intro k x hk i row col d hw
    change lastWrite (Look.ask s.look A.look c).writes i row col = some d at hw
    cases c with
    | put i' row' col' v q =>
      simp only [Look.ask] at hw
      rw [lastWrite_append] at hw
      split at hw
      · have := ag.lt GB hk
        rw [← Option.some.inj hw]
        exact Nat.ne_of_gt this
      · exact G.placed k x hk i row col d hw
    | style a => exact G.placed k x hk i row col d hw
    | format code => exact G.placed k x hk i row col d hw
  · intro i a ha k q hq
    obtain ⟨l, hl⟩ := G.known i a ha k q hq
    exact formats_stay c ok hl

theorem gives_slot {i : Nat} {a : Act} {k : Slot} {x : Option Nat} (h : slotOf i a = some (k, x)) : k.sheet = i ∧
    ∀ k' : Slot, k'.sheet = i → gives k'.row k'.num a = if k' = k then some x else none := by
  cases a with
  | call c =>
    cases c with
    | colwidth c w y =>
      simp only [slotOf, Option.some.injEq, Prod.mk.injEq] at h
      obtain ⟨rfl, rfl⟩ := h
      refine ⟨rfl, ?_⟩
      rintro ⟨j, b, n⟩ rfl
      cases b
      · simp only [gives, Act.column]
        by_cases e : c.toNat = n
        · subst e; simp
        · simp [e, eq_comm (a := n)]
      · simp [gives, Act.height]
    | rowheight r w y =>
      simp only [slotOf, Option.some.injEq, Prod.mk.injEq] at h
      obtain ⟨rfl, rfl⟩ := h
      refine ⟨rfl, ?_⟩
      rintro ⟨j, b, n⟩ rfl
      cases b
      · simp [gives, Act.column]
      · simp only [gives, Act.height]
        by_cases e : r.toNat = n
        · subst e; simp
        · simp [e, eq_comm (a := n)]
    | _ => cases h
  | _ => cases h

theorem gives_none {i : Nat} {a : Act} (h : slotOf i a = none) (b : Bool) (n : Nat) : gives b n a = none := by
  cases a with
  | call c =>
    cases c with
    | colwidth c w y => cases h
    | rowheight r w y => cases h
    | _ => cases b <;> rfl
  | _ => cases b <;> rfl

/-- What the format that comes with a size does. -/
theorem sim_give {s : State} {A : Asked} (G : Good s A) (k : Slot) (x : Option Nat) (hmany : s.look.styles.fonts.length < 65535)
    (h1 : ∀ q, x = some q → (∃ l, A.look.looks.formats q = some l) ∧ ∀ e, s.look.styles.xfs[q]? = some e → Styles.dead e = false)
    (h2 : k.row = true → s.held k = none) :
    ∃ t, give s k x = some t ∧ (∃ B, Look.Good t.look B ∧ Agree t.held B A.look) ∧ t.acts = s.acts ∧
      (∀ k', k' ≠ k → t.held k' = s.held k') ∧ (t.held k = none ↔ x = none) ∧ (∀ c, t.held k = some c → s.held k = some c ∨ s.look.styles.cells.length = c) ∧
      ∀ k c, t.held k = some c → c ≤ s.look.styles.cells.length := by
  obtain ⟨B, GB, ag⟩ := G.look
  have hle : ∀ k c, s.held k = some c → c ≤ s.look.styles.cells.length := fun k c hk => Nat.le_of_lt (ag.lt GB hk)
  cases hk : s.held k with
  | none =>
    cases x with
    | none => exact ⟨s, by simp only [give, hk], ⟨B, GB, ag⟩, rfl, fun _ _ => rfl, by simp [hk], fun c h => .inl (hk ▸ h), hle⟩
    | some q =>
      obtain ⟨⟨l, hl⟩, hd⟩ := h1 q rfl
      have ok : Look.Ok s.look A.look (.style (.newCell (some q))) := ⟨⟨⟨l, hl⟩, hd⟩, by intro c h; cases h⟩
      obtain ⟨t, t1, t2⟩ := Look.sim GB _ (ag.ok ok) hmany
      simp only [Look.step, Styles.step, Option.map_some, Option.some.injEq] at t1
      subst t1
      have hput : ∀ k', k' ≠ k → put s.held k (some s.look.styles.cells.length) k' = s.held k' := fun k' h => by simp [put, h]
      have hself : put s.held k (some s.look.styles.cells.length) k = some s.look.styles.cells.length := by simp [put]
      refine ⟨{ s with look := { s.look with styles := Styles.newCell s.look.styles (some q) }, held := put s.held k (some s.look.styles.cells.length) },
        by simp only [give, hk], ⟨_, t2, ?_⟩, rfl, hput, ?_, ?_, ?_⟩
      · refine ⟨ag.writes, ag.codes, ag.fonts, ag.formats, ?_, ?_, ?_⟩
        · intro c hc
          have hne : c ≠ s.look.styles.cells.length := fun e => hc k (by rw [e]; exact hself)
          simp only [Look.ask, Styles.Spec.step, Styles.handle, upd]
          rw [if_neg hne]
          refine ag.cells c fun k' hk' => ?_
          by_cases e : k' = k
          · rw [e, hk] at hk'; cases hk'
          · exact hc k' ((hput k' e).trans hk')
        · intro k' c hc
          by_cases e : k' = k
          · rw [e] at hc
            have := Option.some.inj (hself.symm.trans hc)
            cases hA : A.look.looks.cells c with
            | none => rfl
            | some l' =>
              have := (ag.cell hA).2
              obtain ⟨q', e', g1, -⟩ := GB.styles.cell this
              have := (List.getElem?_eq_some_iff.mp g1).1
              omega
          · exact ag.apart k' c ((hput k' e).symm.trans hc)
        · intro k' c hc
          simp only [Look.ask, Styles.Spec.step, Styles.handle, upd]
          by_cases e : k' = k
          · rw [e] at hc
            rw [if_pos (Option.some.inj (hself.symm.trans hc)).symm, ag.formats]
            exact ⟨l, hl⟩
          · have hc' := (hput k' e).symm.trans hc
            have := ag.lt GB hc'
            rw [if_neg (by omega)]
            exact ag.live k' c hc'
      · exact ⟨fun h => by have := hself.symm.trans h; (cases this), fun h => by cases h⟩
      · intro c hc
        exact .inr (Option.some.inj (hself.symm.trans hc))
      · intro k' c hc
        by_cases e : k' = k
        · rw [e] at hc
          exact Nat.le_of_eq (Option.some.inj (hself.symm.trans hc)).symm
        · exact hle k' c ((hput k' e).symm.trans hc)
  | some c =>
    have hrow : k.row = false := by
      cases h : k.row with
      | false => rfl
      | true => have := h2 h; rw [hk] at this; cases this
    have hag : ∀ old st, again k old st = some st := fun old st => by simp [again, hrow]
    obtain ⟨lc, hlc⟩ := ag.live k c hk
    cases x with
    | none =>
      have ok : Look.Ok s.look B (.style (.destroy c)) := ⟨⟨lc, hlc⟩, by
        intro c' h i row col d hw
        cases h
        rw [ag.writes] at hw
        exact G.placed k c hk i row col d hw⟩
      obtain ⟨t, t1, t2⟩ := Look.sim GB _ ok hmany
      simp only [Look.step, Styles.step] at t1
      obtain ⟨st, e1, rfl⟩ := Option.map_eq_some_iff.mp t1
      have hput : ∀ k', k' ≠ k → put s.held k none k' = s.held k' := fun k' h => by simp [put, h]
      have hself : put s.held k none k = none := by simp [put]
      have hof : ∀ k' c', put s.held k none k' = some c' → k' ≠ k ∧ s.held k' = some c' := by
        intro k' c' h
        by_cases e : k' = k
        · rw [e, hself] at h; cases h
        · exact ⟨e, (hput k' e).symm.trans h⟩
      refine ⟨{ s with look := { s.look with styles := st }, held := put s.held k none },
        by simp only [give, hk, e1, Option.bind_some, hag, Option.map_some], ⟨_, t2, ?_⟩, rfl, hput, ?_, ?_, fun k' c' h => hle k' c' (hof k' c' h).2⟩
      · refine ⟨ag.writes, ag.codes, ag.fonts, ag.formats, ?_, fun k' c' h => ag.apart k' c' (hof k' c' h).2, ?_⟩
        · intro c' hc'
          simp only [Look.ask, Styles.Spec.step, upd]
          by_cases e : c' = c
          · rw [if_pos e, e, ag.apart k c hk]
          · rw [if_neg e]
            refine ag.cells c' fun k' hk' => ?_
            by_cases e' : k' = k
            · rw [e', hk] at hk'
              exact e (Option.some.inj hk').symm
            · exact hc' k' ((hput k' e').trans hk')
        · intro k' c' h
          obtain ⟨e1, e2⟩ := hof k' c' h
          simp only [Look.ask, Styles.Spec.step, upd]
          rw [if_neg (fun e : c' = c => e1 (G.inj k' k c (e ▸ e2) hk))]
          exact ag.live k' c' e2
      · exact ⟨fun _ => rfl, fun _ => hself⟩
      · intro c' h
        have := hself.symm.trans h
        cases this
    | some q =>
      obtain ⟨⟨l, hl⟩, hd⟩ := h1 q rfl
      have ok : Look.Ok s.look B (.style (.setXf c q)) := ⟨⟨⟨lc, hlc⟩, ⟨l, by rw [ag.formats, hl]⟩, hd⟩, by intro c h; cases h⟩
      obtain ⟨t, t1, t2⟩ := Look.sim GB _ ok hmany
      simp only [Look.step, Styles.step] at t1
      obtain ⟨st, e1, rfl⟩ := Option.map_eq_some_iff.mp t1
      refine ⟨{ s with look := { s.look with styles := st } },
        by simp only [give, hk, e1, Option.bind_some, hag, Option.map_some], ⟨_, t2, ?_⟩, rfl, fun _ _ => rfl, ?_, ?_, hle⟩
      · refine ⟨ag.writes, ag.codes, ag.fonts, ag.formats, ?_, ag.apart, ?_⟩
        · intro c' hc'
          simp only [Look.ask, Styles.Spec.step, upd]
          rw [if_neg (fun e : c' = c => hc' k (e ▸ hk))]
          exact ag.cells c' hc'
        · intro k' c' h
          simp only [Look.ask, Styles.Spec.step, upd]
          by_cases e : c' = c
          · rw [if_pos e, ag.formats]; exact ⟨l, hl⟩
          · rw [if_neg e]; exact ag.live k' c' h
      · simp [hk]
      · intro c' h
        rw [← hk]
        exact .inl h

theorem sim_page {s : State} {A : Asked} (G : Good s A) (i : Nat) (a : Act) (ok : Ok s A (.page i a)) (hmany : s.look.styles.fonts.length < 65535) :
    ∃ t, step s (.page i a) = some t ∧ Good t (ask s A (.page i a)) := by
  have hput : ∀ (f : Nat → List Act) j, put f i (f i ++ [a]) j = if j = i then f i ++ [a] else f j := fun _ _ => rfl
  cases hs : slotOf i a with
  | none =>
    refine ⟨{ s with acts := put s.acts i (s.acts i ++ [a]) }, by simp only [step, hs, Option.map_some], G.look, ?_, G.inj, G.placed, ?_, ?_⟩
    · simp only [ask, G.acts]
    · intro k c hk
      obtain ⟨q, hq⟩ := G.given k c hk
      refine ⟨q, ?_⟩
      simp only [ask, hput]
      split
      · rename_i e
        rw [latest_snoc, gives_none hs, Option.none_or, ← e, hq]
      · exact hq
    · intro j b hb k q hq
      simp only [ask, hput] at hb
      by_cases e : j = i
      · rw [if_pos e] at hb
        rcases List.mem_append.mp hb with hb | hb
        · exact G.known j b (e ▸ hb) k q hq
        · rw [List.mem_singleton.mp hb, e, hs] at hq
          cases hq
      · rw [if_neg e] at hb
        exact G.known j b hb k q hq
  | some p =>
    obtain ⟨k, x⟩ := p
    have o1 : ∀ q, x = some q → _ := fun q hq => ok.1 k q (hq ▸ hs)
    have o2 := ok.2 k x hs
    obtain ⟨g1, g2⟩ := gives_slot hs
    have hrow : k.row = true → s.held k = none := by
      intro hr
      cases hk : s.held k with
      | none => rfl
      | some c =>
        obtain ⟨q, hq⟩ := G.given k c hk
        rw [hr, g1] at hq
        exact absurd hq (o2 hr q)
    obtain ⟨t, t1, t2, t3, t4, t5, t6, t7⟩ := sim_give G k x hmany o1 hrow
    obtain ⟨B, GB, ag⟩ := G.look
    have hof : ∀ k' c, t.held k' = some c → k' ≠ k → s.held k' = some c := fun k' c h e => (t4 k' e).symm.trans h
    refine ⟨{ t with acts := put t.acts i (t.acts i ++ [a]) }, by simp only [step, hs, t1, Option.map_some], t2, ?_, ?_, ?_, ?_, ?_⟩
    · simp only [ask, t3, G.acts]
    · intro k1 k2 c h1 h2
      have hkey : ∀ k', k' ≠ k → t.held k' = some c → t.held k = some c → False := by
        intro k' e h3 h4
        have h5 := hof k' c h3 e
        rcases t6 c h4 with h6 | h6
        · exact e (G.inj k' k c h5 h6)
        · have := ag.lt GB h5
          omega
      by_cases e1 : k1 = k
      · by_cases e2 : k2 = k
        · rw [e1, e2]
        · exact (hkey k2 e2 h2 (e1 ▸ h1)).elim
      · by_cases e2 : k2 = k
        · exact (hkey k1 e1 h1 (e2 ▸ h2)).elim
        · exact G.inj k1 k2 c (hof k1 c h1 e1) (hof k2 c h2 e2)
    · intro k' c hk' j row col d hw
      have hlt : d.id < s.look.styles.cells.length := GB.lt (by rw [ag.writes]; exact hw)
      by_cases e : k' = k
      · rcases t6 c (e ▸ hk') with h | h
        · exact G.placed k c h j row col d hw
        · omega
      · exact G.placed k' c (hof k' c hk' e) j row col d hw
    · intro k' c hk'
      simp only [ask, hput]
      by_cases e : k' = k
      · subst e
        rw [if_pos g1, latest_snoc, g2 k' g1, if_pos rfl]
        cases x with
        | none => rw [t5.mpr rfl] at hk'; cases hk'
        | some q => exact ⟨q, rfl⟩
      · obtain ⟨q, hq⟩ := G.given k' c (hof k' c hk' e)
        refine ⟨q, ?_⟩
        by_cases ei : k'.sheet = i
        · rw [if_pos ei, latest_snoc, g2 k' ei, if_neg e, Option.none_or, ← ei, hq]
        · rw [if_neg ei, hq]
    · intro j b hb k' q hq
      simp only [ask, hput] at hb
      by_cases e : j = i
      · rw [if_pos e] at hb
        rcases List.mem_append.mp hb with hb | hb
        · exact G.known j b (e ▸ hb) k' q hq
        · rw [List.mem_singleton.mp hb, e, hs] at hq
          simp only [Option.some.injEq, Prod.mk.injEq] at hq
          exact (o1 q hq.2).1
      · rw [if_neg e] at hb
        exact G.known j b hb k' q hq

theorem sim {s : State} {A : Asked} (G : Good s A) (c : Call) (ok : Ok s A c) (hmany : s.look.styles.fonts.length < 65535) :
    ∃ t, step s c = some t ∧ Good t (ask s A c) := by
  cases c with
  | look c => exact sim_look G c ok.1 hmany
  | page i a => exact sim_page G i a ok hmany

/-! ### Programs -/

/-- What a program asked for; new objects have the handles they really got. -/
def asked (s : State) (A : Asked) : List Call → Asked
  | [] => A
  | c :: r => match step s c with
    | none => A
    | some t => asked t (ask s A c) r

/-- A condition along a program, and no more fonts than numbers for them. -/
def Along (P : State → Asked → Call → Prop) (s : State) (A : Asked) : List Call → Prop
  | [] => True
  | c :: r => P s A c ∧ s.look.styles.fonts.length < 65535 ∧ ∀ t, step s c = some t → Along P t (ask s A c) r

def Fine : State → Asked → List Call → Prop := Along Ok

theorem sim_all {s : State} {A : Asked} (G : Good s A) (calls : List Call) (hf : Fine s A calls) :
    ∃ t, steps s calls = some t ∧ Good t (asked s A calls) := by
  induction calls generalizing s A with
  | nil => exact ⟨s, rfl, G⟩
  | cons c r ih =>
    obtain ⟨h1, h2, h3⟩ := hf
    obtain ⟨t, t1, t2⟩ := sim G c h1 h2
    obtain ⟨u, u1, u2⟩ := ih t2 (h3 t t1)
    refine ⟨u, by rw [steps, t1, Option.bind_some, u1], ?_⟩
    rw [asked, t1]
    exact u2

/-- Nothing was asked for yet. -/
def nothing : Asked := ⟨Look.nothing, fun _ => []⟩

theorem init_good : ∃ s, init = some s ∧ Good s nothing := by
  obtain ⟨s, h1, h2⟩ := Look.init_good
  refine ⟨⟨s, fun _ => none, fun _ => []⟩, by simp [init, h1], ⟨_, h2, rfl, rfl, rfl, rfl, fun _ _ => rfl, ?_, ?_⟩, rfl, ?_, ?_, ?_, ?_⟩
  · intro k c h; cases h
  · intro k c h; cases h
  · intro k k' c h; cases h
  · intro k c h; cases h
  · intro k c h; cases h
  · intro i a ha; cases ha

end Xls.Prog
