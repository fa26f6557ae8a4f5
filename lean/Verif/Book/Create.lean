import Verif.Globals.Model
/-
The workbook object before it is saved: making sheets, choosing the active one, counting comments.
-/
namespace Xls.Book
open Xls.Globals

/-- The members of `workbook` and `CGlobalRecords` concerned: `m_sheetIndex` (16 bits, workbook.h 117), the `sheetIndex` of each
    worksheet in `m_Sheets`, `m_BoundSheets` and `m_Window1`. -/
structure Wb where
  counter : Nat
  sheets : List Nat
  bounds : List Bound
  window : Window1

/-- A new workbook, workbook.cpp 60-80. -/
def Wb.init : Wb := ⟨0, [], [], .init⟩

inductive WbOp
  | sheet (name : List UInt16)
  | makeActive (i : Nat)
  | note (i : Nat)
  | firstTab (v : UInt16)
  | tabBarWidth (v : UInt16)
  | position (horz vert : UInt16)
  | size (width height : UInt16)

/-- `m_BoundSheets[i]->BumpNoteCount()`, globalrec.cpp 702-707, recdef.h 329 (16 bits); past the end it is undefined. -/
def bump : Nat → List Bound → Option (List Bound)
  | _, [] => none
  | 0, b :: r => some ({ b with notes := (b.notes + 1) % 65536 } :: r)
  | i + 1, b :: r => (bump i r).map (b :: ·)

/-- `workbook::sheet`, workbook.cpp 115-147; `worksheet::MakeActive`, sheetrec.cpp 784-787; `worksheet::note`, sheetrec.cpp
    881-897, as far as the workbook is concerned; `windPosition`, `windSize`, `firstTab` and `tabBarWidth`, workbook.cpp 255-258.  Sheets are named by the order in which they were
    made; a call on a sheet that was never made is not possible and changes nothing here. -/
def Wb.op (w : Wb) : WbOp → Option Wb
  | .sheet name => some { w with counter := (w.counter + 1) % 65536, sheets := w.sheets ++ [w.counter], bounds := w.bounds ++ [⟨name, 0⟩] }
  | .makeActive i =>
    match w.sheets[i]? with
    | some x => some { w with window := { w.window with active := x } }
    | none => some w
  | .note i =>
    match w.sheets[i]? with
    | some x => (bump x w.bounds).map fun b => { w with bounds := b }
    | none => some w
  | .firstTab v => some { w with window := { w.window with first := v.toNat } }
  | .tabBarWidth v => some { w with window := w.window.setTabBar v.toNat }
  | .position h v => some { w with window := { w.window with horz := h.toNat, vert := v.toNat } }
  | .size x y => some { w with window := { w.window with width := x.toNat, height := y.toNat } }

def Wb.runFrom (w : Wb) : List WbOp → Option Wb
  | [] => some w
  | o :: r => (w.op o).bind fun w' => w'.runFrom r

def Wb.run (ops : List WbOp) : Option Wb := Wb.init.runFrom ops

/-- The argument of MakeCWindow2, sheetrec.cpp 470. -/
def Wb.isActive (w : Wb) (i : Nat) : Bool :=
  match w.sheets[i]? with
  | some x => x == w.window.active
  | none => false

/-! ### What is asked for -/

/-- The names asked for, in order. -/
def names : List WbOp → List (List UInt16)
  | [] => []
  | .sheet n :: r => n :: names r
  | _ :: r => names r

/-- The sheet chosen last among those that exist at the time (`k` sheets exist), or the given one. -/
def chosen (k : Nat) (d : Nat) : List WbOp → Nat
  | [] => d
  | .sheet _ :: r => chosen (k + 1) d r
  | .makeActive i :: r => chosen k (if i < k then i else d) r
  | _ :: r => chosen k d r

/-- How many comments were made on sheet `j`. -/
def notesOn (j : Nat) (k : Nat) : List WbOp → Nat
  | [] => 0
  | .sheet _ :: r => notesOn j (k + 1) r
  | .note i :: r => (if i = j ∧ i < k then 1 else 0) + notesOn j k r
  | _ :: r => notesOn j k r

/-! ### Proofs -/

theorem bump_at {l : List Bound} {i : Nat} (h : i < l.length) :
    ∃ m, bump i l = some m ∧ m.length = l.length ∧ ∀ j b, l[j]? = some b →
      m[j]? = some (if i = j then { b with notes := (b.notes + 1) % 65536 } else b) := by
  induction l generalizing i with
  | nil => simp at h
  | cons a r ih =>
    cases i with
    | zero =>
      refine ⟨_, rfl, rfl, ?_⟩
      intro j b hj
      cases j with
      | zero =>
        simp only [List.getElem?_cons_zero, Option.some.injEq] at hj ⊢
        rw [hj, if_pos trivial]
      | succ j => simpa using hj
    | succ i =>
      obtain ⟨m, h1, h2, h3⟩ := ih (by simpa using h)
      refine ⟨a :: m, by simp [bump, h1], by simp [h2], ?_⟩
      intro j b hj
      cases j with
      | zero => simpa using hj
      | succ j =>
        have := h3 j b (by simpa using hj)
        simp only [List.getElem?_cons_succ, this, Nat.add_right_cancel_iff]

/-- What holds of a workbook with `n` sheets. -/
structure Made (w : Wb) (n : Nat) : Prop where
  counter : w.counter = n % 65536
  sheets : w.sheets = List.range n
  bounds : w.bounds.length = n
  active : w.window.active < n ∨ w.window.active = 0

theorem run_made (ops : List WbOp) : ∀ (w : Wb) (n : Nat), Made w n → n + (names ops).length ≤ 65536 →
    ∃ w', w.runFrom ops = some w' ∧ Made w' (n + (names ops).length) ∧ w'.window.active = chosen n w.window.active ops ∧
      (∀ i b, w.bounds[i]? = some b → ∃ b', w'.bounds[i]? = some b' ∧ b'.name = b.name ∧ b'.notes % 65536 = (b.notes + notesOn i n ops) % 65536) ∧
      ∀ i nm, (names ops)[i]? = some nm → ∃ b', w'.bounds[n + i]? = some b' ∧ b'.name = nm ∧ b'.notes % 65536 = notesOn (n + i) n ops % 65536 := by
  induction ops with
  | nil =>
    intro w n h _
    exact ⟨w, rfl, h, rfl, fun i b hb => ⟨b, hb, rfl, rfl⟩, by simp [names]⟩
  | cons o r ih =>
    intro w n h hn
    cases o with
    | sheet nm =>
      simp only [names, List.length_cons] at hn
      have hc : w.counter = n := by rw [h.counter]; exact Nat.mod_eq_of_lt (by omega)
      obtain ⟨w', h1, h2, h3, h4, h5⟩ := ih { w with counter := (w.counter + 1) % 65536, sheets := w.sheets ++ [w.counter], bounds := w.bounds ++ [⟨nm, 0⟩] }
        (n + 1) ⟨by simp [hc], by simp [h.sheets, hc, List.range_succ], by simp [h.bounds], by
          rcases h.active with a | a
          · exact .inl (by simp only; omega)
          · exact .inr a⟩ (by omega)
      refine ⟨w', by simpa [Wb.runFrom, Wb.op] using h1, by rw [names, List.length_cons, show n + ((names r).length + 1) = n + 1 + (names r).length by omega]; exact h2, by simpa [chosen] using h3, ?_, ?_⟩
      · intro i b hb
        have hi : i < w.bounds.length := (List.getElem?_eq_some_iff.mp hb).1
        obtain ⟨b', e1, e2, e3⟩ := h4 i b (by simpa [List.getElem?_append_left hi] using hb)
        exact ⟨b', e1, e2, e3⟩
      · intro i nm' hi
        cases i with
        | zero =>
          simp only [names, List.getElem?_cons_zero, Option.some.injEq] at hi
          subst hi
          obtain ⟨b', e1, e2, e3⟩ := h4 n ⟨nm, 0⟩ (by simp [← h.bounds])
          exact ⟨b', e1, e2, by simpa [notesOn] using e3⟩
        | succ i =>
          simp only [names, List.getElem?_cons_succ] at hi
          obtain ⟨b', e1, e2, e3⟩ := h5 i nm' hi
          rw [show n + (i + 1) = n + 1 + i by omega]
          exact ⟨b', e1, e2, e3⟩
    | makeActive j =>
      by_cases hj : j < n
      · have hs : w.sheets[j]? = some j := by rw [h.sheets]; simp [hj]
        obtain ⟨w', h1, h2, h3, h4, h5⟩ := ih { w with window := { w.window with active := j } } n ⟨h.counter, h.sheets, h.bounds, .inl hj⟩ hn
        exact ⟨w', by simpa [Wb.runFrom, Wb.op, hs] using h1, h2, by simpa [chosen, hj] using h3, h4, h5⟩
      · have hs : w.sheets[j]? = none := by rw [h.sheets]; simp; omega
        obtain ⟨w', h1, h2, h3, h4, h5⟩ := ih w n h hn
        exact ⟨w', by simpa [Wb.runFrom, Wb.op, hs] using h1, h2, by simpa [chosen, hj] using h3, h4, h5⟩
    | note j =>
      by_cases hj : j < n
      · have hs : w.sheets[j]? = some j := by rw [h.sheets]; simp [hj]
        obtain ⟨m, m1, m2, m3⟩ := bump_at (l := w.bounds) (i := j) (by rw [h.bounds]; exact hj)
        obtain ⟨w', h1, h2, h3, h4, h5⟩ := ih { w with bounds := m } n ⟨h.counter, h.sheets, by simp [m2, h.bounds], h.active⟩ hn
        refine ⟨w', by simpa [Wb.runFrom, Wb.op, hs, m1] using h1, h2, h3, ?_, ?_⟩
        · intro i b hb
          obtain ⟨b', e1, e2, e3⟩ := h4 i _ (m3 i b hb)
          refine ⟨b', e1, by rw [e2]; split <;> rfl, ?_⟩
          rw [e3]
          simp only [notesOn]
          by_cases e : j = i
          · subst e; rw [if_pos rfl, if_pos ⟨rfl, hj⟩]; simp only; omega
          · rw [if_neg e, if_neg (fun h => e h.1)]; congr 1; omega
        · intro i nm hi
          obtain ⟨b', e1, e2, e3⟩ := h5 i nm hi
          refine ⟨b', e1, e2, ?_⟩
          rw [e3]
          simp only [notesOn]
          rw [if_neg (by omega), Nat.zero_add]
      · have hs : w.sheets[j]? = none := by rw [h.sheets]; simp; omega
        obtain ⟨w', h1, h2, h3, h4, h5⟩ := ih w n h hn
        refine ⟨w', by simpa [Wb.runFrom, Wb.op, hs] using h1, h2, h3, ?_, ?_⟩
        · intro i b hb
          obtain ⟨b', e1, e2, e3⟩ := h4 i b hb
          exact ⟨b', e1, e2, by rw [e3]; simp only [notesOn]; rw [if_neg (fun h => hj h.2), Nat.zero_add]⟩
        · intro i nm hi
          obtain ⟨b', e1, e2, e3⟩ := h5 i nm hi
          exact ⟨b', e1, e2, by rw [e3]; simp only [notesOn]; rw [if_neg (fun h => hj h.2), Nat.zero_add]⟩
    | firstTab v =>
      obtain ⟨w', h1, h2, h3, h4, h5⟩ := ih { w with window := { w.window with first := v.toNat } } n ⟨h.counter, h.sheets, h.bounds, h.active⟩ hn
      exact ⟨w', by simpa [Wb.runFrom, Wb.op] using h1, h2, h3, h4, h5⟩
    | tabBarWidth v =>
      obtain ⟨w', h1, h2, h3, h4, h5⟩ := ih { w with window := w.window.setTabBar v.toNat } n ⟨h.counter, h.sheets, h.bounds, h.active⟩ hn
      exact ⟨w', by simpa [Wb.runFrom, Wb.op] using h1, h2, h3, h4, h5⟩
    | position x y =>
      obtain ⟨w', h1, h2, h3, h4, h5⟩ := ih { w with window := { w.window with horz := x.toNat, vert := y.toNat } } n ⟨h.counter, h.sheets, h.bounds, h.active⟩ hn
      exact ⟨w', by simpa [Wb.runFrom, Wb.op] using h1, h2, h3, h4, h5⟩
    | size x y =>
      obtain ⟨w', h1, h2, h3, h4, h5⟩ := ih { w with window := { w.window with width := x.toNat, height := y.toNat } } n ⟨h.counter, h.sheets, h.bounds, h.active⟩ hn
      exact ⟨w', by simpa [Wb.runFrom, Wb.op] using h1, h2, h3, h4, h5⟩

/-- C44, making the sheets: whatever calls are made, with at most 65536 sheets the sheet made i-th has index i, the i-th
    BOUNDSHEET has its name and its number of comments (mod 65536), and there is one BOUNDSHEET for each sheet. -/
theorem c44_created (ops : List WbOp) (h : (names ops).length ≤ 65536) :
    ∃ w, Wb.run ops = some w ∧ w.sheets = List.range (names ops).length ∧ w.bounds.length = (names ops).length ∧
      ∀ i nm, (names ops)[i]? = some nm → ∃ b, w.bounds[i]? = some b ∧ b.name = nm ∧ b.notes % 65536 = notesOn i 0 ops % 65536 := by
  obtain ⟨w, h1, h2, _, _, h5⟩ := run_made ops .init 0 ⟨rfl, rfl, rfl, .inr rfl⟩ (by omega)
  refine ⟨w, h1, by simpa using h2.sheets, by simpa using h2.bounds, ?_⟩
  intro i nm hi
  simpa using h5 i nm hi

/-- C48: exactly one sheet is saved as the active one: the one chosen last, or the first; and the window record names it. -/
theorem c48_one_active (ops : List WbOp) (h : (names ops).length ≤ 65536) (h0 : names ops ≠ []) :
    ∃ w, Wb.run ops = some w ∧ chosen 0 0 ops < (names ops).length ∧ rdLE 2 w.window.payload 10 = some (chosen 0 0 ops) ∧
      ∀ i, w.isActive i = true ↔ i = chosen 0 0 ops := by
  obtain ⟨w, h1, h2, h3, _, _⟩ := run_made ops .init 0 ⟨rfl, rfl, rfl, .inr rfl⟩ (by omega)
  have hl : 0 < (names ops).length := List.length_pos_iff.mpr h0
  have hc : w.window.active = chosen 0 0 ops := h3
  have hlt : chosen 0 0 ops < (names ops).length := by
    rw [← hc]
    rcases h2.active with a | a <;> omega
  refine ⟨w, h1, hlt, ?_, ?_⟩
  · have : w.window.payload = (leN 2 (w.window.horz * 20 % 65536) ++ leN 2 (w.window.vert * 20 % 65536) ++ leN 2 (w.window.width * 20 % 65536) ++
        leN 2 (w.window.height * 20 % 65536) ++ leN 2 0x38) ++ (leN 2 w.window.active ++ (leN 2 w.window.first ++ leN 2 1 ++ leN 2 w.window.tabBar)) := by
      simp [Window1.payload]
    rw [this, rdLE_at' (i := 10) 2 w.window.active _ _ (by simp), hc]
    congr 1
    exact Nat.mod_eq_of_lt (by have : (2:Nat) ^ (8 * 2) = 65536 := by decide
                               omega)
  · intro i
    unfold Wb.isActive
    rw [h2.sheets, hc]
    by_cases hi : i < 0 + (names ops).length
    · rw [show (List.range (0 + (names ops).length))[i]? = some i by rw [List.getElem?_eq_getElem (by simpa using hi)]; simp]
      simp
    · rw [List.getElem?_eq_none (by simp; omega)]
      simp; omega

/-- Where C44 and C48 end: the 65537th sheet gets index 0 like the first. -/
theorem c44_index_wraps (ops : List WbOp) (nm : List UInt16) (h : (names ops).length = 65536) :
    ∃ w, Wb.run (ops ++ [.sheet nm]) = some w ∧ w.sheets[0]? = some 0 ∧ w.sheets[65536]? = some 0 := by
  obtain ⟨w, h1, h2, _, _, _⟩ := run_made ops .init 0 ⟨rfl, rfl, rfl, .inr rfl⟩ (by omega)
  have happ : ∀ (l : List WbOp) (w0 : Wb) (o : WbOp), w0.runFrom (l ++ [o]) = (w0.runFrom l).bind fun w => w.op o := by
    intro l
    induction l with
    | nil => intro w0 o; simp only [List.nil_append, Wb.runFrom, Option.bind_some]; cases w0.op o <;> rfl
    | cons a r ih =>
      intro w0 o
      simp only [List.cons_append, Wb.runFrom]
      cases w0.op a with
      | none => rfl
      | some w1 => exact ih w1 o
  refine ⟨_, by unfold Wb.run; rw [happ]; rw [show Wb.init.runFrom ops = some w from h1]; rfl, ?_, ?_⟩
  · rw [h2.sheets, h]
    rw [List.getElem?_append_left (by simp)]
    simp
  · rw [h2.sheets, h]
    rw [List.getElem?_append_right (by simp)]
    simp [h2.counter, h]

/-- Three sheets, the second chosen, then the first, a comment on the third. -/
example : names [.sheet [65], .sheet [66], .makeActive 1, .sheet [67], .note 2, .makeActive 0, .makeActive 7] = [[65], [66], [67]] ∧
    chosen 0 0 [.sheet [65], .sheet [66], .makeActive 1, .sheet [67], .note 2] = 1 ∧
    notesOn 2 0 [.sheet [65], .sheet [66], .makeActive 1, .sheet [67], .note 2] = 1 := by decide

end Xls.Book
