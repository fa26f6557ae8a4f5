import Verif.NumFmt.Props
/-
C83: number formats of the program that are copied, given another text or another number, and the cell formats that use them.

Of a cell format only the members `formatIndex` and `format` are here (its flags: Verif/Xf).  The texts are given as converted (Verif/Text).  Usage
counts are left out: nothing reads them.  A call on an object that does not exist is `none`.
-/
namespace Xls.NumFmt
open Xls.Unit Xls.Biff

/-! ### Model -/

/-- `formatIndex` and `format` of `xf_t`, extformat.h 564-566. -/
structure Num where
  index : Nat
  fmt : Option Nat
deriving Repr, DecidableEq

/-- The formats of the program and the cell formats. -/
structure Shop where
  formats : Formats
  xfs : List Num
deriving Repr

inductive Deal
  /-- `workbook::format(…)`, workbook.cpp 177-201 -/
  | make (s : List UInt16)
  /-- `format_t::formatDup`, format.h 157-161 -/
  | dup (k : Nat)
  /-- `format_t::SetFormatStr`, format.h 172 -/
  | text (k : Nat) (s : List UInt16)
  /-- `format_t::SetIndex`, format.h 168 -/
  | renumber (k n : Nat)
  /-- `workbook::xformat()`, workbook.cpp 203-208 -/
  | xf
  /-- `xf_t::xfDup`, extformat.h 455-459 -/
  | xfDup (x : Nat)
  /-- `SetFormat(format_t*)`, extformat.cpp 688-710 -/
  | use (x k : Nat)
  /-- `SetFormat(format_number_t)`, extformat.cpp 671-686 -/
  | pre (x n : Nat)
  /-- `SetFormatIndex`, extformat.cpp 661-669 -/
  | code (x i : Nat)
deriving Repr, DecidableEq

/-- The copy constructor of `format_t` is that of a new format with the same text (format.cpp 94-101); that of `xf_t` copies the number and then calls
    `SetFormat` if there is a format (extformat.cpp 384-426). -/
def Shop.step (w : Shop) : Deal → Option Shop
  | .make s => some { w with formats := add w.formats s }
  | .dup k => (w.formats.list[k]?).map fun f => { w with formats := add w.formats f.2 }
  | .text k s => (w.formats.list[k]?).map fun f => { w with formats := { w.formats with list := w.formats.list.set k (f.1, s) } }
  | .renumber k n => (w.formats.list[k]?).map fun f => { w with formats := { w.formats with list := w.formats.list.set k (n % 65536, f.2) } }
  | .xf => some { w with xfs := w.xfs ++ [⟨0, none⟩] }
  | .xfDup x => (w.xfs[x]?).bind fun y =>
      match y.fmt with
      | none => some { w with xfs := w.xfs ++ [⟨y.index, none⟩] }
      | some k => (w.formats.list[k]?).map fun f => { w with xfs := w.xfs ++ [⟨f.1, some k⟩] }
  | .use x k => (w.xfs[x]?).bind fun _ => (w.formats.list[k]?).map fun f => { w with xfs := w.xfs.set x ⟨f.1, some k⟩ }
  | .pre x n => (w.xfs[x]?).bind fun _ => (Xf.format2index (if n > 35 then 0 else n)).map fun i => { w with xfs := w.xfs.set x ⟨i, none⟩ }
  | .code x i => (w.xfs[x]?).map fun _ => { w with xfs := w.xfs.set x ⟨i % 65536, none⟩ }

def Shop.run (w : Shop) : List Deal → Option Shop
  | [] => some w
  | d :: r => (w.step d).bind fun w => w.run r

/-- The FORMAT records of a save: every format, in order (globalrec.cpp 320-330, 410-430). -/
def Shop.records (w : Shop) : List Bytes := w.formats.list.map payload

/-! ### Specification -/

/-- What the program asked of a cell format. -/
inductive Want
  | number (i : Nat)
  | format (k : Nat)
deriving Repr, DecidableEq

/-- The texts of the formats, and what each cell format shall show. -/
abbrev Wish := List (List UInt16) × List Want

/-- Number of predefined format `n`: those of the file format; beyond the names it is General. -/
def preNumber (n : Nat) : Nat := if n < 36 then Xf.Spec.formatCode n else 0

def Wish.step (t : Wish) : Deal → Option Wish
  | .make s => some (t.1 ++ [s], t.2)
  | .dup k => (t.1[k]?).map fun s => (t.1 ++ [s], t.2)
  | .text k s => (t.1[k]?).map fun _ => (t.1.set k s, t.2)
  | .renumber k _ => (t.1[k]?).map fun _ => t
  | .xf => some (t.1, t.2 ++ [.number 0])
  | .xfDup x => (t.2[x]?).map fun v => (t.1, t.2 ++ [v])
  | .use x k => (t.2[x]?).bind fun _ => (t.1[k]?).map fun _ => (t.1, t.2.set x (.format k))
  | .pre x n => (t.2[x]?).map fun _ => (t.1, t.2.set x (.number (preNumber n)))
  | .code x i => (t.2[x]?).map fun _ => (t.1, t.2.set x (.number (i % 65536)))

def Wish.run (t : Wish) : List Deal → Option Wish
  | [] => some t
  | d :: r => (Wish.step t d).bind fun t => Wish.run t r

/-! ### Proof -/

/-- The cell format is as asked. -/
def Fits (y : Num) : Want → Prop
  | .number i => y = ⟨i, none⟩
  | .format k => y = ⟨(164 + k) % 65536, some k⟩

structure Kept (w : Shop) (t : Wish) : Prop where
  list : w.formats.list = t.1.mapIdx fun k s => ((164 + k) % 65536, s)
  next : w.formats.next = (164 + t.1.length) % 65536
  len : w.xfs.length = t.2.length
  fits : ∀ (x : Nat) v, t.2[x]? = some v → ∃ y, w.xfs[x]? = some y ∧ Fits y v
  known : ∀ (x : Nat) k, t.2[x]? = some (.format k) → k < t.1.length

theorem Kept.fmt {w : Shop} {t : Wish} (H : Kept w t) {k : Nat} {s : List UInt16} (h : t.1[k]? = some s) :
    w.formats.list[k]? = some ((164 + k) % 65536, s) := by
  rw [H.list, List.getElem?_mapIdx, h]
  rfl

theorem Kept.add {w : Shop} {t : Wish} (H : Kept w t) (s : List UInt16) : Kept { w with formats := add w.formats s } (t.1 ++ [s], t.2) := by
  refine ⟨?_, ?_, H.len, H.fits, fun x k h => ?_⟩
  · show w.formats.list ++ [(w.formats.next, s)] = _
    rw [List.mapIdx_append, H.list, H.next]
    simp [Nat.add_comm, Nat.add_left_comm]
  · show (w.formats.next + 1) % 65536 = _
    rw [H.next, List.length_append, List.length_singleton]
    omega
  · have := H.known x k h
    rw [List.length_append]
    omega

theorem Kept.addXf {w : Shop} {t : Wish} (H : Kept w t) {y : Num} {v : Want} (hy : Fits y v) (hk : ∀ k, v = .format k → k < t.1.length) :
    Kept { w with xfs := w.xfs ++ [y] } (t.1, t.2 ++ [v]) := by
  refine ⟨H.list, H.next, by simp [H.len], fun x u h => ?_, fun x k h => ?_⟩
  all_goals
    rcases Nat.lt_trichotomy x t.2.length with hx | hx | hx
    · rw [List.getElem?_append_left hx] at h
      first
        | exact H.known x k h
        | (obtain ⟨z, h1, h2⟩ := H.fits x u h
           exact ⟨z, by show (w.xfs ++ [y])[x]? = _; rw [List.getElem?_append_left (by rw [H.len]; exact hx), h1], h2⟩)
    · subst hx
      rw [List.getElem?_concat_length] at h
      first
        | exact hk k (Option.some.inj h)
        | (obtain rfl := Option.some.inj h
           exact ⟨y, by show (w.xfs ++ [y])[t.2.length]? = _; rw [← H.len, List.getElem?_concat_length], hy⟩)
    · rw [List.getElem?_eq_none (by simp; omega)] at h
      cases h

theorem Kept.setXf {w : Shop} {t : Wish} (H : Kept w t) {x : Nat} {u : Want} (hx : t.2[x]? = some u) {y : Num} {v : Want} (hy : Fits y v)
    (hk : ∀ k, v = .format k → k < t.1.length) : (∃ z, w.xfs[x]? = some z) ∧ Kept { w with xfs := w.xfs.set x y } (t.1, t.2.set x v) := by
  have hl : x < t.2.length := (List.getElem?_eq_some_iff.mp hx).1
  obtain ⟨z, hz, -⟩ := H.fits x u hx
  refine ⟨⟨z, hz⟩, H.list, H.next, by simp [H.len], fun i a h => ?_, fun i k h => ?_⟩
  · by_cases e : x = i
    · subst e
      rw [List.getElem?_set_self hl] at h
      obtain rfl := Option.some.inj h
      exact ⟨y, List.getElem?_set_self (by rw [H.len]; exact hl), hy⟩
    · rw [List.getElem?_set_ne e] at h
      obtain ⟨z, h1, h2⟩ := H.fits i a h
      exact ⟨z, by show (w.xfs.set x y)[i]? = _; rw [List.getElem?_set_ne e, h1], h2⟩
  · by_cases e : x = i
    · subst e
      rw [List.getElem?_set_self hl] at h
      exact hk k (Option.some.inj h)
    · rw [List.getElem?_set_ne e] at h
      exact H.known i k h

theorem pre_number (n : Nat) : Xf.format2index (if n > 35 then 0 else n) = some (preNumber n) := by
  unfold preNumber
  by_cases h : n < 36
  · rw [if_neg (by omega), if_pos h, (c38_predefined n h).1]
  · rw [if_pos (by omega), if_neg h]
    rfl

theorem kept_step {w : Shop} {t t' : Wish} (H : Kept w t) {d : Deal} (hd : ∀ k n, d ≠ .renumber k n) (h : Wish.step t d = some t') :
    ∃ w', w.step d = some w' ∧ Kept w' t' := by
  cases d with
  | renumber k n => exact absurd rfl (hd k n)
  | make s => cases h; exact ⟨_, rfl, H.add s⟩
  | dup k =>
    obtain ⟨s, hs, rfl⟩ := Option.map_eq_some_iff.1 h
    exact ⟨_, by rw [Shop.step, H.fmt hs]; rfl, H.add s⟩
  | text k s =>
    obtain ⟨s', hs, rfl⟩ := Option.map_eq_some_iff.1 h
    refine ⟨{ w with formats := { w.formats with list := w.formats.list.set k ((164 + k) % 65536, s) } }, by rw [Shop.step, H.fmt hs]; rfl, ?_,
      by simpa using H.next, H.len, H.fits, fun x k h => by simpa using H.known x k h⟩
    show w.formats.list.set k _ = _
    rw [H.list]
    apply List.ext_getElem?
    intro i
    by_cases e : k = i
    · subst e
      have hl := (List.getElem?_eq_some_iff.mp hs).1
      rw [List.getElem?_set_self (by simpa using hl), List.getElem?_mapIdx, List.getElem?_set_self hl]
      rfl
    · rw [List.getElem?_set_ne e, List.getElem?_mapIdx, List.getElem?_mapIdx, List.getElem?_set_ne e]
  | xf => cases h; exact ⟨_, rfl, H.addXf rfl (fun k h => by cases h)⟩
  | xfDup x =>
    obtain ⟨v, hv, rfl⟩ := Option.map_eq_some_iff.1 h
    obtain ⟨y, hy, hf⟩ := H.fits x v hv
    cases v with
    | number i =>
      obtain rfl : y = ⟨i, none⟩ := hf
      exact ⟨_, by rw [Shop.step, hy]; rfl, H.addXf rfl (fun k h => by cases h)⟩
    | format k =>
      obtain rfl : y = ⟨(164 + k) % 65536, some k⟩ := hf
      have hk := H.known x k hv
      refine ⟨{ w with xfs := w.xfs ++ [⟨(164 + k) % 65536, some k⟩] }, ?_, H.addXf rfl (fun j h => by cases h; exact hk)⟩
      rw [Shop.step, hy, Option.bind_some]
      simp only [H.fmt (List.getElem?_eq_getElem hk), Option.map_some]
  | use x k =>
    obtain ⟨u, hu, h⟩ := Option.bind_eq_some_iff.1 h
    obtain ⟨s, hs, rfl⟩ := Option.map_eq_some_iff.1 h
    obtain ⟨⟨z, hz⟩, K⟩ := H.setXf hu (y := ⟨(164 + k) % 65536, some k⟩) (v := .format k) rfl
      (fun j h => by cases h; exact (List.getElem?_eq_some_iff.mp hs).1)
    exact ⟨_, by rw [Shop.step, hz, Option.bind_some, H.fmt hs]; rfl, K⟩
  | pre x n =>
    obtain ⟨u, hu, rfl⟩ := Option.map_eq_some_iff.1 h
    obtain ⟨⟨z, hz⟩, K⟩ := H.setXf hu (y := ⟨preNumber n, none⟩) (v := .number (preNumber n)) rfl (fun j h => by cases h)
    exact ⟨_, by rw [Shop.step, hz, Option.bind_some, pre_number]; rfl, K⟩
  | code x i =>
    obtain ⟨u, hu, rfl⟩ := Option.map_eq_some_iff.1 h
    obtain ⟨⟨z, hz⟩, K⟩ := H.setXf hu (y := ⟨i % 65536, none⟩) (v := .number (i % 65536)) rfl (fun j h => by cases h)
    exact ⟨_, by rw [Shop.step, hz]; rfl, K⟩

theorem kept_run {ds : List Deal} : ∀ {w : Shop} {t t' : Wish}, Kept w t → (∀ k n, .renumber k n ∉ ds) → Wish.run t ds = some t' →
    ∃ w', w.run ds = some w' ∧ Kept w' t' := by
  induction ds with
  | nil => intro w t t' H _ h; cases h; exact ⟨w, rfl, H⟩
  | cons d r ih =>
    intro w t t' H hd h
    obtain ⟨u, hu, h⟩ := Option.bind_eq_some_iff.1 h
    obtain ⟨w1, e1, H1⟩ := kept_step H (fun k n e => hd k n (by rw [e]; exact List.mem_cons_self ..)) hu
    obtain ⟨w2, e2, H2⟩ := ih H1 (fun k n h => hd k n (List.mem_cons_of_mem _ h)) h
    exact ⟨w2, by rw [Shop.run, e1, Option.bind_some, e2], H2⟩

theorem kept_init : Kept ⟨empty, []⟩ ([], []) :=
  ⟨rfl, rfl, rfl, fun x v h => by simp at h, fun x k h => by simp at h⟩

/-- The FORMAT records of formats that are numbered in order are those of `c38_user`. -/
theorem kept_list {w : Shop} {t : Wish} (H : Kept w t) : w.formats.list = (t.1.foldl NumFmt.add empty).list := by rw [user_index, H.list]

/-- C83: without `SetIndex`, whatever is made, copied, given another text and assigned in whatever order: there is one FORMAT record per format, and a reader
    finds for every cell format the number asked for, or the text which the format it was assigned (or copied with) has at the time of the save.
    Missing: `SetIndex` (`c83_renumber`) and more than 65372 formats (`c38_limit`). -/
theorem c83_shows_partial (ds : List Deal) (hd : ∀ k n, .renumber k n ∉ ds) (t : Wish) (h : Wish.run ([], []) ds = some t) (hn : t.1.length ≤ 65372)
    (hs : ∀ s ∈ t.1, s.length < 65536) :
    ∃ w, Shop.run ⟨empty, []⟩ ds = some w ∧ w.records.map readFormat = t.1.mapIdx (fun k s => some (164 + k, s)) ∧ w.xfs.length = t.2.length ∧
      (∀ (x : Nat) i, t.2[x]? = some (.number i) → ∃ y, w.xfs[x]? = some y ∧ y.index = i) ∧
      (∀ (x : Nat) k, t.2[x]? = some (.format k) → ∃ y s, w.xfs[x]? = some y ∧ t.1[k]? = some s ∧ lookup w.records y.index = some s ∧
        ∀ n, Xf.Spec.formatCode n ≠ y.index) := by
  obtain ⟨w, hw, H⟩ := kept_run kept_init hd h
  have hr : w.records = (t.1.foldl NumFmt.add empty).list.map payload := by rw [Shop.records, kept_list H]
  obtain ⟨u1, u2⟩ := c38_user t.1 hn hs
  refine ⟨w, hw, by rw [hr, u1], H.len, fun x i hx => ?_, fun x k hx => ?_⟩
  · obtain ⟨y, hy, hf⟩ := H.fits x _ hx
    obtain rfl : y = ⟨i, none⟩ := hf
    exact ⟨_, hy, rfl⟩
  · obtain ⟨y, hy, hf⟩ := H.fits x _ hx
    obtain rfl : y = ⟨(164 + k) % 65536, some k⟩ := hf
    have hk := H.known x k hx
    obtain ⟨-, a, b⟩ := u2 k _ (List.getElem?_eq_getElem hk)
    exact ⟨_, _, hy, List.getElem?_eq_getElem hk, by rw [hr]; exact b, a⟩

/-- C83: a text given to a format is shown by exactly the cell formats that use it, those included that were assigned it before; copies of the format and
    all other formats keep theirs.  (The wishes after the call, to be read with `c83_shows_partial`.) -/
theorem c83_renamed (ds : List Deal) (t : Wish) (h : Wish.run ([], []) ds = some t) (k : Nat) (s : List UInt16) (hk : k < t.1.length) :
    ∃ t', Wish.run ([], []) (ds ++ [.text k s]) = some t' ∧ t'.2 = t.2 ∧ t'.1[k]? = some s ∧ ∀ j, j ≠ k → t'.1[j]? = t.1[j]? := by
  have app : ∀ (a b : List Deal) (x : Wish), Wish.run x (a ++ b) = (Wish.run x a).bind fun y => Wish.run y b := by
    intro a b
    induction a with
    | nil => exact fun x => rfl
    | cons c r ih =>
      intro x
      rw [List.cons_append, Wish.run, Wish.run]
      cases Wish.step x c with
      | none => rfl
      | some y => exact ih y
  refine ⟨(t.1.set k s, t.2), ?_, rfl, List.getElem?_set_self hk, fun j hj => List.getElem?_set_ne (Ne.symm hj)⟩
  rw [app, h, Option.bind_some, Wish.run, Wish.step, List.getElem?_eq_getElem hk]
  rfl

theorem lookup_none {recs : List Bytes} {i : Nat} (h : ∀ p ∈ recs.filterMap readFormat, p.1 ≠ i) : lookup recs i = none := by
  rw [lookup, List.findSome?_eq_none_iff]
  intro p hp
  rw [if_neg (h p hp)]

/-- C83 fails for `SetIndex`: in every state reached without it, giving a format another number leaves the cell formats that use it with a number that no
    FORMAT record carries; a copy made of such a cell format afterwards has the new number. -/
theorem c83_renumber (ds : List Deal) (hd : ∀ k n, .renumber k n ∉ ds) (t : Wish) (h : Wish.run ([], []) ds = some t) (hn : t.1.length ≤ 65372)
    (hs : ∀ s ∈ t.1, s.length < 65536) (x k n : Nat) (hx : t.2[x]? = some (.format k)) (hne : n ≠ 164 + k) (hlt : n < 65536) :
    ∃ w y, Shop.run ⟨empty, []⟩ (ds ++ [.renumber k n, .xfDup x]) = some w ∧ w.xfs[x]? = some y ∧ lookup w.records y.index = none ∧
      w.xfs[t.2.length]? = some ⟨n, some k⟩ := by
  obtain ⟨w, hw, H⟩ := kept_run kept_init hd h
  have app : ∀ (a b : List Deal) (x : Shop), x.run (a ++ b) = (x.run a).bind fun y => y.run b := by
    intro a b
    induction a with
    | nil => exact fun x => rfl
    | cons c r ih =>
      intro x
      rw [List.cons_append, Shop.run, Shop.run]
      cases x.step c with
      | none => rfl
      | some y => exact ih y
  obtain ⟨y, hy, hf⟩ := H.fits x _ hx
  obtain rfl : y = ⟨(164 + k) % 65536, some k⟩ := hf
  have hk := H.known x k hx
  have hfm := H.fmt (List.getElem?_eq_getElem hk)
  have hkl : k < w.formats.list.length := (List.getElem?_eq_some_iff.mp hfm).1
  have hxl : x < w.xfs.length := (List.getElem?_eq_some_iff.mp hy).1
  refine ⟨⟨{ w.formats with list := w.formats.list.set k (n, t.1[k]) }, w.xfs ++ [⟨n, some k⟩]⟩, ⟨(164 + k) % 65536, some k⟩, ?_, ?_, ?_, ?_⟩
  · rw [app, hw, Option.bind_some, Shop.run, Shop.step, hfm, Option.map_some, Option.bind_some, Shop.run, Shop.step]
    simp only [hy, Option.bind_some, List.getElem?_set_self hkl, Option.map_some, Nat.mod_eq_of_lt hlt]
    rfl
  · show (w.xfs ++ [_])[x]? = _
    rw [List.getElem?_append_left hxl, hy]
  · apply lookup_none
    intro p hp
    simp only [Shop.records, List.filterMap_map] at hp
    obtain ⟨q, hq, hr⟩ := List.mem_filterMap.1 hp
    obtain ⟨j, hj, hq⟩ := List.mem_iff_getElem.1 hq
    have hjl : j < w.formats.list.length := by simpa using hj
    have hjt : j < t.1.length := by rw [H.list] at hjl; simpa using hjl
    have hq : (w.formats.list.set k (n, t.1[k]))[j]? = some q := by rw [List.getElem?_eq_getElem hj, hq]
    have hqs : q.1 < 65536 ∧ q.2.length < 65536 ∧ q.1 ≠ 164 + k := by
      by_cases e : k = j
      · subst e
        rw [List.getElem?_set_self hkl] at hq
        cases hq
        exact ⟨hlt, hs _ (List.getElem_mem hjt), hne⟩
      · rw [List.getElem?_set_ne e, H.fmt (List.getElem?_eq_getElem hjt)] at hq
        cases hq
        refine ⟨Nat.mod_lt _ (by decide), hs _ (List.getElem_mem hjt), ?_⟩
        show (164 + j) % 65536 ≠ 164 + k
        omega
    have : readFormat (payload q) = some q := read_payload q.1 q.2 hqs.1 hqs.2.1
    rw [Function.comp, this] at hr
    cases hr
    rw [Nat.mod_eq_of_lt (by omega)]
    exact hqs.2.2
  · show (w.xfs ++ [_])[t.2.length]? = _
    rw [← H.len, List.getElem?_concat_length]

/-- A format that is used, copied and changed; a copy of the cell format; a cell format that goes back to a predefined one. -/
def dealSample : List Deal :=
  [.make [0x30], .xf, .use 0 0, .dup 0, .text 0 [0x23, 0x30], .xfDup 0, .xf, .use 2 1, .xf, .use 3 0, .pre 3 9, .code 2 165]

example : (∀ k n, .renumber k n ∉ dealSample) ∧
    Wish.run ([], []) dealSample = some ([[0x23, 0x30], [0x30]], [.format 0, .format 0, .number 165, .number 9]) ∧
    (Shop.run ⟨empty, []⟩ dealSample).map (fun w => (w.records.map readFormat, w.xfs.map (·.index))) =
      some ([some (164, [0x23, 0x30]), some (165, [0x30])], [164, 164, 165, 9]) :=
  ⟨fun k n h => by simp [dealSample] at h, by decide, by decide⟩

end Xls.NumFmt
