import Verif.NumFmt.Model
import Verif.Xf.Want
/-
C38: number format codes are one-to-one.
-/
namespace Xls.NumFmt
open Xls.Unit Xls.Biff

/-- What a FORMAT record says ([MS-XLS] 2.4.126): its index and the format string. -/
def readFormat (bs : Bytes) : Option (Nat × List UInt16) :=
  (takeLE 2 bs).bind fun (i, bs) => (Spec.readStr2 bs).bind fun (s, bs) => if bs = [] then some (i, s) else none

/-- The format string a reader finds for an index. -/
def lookup (recs : List Bytes) (index : Nat) : Option (List UInt16) :=
  (recs.filterMap readFormat).findSome? fun p => if p.1 = index then some p.2 else none

/-- Predefined formats: every name has the code of the file format, no two names share one, and asking a format for its
    name gives back the one that was set (for every enumerator). -/
theorem c38_predefined : ∀ n, n < 36 → Xf.format2index n = some (Xf.Spec.formatCode n) ∧
    getFormat (Xf.Spec.formatCode n) = n ∧ Xf.Spec.formatCode n < 50 ∧
    ∀ m, m < 36 → Xf.Spec.formatCode m = Xf.Spec.formatCode n → m = n := by decide

/-- Asking a format with any other number for its name gives FMT_GENERAL (0). -/
theorem c38_unnamed (i : Nat) (h : ∀ n, n < 36 → Xf.Spec.formatCode n ≠ i) : getFormat i = 0 := by
  unfold getFormat
  have : ((List.range 36).find? fun n => Xf.format2index n == some i) = none := by
    rw [List.find?_eq_none]
    intro n hn
    have hlt := List.mem_range.mp hn
    rw [(c38_predefined n hlt).1]
    simpa using h n hlt
  rw [this]
  rfl

example : getFormat 164 = 0 := c38_unnamed 164 (by decide)

/-- `foldl add` numbers the formats in order. -/
theorem adds (ss : List (List UInt16)) (f : Formats) (hn : f.next < 65536) :
    (ss.foldl add f).list = f.list ++ ss.mapIdx (fun k s => ((f.next + k) % 65536, s)) := by
  induction ss generalizing f with
  | nil => simp
  | cons s r ih =>
    rw [List.foldl_cons, ih (add f s) (by simp only [add]; omega)]
    simp only [add, List.append_assoc, List.mapIdx_cons, Nat.add_zero, List.singleton_append, Nat.mod_eq_of_lt hn]
    congr 2
    apply List.mapIdx_eq_mapIdx_iff.mpr
    intro k hk
    congr 1
    omega

/-- The number of user format `k`. -/
theorem user_index (ss : List (List UInt16)) :
    (ss.foldl add empty).list = ss.mapIdx (fun k s => ((164 + k) % 65536, s)) := by
  rw [adds ss empty (by decide)]
  rfl

theorem map_mapIdx {α β γ : Type} (f : β → γ) (g : Nat → α → β) (l : List α) :
    (l.mapIdx g).map f = l.mapIdx fun k a => f (g k a) := by
  apply List.ext_getElem?
  intro i
  simp
  rfl

theorem filterMap_of_map {α β : Type} (f : α → Option β) (l : List α) (m : List β) (h : l.map f = m.map some) :
    l.filterMap f = m := by
  induction l generalizing m with
  | nil => cases m <;> simp_all
  | cons x r ih =>
    cases m with
    | nil => simp at h
    | cons y t =>
      simp only [List.map_cons, List.cons.injEq] at h
      rw [List.filterMap_cons, h.1, ih t h.2]

theorem read_payload (i : Nat) (s : List UInt16) (hi : i < 65536) (hs : s.length < 65536) :
    readFormat (payload (i, s)) = some (i, s) := by
  have e : payload (i, s) = leN 2 i ++ (strBytes s .len2 ++ []) := by simp [payload, recordOps, Unit.Op.bytes]
  rw [e, readFormat, takeLE_leN_append, Option.bind_some]
  simp only [c04_len2_roundtrip s [] hs, Option.bind_some, if_true]
  rw [show (256 : Nat) ^ 2 = 65536 from rfl, Nat.mod_eq_of_lt hi]

/-- User formats: as long as there are at most 65372 of them, the FORMAT records carry the numbers 164, 165, … in the order
    the formats were created, so that they collide neither with each other nor with a predefined one, and the format string
    found for the number of format `k` is the string it was created with. -/
theorem c38_user (ss : List (List UInt16)) (hn : ss.length ≤ 65372) (hs : ∀ s ∈ ss, s.length < 65536) :
    ((ss.foldl add empty).list.map payload).map readFormat = ss.mapIdx (fun k s => some (164 + k, s)) ∧
      ∀ k s, ss[k]? = some s → Xf.formatIndexOf k = 164 + k ∧ (∀ n, Xf.Spec.formatCode n ≠ Xf.formatIndexOf k) ∧
        lookup ((ss.foldl add empty).list.map payload) (Xf.formatIndexOf k) = some s := by
  have e1 : ((ss.foldl add empty).list.map payload).map readFormat = ss.mapIdx (fun k s => some (164 + k, s)) := by
    rw [user_index, List.map_map, map_mapIdx]
    apply List.mapIdx_eq_mapIdx_iff.mpr
    intro k hk
    rw [Function.comp, read_payload _ _ (by omega) (hs _ (List.getElem_mem hk)), Nat.mod_eq_of_lt (by omega)]
  refine ⟨e1, ?_⟩
  intro k s hk
  have hlt : k < ss.length := (List.getElem?_eq_some_iff.mp hk).1
  have hidx : Xf.formatIndexOf k = 164 + k := by unfold Xf.formatIndexOf; omega
  refine ⟨hidx, ?_, ?_⟩
  · intro n
    rw [hidx]
    unfold Xf.Spec.formatCode
    split
    · omega
    · split <;> omega
  · have e2 : ((ss.foldl add empty).list.map payload).filterMap readFormat = ss.mapIdx (fun k s => (164 + k, s)) := by
      refine filterMap_of_map _ _ _ ?_
      rw [e1, map_mapIdx]
    rw [lookup, e2, hidx]
    clear e1 e2 hs hidx hn
    have gen : ∀ (l : List (List UInt16)) b k, l[k]? = some s →
        (l.mapIdx (fun k s => (b + k, s))).findSome? (fun p => if p.1 = b + k then some p.2 else none) = some s := by
      intro l
      induction l with
      | nil => intro b k h; simp at h
      | cons x r ih =>
        intro b k h
        rw [List.mapIdx_cons, List.findSome?_cons]
        cases k with
        | zero =>
          simp only [List.getElem?_cons_zero, Option.some.injEq] at h
          simp [h]
        | succ k =>
          have hne : ¬ (b + 0 = b + (k + 1)) := by omega
          rw [if_neg hne]
          have := ih (b + 1) k (by simpa using h)
          have e : (fun (k : Nat) (s : List UInt16) => (b + 1 + k, s)) = fun k s => (b + (k + 1), s) := by
            funext k s
            congr 1
            omega
          rw [e, show b + 1 + k = b + (k + 1) by omega] at this
          exact this
    exact gen ss 164 k hk

/-- The limit is real: with 65373 formats the last one is numbered 0, which is "General". -/
theorem c38_limit (ss : List (List UInt16)) (s : List UInt16) (hn : ss.length = 65372) :
    ((ss ++ [s]).foldl add empty).list[65372]? = some (0, s) ∧ Xf.Spec.formatCode 0 = 0 := by
  refine ⟨?_, rfl⟩
  rw [user_index, List.getElem?_mapIdx, ← hn, List.getElem?_concat_length, hn]
  rfl

/-- Two user formats. -/
example : ((([[0x30], [0x23, 0x30]] : List (List UInt16)).foldl add empty).list.map payload).map readFormat =
    [some (164, [0x30]), some (165, [0x23, 0x30])] := by decide

end Xls.NumFmt
