import Verif.Ole.Model
import Verif.Ole.SizingProps
import Verif.Ole.Spec
/-
Helper lemmas: the byte image `dumpOleFile` produces, region by region.
-/
namespace Xls.Ole
open Xls.Cfb

/-! ### Words -/

def w32 (l : List Nat) : Bytes := l.flatMap (leN 4)

@[simp] theorem w32_nil : w32 [] = [] := rfl
@[simp] theorem w32_append (a b : List Nat) : w32 (a ++ b) = w32 a ++ w32 b := by simp [w32]
@[simp] theorem w32_cons (a : Nat) (l : List Nat) : w32 (a :: l) = leN 4 a ++ w32 l := rfl

@[simp] theorem w32_length (l : List Nat) : (w32 l).length = 4 * l.length := by
  induction l with
  | nil => rfl
  | cons a r ih => simp [ih]; omega

theorem words_leN_append (v : Nat) (r : Bytes) : words (leN 4 v ++ r) = v % 2 ^ 32 :: words r := by
  have h : ofLE (leN 4 v) = v % 256 ^ 4 := ofLE_leN 4 v
  rw [leN_four] at h ⊢
  simp only [List.cons_append, List.nil_append, words, h]

theorem words_w32_append (l : List Nat) (r : Bytes) :
    words (w32 l ++ r) = l.map (· % 2 ^ 32) ++ words r := by
  induction l with
  | nil => rfl
  | cons a t ih => simp only [w32_cons, List.append_assoc, words_leN_append, ih, List.map_cons,
      List.cons_append]

theorem words_w32 (l : List Nat) (h : ∀ x ∈ l, x < 2 ^ 32) : words (w32 l) = l := by
  have := words_w32_append l []
  simp only [List.append_nil, words] at this
  rw [this]
  conv => rhs; rw [← List.map_id l]
  exact List.map_congr_left (fun x hx => Nat.mod_eq_of_lt (h x hx))

theorem words_append (a b : Bytes) (h : a.length % 4 = 0) : words (a ++ b) = words a ++ words b := by
  match a with
  | [] => rfl
  | [_] | [_, _] | [_, _, _] => simp at h
  | x :: y :: z :: w :: r =>
    simp only [List.cons_append, words]
    rw [words_append r b (by simp at h; omega)]

theorem ff_words (n : Nat) : List.replicate (4 * n) (0xff : UInt8) = w32 (List.replicate n freeSect) := by
  induction n with
  | zero => rfl
  | succ n ih =>
    rw [show 4 * (n + 1) = 4 * n + 1 + 1 + 1 + 1 by omega, List.replicate_succ, List.replicate_succ,
      List.replicate_succ, List.replicate_succ, ih, List.replicate_succ, w32_cons]
    rfl

/-! ### Emitted bytes -/

theorem ignoring_append {a b : List W} {x y : Bytes} (ha : Emits (ignoring a) x)
    (hb : Emits (ignoring b) y) : Emits (ignoring (a ++ b)) (x ++ y) := by
  have key : ∀ s, ignoring (a ++ b) s = ignoring b (ignoring a s).1 := by
    induction a generalizing x with
    | nil => intro s; rfl
    | cons w r ih =>
      intro s
      have : ∀ t, ∀ s, ignoring (t ++ b) s = ignoring b (ignoring t s).1 := by
        intro t
        induction t with
        | nil => intro s; rfl
        | cons w r ih => intro s; exact ih _
      exact this (w :: r) s
  intro s
  rw [key, hb, ha, Sink.put_put]

theorem ignoring_one {w : W} {x : Bytes} (h : Emits w x) : Emits (ignoring [w]) x := by
  have := ignoring_cons h ignoring_nil
  simpa using this

theorem writeS32_neg (v : Int) (n : Nat) (h : u32OfInt v = n) : Emits (writeS32 v) (leN 4 n) :=
  h ▸ writeS32_emits v

/-- The fixed part of the header, 76 bytes. -/
def hdrFixed (b : Blocks) (d : Nat) : Bytes :=
  oleMagic ++ (leN 4 0 ++ (leN 4 0 ++ (leN 4 0 ++ (leN 4 0 ++ (leN 2 0x3e ++ (leN 2 3 ++
  (leN 2 0xFFFFFFFE ++ (leN 2 9 ++ (leN 4 6 ++ (leN 4 0 ++ (leN 4 0 ++ (leN 4 b.batCount ++
  (leN 4 (b.msatCount + d + b.batCount) ++ (leN 4 0 ++ (leN 4 0x1000 ++ (leN 4 endOfChain ++
  (leN 4 0 ++ (leN 4 (if b.msatCount ≠ 0 then 0 else endOfChain) ++
  (leN 4 b.msatCount ++ [])))))))))))))))))))

def hdrIds (b : Blocks) (d : Nat) : List Nat :=
  (List.range b.headerBatCount).map (fun i => b.msatCount + d + i) ++
    List.replicate b.headerFill freeSect

/-- Words of the extra table, following the loop. -/
def extraWords (extra : Nat) : Nat → Nat → Nat → Nat → List Nat
  | 0, _, _, _ => []
  | n + 1, i, sid, mid =>
    sid ::
      (if i % perMsat = 0 then
        (if i = extra then endOfChain :: extraWords extra n (i + 1) (sid + 1) mid
         else mid :: extraWords extra n (i + 1) (sid + 1) (mid + 1))
       else extraWords extra n (i + 1) (sid + 1) mid)

def xWords (b : Blocks) (d : Nat) : List Nat :=
  extraWords b.extraBatCount b.extraBatCount 1 (b.msatCount + d + b.headerBatCount) 1 ++
    (if b.extraFill ≠ 0 then List.replicate b.extraFill freeSect ++ [endOfChain] else [])

theorem ignoring_replicate {w : W} {x : Nat} (h : Emits w (leN 4 x)) (n : Nat) :
    Emits (ignoring (List.replicate n w)) (w32 (List.replicate n x)) := by
  induction n with
  | zero => exact ignoring_nil
  | succ n ih => exact ignoring_cons h ih

theorem extraBats_emits (extra n i sid mid : Nat) :
    Emits (ignoring (extraBats extra n i sid mid)) (w32 (extraWords extra n i sid mid)) := by
  induction n generalizing i sid mid with
  | zero => exact ignoring_nil
  | succ n ih =>
    unfold extraBats extraWords
    refine ignoring_cons (writeU32_emits _) ?_
    split
    · split
      · exact ignoring_cons (writeS32_neg _ _ rfl) (ih _ _ _)
      · exact ignoring_cons (writeU32_emits _) (ih _ _ _)
    · exact ih _ _ _

theorem dumpHeader_emits (b : Blocks) (total : Nat) :
    Emits (dumpHeader b total)
      (hdrFixed b (total / 512) ++ w32 (hdrIds b (total / 512)) ++ w32 (xWords b (total / 512))) := by
  unfold dumpHeader
  simp only [List.append_assoc]
  refine ignoring_append ?_ ?_
  · unfold hdrFixed
    refine ignoring_cons (writeService_emits _) ?_
    refine ignoring_cons (writeS32_neg _ _ rfl) ?_
    refine ignoring_cons (writeS32_neg _ _ rfl) ?_
    refine ignoring_cons (writeS32_neg _ _ rfl) ?_
    refine ignoring_cons (writeS32_neg _ _ rfl) ?_
    refine ignoring_cons (writeS16_emits _) ?_
    refine ignoring_cons (writeS16_emits _) ?_
    refine ignoring_cons (writeS16_emits _) ?_
    refine ignoring_cons (writeS16_emits _) ?_
    refine ignoring_cons (writeS32_neg _ _ rfl) ?_
    refine ignoring_cons (writeS32_neg _ _ rfl) ?_
    refine ignoring_cons (writeS32_neg _ _ rfl) ?_
    refine ignoring_cons (writeU32_emits _) ?_
    refine ignoring_cons (writeU32_emits _) ?_
    refine ignoring_cons (writeS32_neg _ _ rfl) ?_
    refine ignoring_cons (writeS32_neg _ _ rfl) ?_
    refine ignoring_cons (writeS32_neg _ _ rfl) ?_
    refine ignoring_cons (writeS32_neg _ _ rfl) ?_
    refine ignoring_cons (writeS32_neg _ _ ?_) ?_
    · split <;> rfl
    exact ignoring_cons (writeU32_emits _) ignoring_nil
  · have h1 : Emits (ignoring ((List.range b.headerBatCount).map
        (fun i => writeU32 (b.msatCount + total / 512 + i))))
        (w32 ((List.range b.headerBatCount).map (fun i => b.msatCount + total / 512 + i))) := by
      have := ignoring_map (List.range b.headerBatCount)
        (fun i => writeU32 (b.msatCount + total / 512 + i))
        (fun i => leN 4 (b.msatCount + total / 512 + i)) (fun i => writeU32_emits _)
      simpa [w32, List.flatMap_map] using this
    have h2 := ignoring_replicate (writeS32_neg (-1) freeSect rfl) b.headerFill
    have h3 := extraBats_emits b.extraBatCount b.extraBatCount 1
      (b.msatCount + total / 512 + b.headerBatCount) 1
    have h4 : Emits (ignoring (if b.extraFill ≠ 0 then
        List.replicate b.extraFill (writeS32 (-1)) ++ [writeS32 (-2)] else []))
        (w32 (if b.extraFill ≠ 0 then List.replicate b.extraFill freeSect ++ [endOfChain] else [])) := by
      split
      · rw [w32_append]
        refine ignoring_append (ignoring_replicate (writeS32_neg _ _ rfl) _) ?_
        simpa using ignoring_one (writeS32_neg (-2) endOfChain rfl)
      · exact ignoring_nil
    have := ignoring_append h1 (ignoring_append h2 (ignoring_append h3 h4))
    simpa [hdrIds, xWords] using this

/-- All bytes of the stored streams. -/
def dataBytes (nodes : List Entry) : Bytes :=
  nodes.flatMap fun e => if e.typ = 2 then (e.data.getD []).flatten else []

theorem dumpUnits_cons (u : Bytes) (r : List Bytes)
    (ih : ∀ (e : Int) (s : Sink), e = (if s.bad then -1 else 0) →
      dumpUnits r e s = (s.put r.flatten, if (s.put r.flatten).bad then -1 else 0))
    (e : Int) (s : Sink) :
    dumpUnits (u :: r) e s =
      (s.put (u :: r).flatten, if (s.put (u :: r).flatten).bad then -1 else 0) := by
  have h1 : (writeByteArray u s).1 = s.put u := writeService_emits u s
  have h2 : ((writeByteArray u s).2 = 0 ∨ (writeByteArray u s).2 = -1) ∧
    ((writeByteArray u s).2 = 0 ↔ (writeByteArray u s).1.bad = false) := writeService_honest u s
  simp only [dumpUnits, List.flatten_cons, ← Sink.put_put]
  by_cases hc : (writeByteArray u s).2 = 0
  · rw [if_neg (fun h => h hc), h1]
    apply ih
    rw [hc, ← h1, h2.2.mp hc]
    simp
  · rw [if_pos hc]
    have hbad : (writeByteArray u s).1.bad = true := by
      cases hb : (writeByteArray u s).1.bad with
      | true => rfl
      | false => exact absurd (h2.2.mpr hb) hc
    rw [h1] at hbad
    have hm : (writeByteArray u s).2 = -1 := h2.1.resolve_left hc
    rw [h1, put_bad hbad, hbad, hm]
    simp

theorem dumpUnits_spec (us : List Bytes) (e : Int) (s : Sink) (he : e = if s.bad then -1 else 0) :
    dumpUnits us e s = (s.put us.flatten, if (s.put us.flatten).bad then -1 else 0) := by
  induction us generalizing e s with
  | nil => simp [dumpUnits, Sink.put_nil, he]
  | cons u r ih => exact dumpUnits_cons u r ih e s

/-- The code of a stream with at least one unit does not depend on the code before. -/
theorem dumpUnits_spec' (us : List Bytes) (hne : us ≠ []) (e : Int) (s : Sink) :
    dumpUnits us e s = (s.put us.flatten, if (s.put us.flatten).bad then -1 else 0) := by
  cases us with
  | nil => exact absurd rfl hne
  | cons u r => exact dumpUnits_cons u r (fun e s h => dumpUnits_spec r e s h) e s

theorem dumpDataFrom_spec (nodes : List Entry) (e : Int) (s : Sink) (he : e = if s.bad then -1 else 0) :
    dumpDataFrom nodes e s =
      (s.put (dataBytes nodes), if (s.put (dataBytes nodes)).bad then -1 else 0) := by
  induction nodes generalizing e s with
  | nil => simp [dumpDataFrom, dataBytes, Sink.put_nil, he]
  | cons n r ih =>
    simp only [dumpDataFrom]
    have hd : dataBytes (n :: r) = (if n.typ = 2 then (n.data.getD []).flatten else []) ++ dataBytes r := by
      simp [dataBytes]
    split
    · rename_i ht
      rw [dumpUnits_spec _ _ _ he, hd, if_pos ht, ← Sink.put_put]
      exact ih _ _ rfl
    · rename_i ht
      rw [hd, if_neg ht, List.nil_append]
      exact ih _ _ he

theorem dumpData_spec (n : Entry) (r : List Entry) (ht : n.typ = 2) (hd : n.data.getD [] ≠ [])
    (s : Sink) :
    dumpData (n :: r) s =
      (s.put (dataBytes (n :: r)), if (s.put (dataBytes (n :: r))).bad then -1 else 0) := by
  have hd' : dataBytes (n :: r) = (n.data.getD []).flatten ++ dataBytes r := by
    simp [dataBytes, ht]
  simp only [dumpData, dumpDataFrom, if_pos ht]
  rw [dumpUnits_spec' _ hd, hd', ← Sink.put_put]
  exact dumpDataFrom_spec r _ _ rfl

end Xls.Ole
