import Verif.Formula.Means
import Verif.Num.Lemmas
/-
Reading back the tokens of an expression.
-/
namespace Xls.Formula
open Xls.Num Xls.Unit

theorem tokens_step (ar : Nat → Option Nat) (n : Nat) (st : List Tree) (t : Nat) (r : Bytes) (ht : t < 256) :
    tokens ar (n + 1) st (leN 1 t ++ r) = (applyToken ar st t r).bind fun x => tokens ar n x.1 x.2 := by
  have : leN 1 t = [UInt8.ofNat t] := by simp [leN]
  rw [this]
  have h2 : (UInt8.ofNat t).toNat = t := by
    rw [UInt8.toNat_ofNat']; exact Nat.mod_eq_of_lt ht
  simp [tokens, h2]

/-- Reading `bs` leaves the operands `ts` on the stack, the last one on top. -/
def Puts (ar : Nat → Option Nat) (bs : Bytes) (ts : List Tree) : Prop :=
  ∃ k, k ≤ bs.length ∧ ∀ n st rest, tokens ar (k + n) st (bs ++ rest) = tokens ar n (ts.reverse ++ st) rest

theorem Puts.nil (ar : Nat → Option Nat) : Puts ar [] [] := ⟨0, by simp, fun n st rest => by simp⟩

theorem Puts.append {ar : Nat → Option Nat} {a b : Bytes} {xs ys : List Tree} (ha : Puts ar a xs) (hb : Puts ar b ys) :
    Puts ar (a ++ b) (xs ++ ys) := by
  obtain ⟨k, hk, h1⟩ := ha
  obtain ⟨l, hl, h2⟩ := hb
  refine ⟨k + l, by simp; omega, fun n st rest => ?_⟩
  rw [Nat.add_assoc, List.append_assoc, h1, h2]; simp

theorem Puts.token {ar : Nat → Option Nat} {a : Bytes} {xs : List Tree} {t : Nat} {r : Bytes} {y : Tree} (ha : Puts ar a xs)
    (ht : t < 256) (h : ∀ st rest, applyToken ar (xs.reverse ++ st) t (r ++ rest) = some (y :: st, rest)) :
    Puts ar (a ++ (leN 1 t ++ r)) [y] := by
  obtain ⟨k, hk, h1⟩ := ha
  refine ⟨k + 1, by simp; omega, fun n st rest => ?_⟩
  rw [Nat.add_assoc, List.append_assoc, h1, Nat.add_comm 1 n, List.append_assoc, tokens_step _ _ _ _ _ ht, h]; simp

theorem Puts.one {ar : Nat → Option Nat} {t : Nat} {r : Bytes} {y : Tree} (ht : t < 256)
    (h : ∀ st rest, applyToken ar st t (r ++ rest) = some (y :: st, rest)) : Puts ar (leN 1 t ++ r) [y] := by
  have := Puts.token (Puts.nil ar) (t := t) (r := r) (y := y) ht (by simpa using h)
  simpa using this

theorem Puts.tokens {ar : Nat → Option Nat} {bs : Bytes} {ts : List Tree} (h : Puts ar bs ts) :
    tokens ar bs.length [] bs = some ts.reverse := by
  obtain ⟨k, hk, h1⟩ := h
  have := h1 (bs.length - k) [] []
  rw [Nat.add_sub_cancel' hk] at this
  simp only [List.append_nil] at this
  rw [this]
  cases bs.length - k <;> simp [Formula.tokens]

theorem Puts.parse {ar : Nat → Option Nat} {bs : Bytes} {t : Tree} (h : Puts ar bs [t]) : parse ar bs = some t := by
  simp [Formula.parse, h.tokens]

theorem Puts.parse_none {ar : Nat → Option Nat} {bs : Bytes} {ts : List Tree} (h : Puts ar bs ts) (hn : ts.length ≠ 1) :
    Formula.parse ar bs = none := by
  unfold Formula.parse
  rw [h.tokens]
  have : ts.reverse.length ≠ 1 := by simpa using hn
  match ts.reverse, this with
  | [], _ => rfl
  | [_], h => simp at h
  | _ :: _ :: _, _ => rfl

theorem leN_one_length (t : Nat) : leN 1 t = leN 1 t ++ [] := by simp

theorem classed_eq {op k : Nat} (hop : op = 0x21 ∨ op = 0x22 ∨ op = 0x24 ∨ op = 0x25 ∨ op = 0x3A ∨ op = 0x3B) (hk : IsClass k) :
    classed op k = leN 1 (op % 32 + k) := by
  unfold classed
  rcases hop with rfl | rfl | rfl | rfl | rfl | rfl <;> rcases hk with rfl | rfl | rfl <;> rfl

theorem colField {c : Nat} (hc : c < 256) {m : Nat} (hm : m = 0 ∨ m = 0xC000 ∨ m = 0x8000 ∨ m = 0x4000) :
    (c &&& 0x3FFF) ||| (m &&& 0xC000) = c + m ∧ (c &&& 0xFF) ||| (m &&& 0xC000) = c + m := by
  have h1 : c &&& 0x3FFF = c := by
    rw [show (0x3FFF : Nat) = 2 ^ 14 - 1 from rfl, Nat.and_two_pow_sub_one_eq_mod]; omega
  have h2 : c &&& 0xFF = c := by
    rw [show (0xFF : Nat) = 2 ^ 8 - 1 from rfl, Nat.and_two_pow_sub_one_eq_mod]; omega
  have h3 : m &&& 0xC000 = m := by rcases hm with rfl | rfl | rfl | rfl <;> rfl
  rw [h1, h2, h3]
  have : c ||| m = c + m := by
    have hd : ∃ q, m = 2 ^ 14 * q := by exact ⟨m / 2 ^ 14, by omega⟩
    obtain ⟨q, rfl⟩ := hd
    rw [Nat.or_comm, ← Nat.two_pow_add_eq_or_of_lt (by omega : c < 2 ^ 14)]; omega
  exact ⟨this, this⟩

/-- The bits a reader sees in the column field, whatever the names of the modes. -/
theorem colRel_field {c : Nat} (hc : c < 256) {m : Nat} (hm : m = 0 ∨ m = 0xC000 ∨ m = 0x8000 ∨ m = 0x4000) :
    colRel ((c + m) % 65536) = (c, decide (0x8000 ≤ m), decide (m = 0x4000 ∨ m = 0xC000)) := by
  unfold colRel
  rcases hm with rfl | rfl | rfl | rfl <;> simp <;> omega

theorem takeLE_two (v : Nat) (hv : v < 65536) (r : Bytes) : takeLE 2 (leN 2 v ++ r) = some (v, r) := by
  rw [takeLE_leN_append, Nat.mod_eq_of_lt (by simpa using hv)]

theorem readRef_eq {cls : Nat} {sheet : Option Nat} {row col m : Nat} (hr : row < 65536) (hc : col < 256)
    (hm : m = 0 ∨ m = 0xC000 ∨ m = 0x8000 ∨ m = 0x4000) (rest : Bytes) :
    readRef cls sheet (leN 2 row ++ leN 2 (col + m) ++ rest) =
      some (.ref cls sheet row col (decide (0x8000 ≤ m)) (decide (m = 0x4000 ∨ m = 0xC000)), rest) := by
  unfold readRef
  have h := colRel_field hc hm
  simp only [List.append_assoc, takeLE_two _ hr, takeLE_leN_append, Option.bind_some, Option.map_some]
  rw [show (256 : Nat) ^ 2 = 65536 from rfl, h]

theorem readArea_eq {cls : Nat} {sheet : Option Nat} {row col lrow lcol m : Nat} (hr : row < 65536) (hc : col < 256)
    (hlr : lrow < 65536) (hlc : lcol < 256) (hm : m = 0 ∨ m = 0xC000 ∨ m = 0x8000 ∨ m = 0x4000) (rest : Bytes) :
    readArea cls sheet (leN 2 row ++ leN 2 lrow ++ leN 2 (col + m) ++ leN 2 (lcol + m) ++ rest) =
      some (.area cls sheet row lrow col (decide (0x8000 ≤ m)) (decide (m = 0x4000 ∨ m = 0xC000))
        lcol (decide (0x8000 ≤ m)) (decide (m = 0x4000 ∨ m = 0xC000)), rest) := by
  unfold readArea
  have h := colRel_field hc hm
  have h' := colRel_field hlc hm
  simp only [List.append_assoc, takeLE_two _ hr, takeLE_two _ hlr, takeLE_leN_append, Option.bind_some, Option.map_some]
  rw [show (256 : Nat) ^ 2 = 65536 from rfl, h, h']

theorem modeRel_cases {m : Nat} (h : (modeRel m).isSome) : m = 0 ∨ m = 0xC000 ∨ m = 0x8000 ∨ m = 0x4000 := by
  unfold modeRel at h
  split at h <;> simp_all

theorem applyToken_class (ar : Nat → Option Nat) (st : List Tree) {k o : Nat} (hk : IsClass k) (ho : o < 32) (r : Bytes) :
    applyToken ar st (o + k) r =
      if o = 0 then (takeN 7 r).map fun (_, r) => (.array (k / 32) :: st, r)
      else if o = 1 then
        (takeLE 2 r).bind fun (f, r) => (ar f).bind fun n =>
          (popArgs n st).map fun (args, st) => (.call (k / 32) f args :: st, r)
      else if o = 2 then
        (takeLE 1 r).bind fun (n, r) => (takeLE 2 r).bind fun (f, r) =>
          (popArgs (n % 128) st).map fun (args, st) => (.call (k / 32) (f % 2 ^ 15) args :: st, r)
      else if o = 4 then (readRef (k / 32) none r).map fun (x, r) => (x :: st, r)
      else if o = 5 then (readArea (k / 32) none r).map fun (x, r) => (x :: st, r)
      else if o = 0x1A then
        (takeLE 2 r).bind fun (i, r) => (readRef (k / 32) (some i) r).map fun (x, r) => (x :: st, r)
      else if o = 0x1B then
        (takeLE 2 r).bind fun (i, r) => (readArea (k / 32) (some i) r).map fun (x, r) => (x :: st, r)
      else none := by
  have h1 : (o + k) % 32 = o := by rcases hk with rfl | rfl | rfl <;> omega
  have h2 : (o + k) / 32 = k / 32 := by rcases hk with rfl | rfl | rfl <;> omega
  have h3 : 0x20 ≤ o + k ∧ o + k < 0x80 := by rcases hk with rfl | rfl | rfl <;> omega
  unfold applyToken
  rw [if_neg (by omega), if_neg (by omega), if_neg (by omega), if_neg (by omega), if_neg (by omega), if_neg (by omega),
    if_neg (by omega), if_neg (by omega), if_pos h3, h1, h2]

theorem sheetSeen_same {own sheet : Option Nat} (h : own = none ∨ sheet = none ∨ sheet = own) : sheetSeen own sheet = none := by
  unfold sheetSeen
  rcases h with rfl | rfl | rfl
  · rfl
  · cases own <;> rfl
  · cases sheet <;> simp

theorem sheetSeen_other {own sheet : Option Nat} (h : ¬ (own = none ∨ sheet = none ∨ sheet = own)) :
    sheetSeen own sheet = some (sheet.getD 0) := by
  unfold sheetSeen
  cases own <;> cases sheet <;> simp_all
  rename_i a b
  intro e; exact absurd e.symm h

/-- Reading a reference token back, for any of the four modes. -/
theorem puts_ref (ar : Nat → Option Nat) (own : Option Nat) {r c : Nat} {sh : Option Nat} {m k : Nat} (hr : r < 65536)
    (hc : c < 256) (hs : ∀ i, sh = some i → i < 65536) (hm : m = 0 ∨ m = 0xC000 ∨ m = 0x8000 ∨ m = 0x4000) (hk : IsClass k) :
    Puts ar (pushRef own r c sh m k)
      [.ref (k / 32) (sheetSeen own sh) r c (decide (0x8000 ≤ m)) (decide (m = 0x4000 ∨ m = 0xC000))] := by
  have ht : ∀ o, o < 32 → o + k < 256 := by intro o ho; rcases hk with rfl | rfl | rfl <;> omega
  unfold pushRef
  by_cases h : own = none ∨ sh = none ∨ sh = own
  · rw [if_pos h, sheetSeen_same h, classed_eq (by simp) hk, (colField hc hm).1, List.append_assoc]
    refine Puts.one (ht 4 (by omega)) fun st rest => ?_
    rw [applyToken_class ar st hk (by omega)]
    have := readRef_eq (cls := k / 32) (sheet := none) hr hc hm rest
    simp only [List.append_assoc] at this
    simp [this]
  · rw [if_neg h, sheetSeen_other h, classed_eq (by simp) hk, (colField hc hm).2]
    simp only [List.append_assoc]
    refine Puts.one (ht 26 (by omega)) fun st rest => ?_
    rw [applyToken_class ar st hk (by omega)]
    have hi : sh.getD 0 < 65536 := by
      cases sh with
      | none => simp
      | some i => exact hs i rfl
    have := readRef_eq (cls := k / 32) (sheet := some (sh.getD 0)) hr hc hm rest
    simp only [List.append_assoc] at this
    simp [takeLE_two _ hi, this]

/-- Reading an area token back, for any of the four modes. -/
theorem puts_area (ar : Nat → Option Nat) (own : Option Nat) {r c : Nat} {sh : Option Nat} {lr lc m k : Nat} (hr : r < 65536)
    (hc : c < 256) (hs : ∀ i, sh = some i → i < 65536) (hlr : lr < 65536) (hlc : lc < 256)
    (hm : m = 0 ∨ m = 0xC000 ∨ m = 0x8000 ∨ m = 0x4000) (hk : IsClass k) :
    Puts ar (pushArea own r c sh lr lc m k)
      [.area (k / 32) (sheetSeen own sh) r lr c (decide (0x8000 ≤ m)) (decide (m = 0x4000 ∨ m = 0xC000))
        lc (decide (0x8000 ≤ m)) (decide (m = 0x4000 ∨ m = 0xC000))] := by
  have ht : ∀ o, o < 32 → o + k < 256 := by intro o ho; rcases hk with rfl | rfl | rfl <;> omega
  unfold pushArea
  by_cases h : own = none ∨ sh = none ∨ sh = own
  · rw [if_pos h, sheetSeen_same h, classed_eq (by simp) hk, (colField hc hm).1, (colField hlc hm).1]
    simp only [List.append_assoc]
    refine Puts.one (ht 5 (by omega)) fun st rest => ?_
    rw [applyToken_class ar st hk (by omega)]
    have := readArea_eq (cls := k / 32) (sheet := none) hr hc hlr hlc hm rest
    simp only [List.append_assoc] at this
    simp [this]
  · rw [if_neg h, sheetSeen_other h, classed_eq (by simp) hk, (colField hc hm).2, (colField hlc hm).2]
    simp only [List.append_assoc]
    refine Puts.one (ht 27 (by omega)) fun st rest => ?_
    rw [applyToken_class ar st hk (by omega)]
    have hi : sh.getD 0 < 65536 := by
      cases sh with
      | none => simp
      | some i => exact hs i rfl
    have := readArea_eq (cls := k / 32) (sheet := some (sh.getD 0)) hr hc hlr hlc hm rest
    simp only [List.append_assoc] at this
    simp [takeLE_two _ hi, this]

theorem popArgs_reverse (xs st : List Tree) : popArgs xs.length (xs.reverse ++ st) = some (xs, st) := by
  unfold popArgs
  rw [if_pos (by simp)]
  simp [List.take_append, List.drop_append]

/-- Every mask and class in the table: 32 bits, an operand class, and a single permitted count of at most five, except for the
    two functions that take six. -/
theorem table_facts : (List.range 485).all (fun c =>
    ((funcProp c).2 < 2 ^ 32 && ((funcProp c).1 == 0x20 || (funcProp c).1 == 0x40 || (funcProp c).1 == 0x60)) &&
    (decide ((funcProp c).2 ∈ [0, 1, 2, 4, 8, 16, 32]) || ((funcProp c).2 &&& ((funcProp c).2 - 1)) != 0 || c == 447 || c == 448)) =
      true := by decide +kernel

theorem funcTable_length : funcTable.length = 485 := by decide +kernel

theorem funcProp_big {code : Nat} (h : 485 ≤ code) : funcProp code = (0x40, anyCount) := by
  unfold funcProp
  rw [List.getElem?_eq_none (by rw [funcTable_length]; exact h)]

theorem funcProp_small {code : Nat} (h : code < 485) :
    ((funcProp code).2 < 2 ^ 32 ∧ IsClass (funcProp code).1) ∧
    ((funcProp code).2 ∈ [0, 1, 2, 4, 8, 16, 32] ∨ ((funcProp code).2 &&& ((funcProp code).2 - 1)) ≠ 0 ∨ code = 447 ∨ code = 448) := by
  have := List.all_eq_true.mp table_facts code (List.mem_range.mpr h)
  simp only [Bool.and_eq_true, Bool.or_eq_true, beq_iff_eq, bne_iff_ne, decide_eq_true_eq] at this
  obtain ⟨⟨a, b⟩, c⟩ := this
  refine ⟨⟨a, ?_⟩, ?_⟩
  · rcases b with (b | b) | b
    · exact .inl b
    · exact .inr (.inl b)
    · exact .inr (.inr b)
  · rcases c with ((c | c) | c) | c
    · exact .inl c
    · exact .inr (.inl c)
    · exact .inr (.inr (.inl c))
    · exact .inr (.inr (.inr c))

theorem mask_lt (code : Nat) : (funcProp code).2 < 2 ^ 32 := by
  by_cases h : code < 485
  · exact (funcProp_small h).1.1
  · rw [funcProp_big (by omega)]; decide

theorem class_isClass (code : Nat) : IsClass (funcProp code).1 := by
  by_cases h : code < 485
  · exact (funcProp_small h).1.2
  · rw [funcProp_big (by omega)]; exact .inr (.inl rfl)

theorem funcClass_isClass {code k : Nat} (h : k = 0 ∨ IsClass k) : IsClass (funcClass code k) := by
  unfold funcClass
  by_cases h0 : k = 0
  · rw [if_pos h0]; exact class_isClass code
  · rw [if_neg h0]; exact h.resolve_left h0

theorem funcClass_means {code k : Nat} (h : k = 0 ∨ IsClass k) : k = 32 * (funcClass code k / 32) ∨ k = 0 := by
  unfold funcClass
  by_cases h0 : k = 0
  · exact .inr h0
  · rw [if_neg h0]
    left
    rcases h.resolve_left h0 with rfl | rfl | rfl <;> rfl

theorem single_small {code n : Nat} (h : (funcProp code).2 = 2 ^ n) (h1 : code ≠ 447) (h2 : code ≠ 448) : n ≤ 5 := by
  have hc : code < 485 := by
    refine Classical.byContradiction fun hc => ?_
    rw [funcProp_big (by omega)] at h
    have : (2 : Nat) ^ n % 2 = 1 := by rw [← h]; rfl
    have hn : n = 0 := by
      cases n with
      | zero => rfl
      | succ m => rw [Nat.pow_succ] at this; omega
    rw [hn] at h; exact absurd h (by decide)
  rcases (funcProp_small hc).2 with hm | hm | hm | hm
  · rw [h] at hm
    refine Classical.byContradiction fun hn => ?_
    have : 2 ^ 6 ≤ 2 ^ n := Nat.pow_le_pow_right (by decide) (by omega)
    simp at hm
    omega
  · rw [h, Nat.and_two_pow_sub_one_eq_mod, Nat.mod_self] at hm; exact absurd rfl hm
  · exact absurd hm h1
  · exact absurd hm h2

theorem and_pow_ne_zero (m n : Nat) : m &&& 2 ^ n ≠ 0 ↔ m.testBit n = true := by
  constructor
  · intro h
    refine Classical.byContradiction fun hb => h ?_
    apply Nat.eq_of_testBit_eq
    intro i
    rw [Nat.testBit_and, Nat.testBit_two_pow, Nat.zero_testBit]
    by_cases hi : n = i
    · subst hi; simp [hb]
    · simp [hi]
  · intro h h0
    have := congrArg (·.testBit n) h0
    simp [Nat.testBit_and, h] at this

theorem mask_single {m n : Nat} (hm : m < 2 ^ 32) (hb : m.testBit n = true) (h : m &&& (0xFFFFFFFF ^^^ 2 ^ n) = 0) : m = 2 ^ n := by
  apply Nat.eq_of_testBit_eq
  intro i
  rw [Nat.testBit_two_pow]
  by_cases hi : n = i
  · subst hi; simpa using hb
  · have := congrArg (·.testBit i) h
    simp only [Nat.testBit_and, Nat.testBit_xor, Nat.zero_testBit, Nat.testBit_two_pow] at this
    by_cases h32 : i < 32
    · have h1 : Nat.testBit 0xFFFFFFFF i = true := by
        rw [show (0xFFFFFFFF : Nat) = 2 ^ 32 - 1 from rfl, Nat.testBit_two_pow_sub_one]; simpa using h32
      rw [h1] at this
      simpa [hi] using this
    · rw [Nat.testBit_lt_two_pow (Nat.lt_of_lt_of_le hm (Nat.pow_le_pow_right (by decide) (by omega)))]
      simp [hi]

/-- An accepted call: the token, read with its arguments on the stack, gives the call. -/
theorem accepted_call {ar : Nat → Option Nat} (hA : KnowsArity ar) {code k : Nat} {xs : List Tree} {bs : Bytes} (hc : code < 2 ^ 15)
    (hk : k = 0 ∨ IsClass k) (h : Accepts code xs.length) (h1 : code ≠ 447) (h2 : code ≠ 448) (hp : Puts ar bs xs) :
    ∃ v, varBranch code xs.length = some v ∧ ∃ tok, (if v then pushFuncVar code xs.length k else pushFunc code k) = (tok, false) ∧
      Puts ar (bs ++ tok) [.call (funcClass code k / 32) code xs] := by
  have hK := funcClass_isClass (code := code) hk
  have ht : ∀ o, o < 32 → o + funcClass code k < 256 := by
    intro o ho; rcases hK with h | h | h <;> rw [h] <;> omega
  have var (hn : xs.length ≤ 127) : Puts ar (bs ++ (classed 0x22 (funcClass code k) ++ leN 1 (xs.length % 256 &&& 0x7F) ++
      leN 2 (code &&& 0x7FFF))) [.call (funcClass code k / 32) code xs] := by
    rw [classed_eq (by simp) hK, List.append_assoc]
    refine hp.token (ht 2 (by omega)) fun st rest => ?_
    rw [applyToken_class ar _ hK (by omega)]
    have e1 : xs.length % 256 &&& 0x7F = xs.length := by
      rw [show (0x7F : Nat) = 2 ^ 7 - 1 from rfl, Nat.and_two_pow_sub_one_eq_mod]; omega
    have e2 : code &&& 0x7FFF = code := by
      rw [show (0x7FFF : Nat) = 2 ^ 15 - 1 from rfl, Nat.and_two_pow_sub_one_eq_mod]; omega
    rw [e1, e2]
    have e3 : xs.length % 256 % 128 = xs.length := by omega
    have e4 : code % 65536 % 2 ^ 15 = code := by omega
    simp only [List.append_assoc, takeLE_leN_append, Option.bind_some]
    rw [show (256 : Nat) ^ 1 = 256 from rfl, show (256 : Nat) ^ 2 = 65536 from rfl, e3, e4, popArgs_reverse]
    simp
  by_cases hu : (funcProp code).2 = anyCount
  · have hn : xs.length ≤ 127 := by rcases h with h | h <;> omega
    refine ⟨true, by simp [varBranch, hu], _, ?_, var hn⟩
    simp [pushFuncVar, hu]
  · obtain ⟨hn, hb⟩ : xs.length ≤ 30 ∧ (funcProp code).2.testBit xs.length = true := by
      rcases h with h | h
      · exact h
      · exact absurd h.1 hu
    by_cases hv : (funcProp code).2 &&& (0xFFFFFFFF ^^^ 2 ^ xs.length) = 0
    · have hm := mask_single (mask_lt code) hb hv
      have h5 := single_small hm h1 h2
      refine ⟨false, by rw [varBranch, if_neg hu, if_pos (by omega), hv]; rfl, classed 0x21 (funcClass code k) ++ leN 2 code, ?_, ?_⟩
      · simp only [Bool.false_eq_true, if_false]
        unfold pushFunc
        rw [if_pos]
        rw [hm]
        have : xs.length = 0 ∨ xs.length = 1 ∨ xs.length = 2 ∨ xs.length = 3 ∨ xs.length = 4 ∨ xs.length = 5 := by omega
        rcases this with h | h | h | h | h | h <;> rw [h] <;> decide
      · rw [classed_eq (by simp) hK]
        refine hp.token (ht 1 (by omega)) fun st rest => ?_
        rw [applyToken_class ar _ hK (by omega)]
        have e4 : code < 65536 := by omega
        simp only [takeLE_two _ e4, Option.bind_some, hA code _ hm, popArgs_reverse]
        simp
    · refine ⟨true, by rw [varBranch, if_neg hu, if_pos (by omega)]; simpa using hv, _, ?_, var (by omega)⟩
      simp only [if_true]
      unfold pushFuncVar
      rw [if_pos (.inr ⟨hn, (and_pow_ne_zero _ _).mpr hb⟩)]

mutual
/-- Every text in the tree has at most 255 characters. -/
def Short : Tree → Prop
  | .text s => s.length < 256
  | .un _ a => Short a
  | .bin _ a b => Short a ∧ Short b
  | .call _ _ args => ShortAll args
  | _ => True
def ShortAll : List Tree → Prop
  | [] => True
  | a :: r => Short a ∧ ShortAll r
end

theorem shortAll_iff (l : List Tree) : ShortAll l ↔ ∀ t ∈ l, Short t := by
  induction l with
  | nil => simp [ShortAll]
  | cons a r ih => simp [ShortAll, ih]

theorem readStr1_short {r r' : Bytes} {s : List UInt16} (h : Spec.readStr1 r = some (s, r')) : s.length < 256 := by
  unfold Spec.readStr1 at h
  cases hn : takeLE 1 r with
  | none => rw [hn] at h; simp at h
  | some x =>
    rw [hn] at h
    have hl := readFlagged_length h
    unfold takeLE at hn
    split at hn
    · simp only [Option.some.injEq] at hn
      have := ofLE_lt (r.take 1)
      rw [← hn] at hl
      simp only at hl
      have h1 : (r.take 1).length ≤ 1 := by simp; omega
      have : 256 ^ (r.take 1).length ≤ 256 ^ 1 := Nat.pow_le_pow_right (by decide) h1
      omega
    · simp at hn

theorem popArgs_short {n : Nat} {st a st' : List Tree} (h : popArgs n st = some (a, st')) (hs : ShortAll st) :
    ShortAll a ∧ ShortAll st' := by
  unfold popArgs at h
  split at h
  · simp only [Option.some.injEq, Prod.mk.injEq] at h
    obtain ⟨rfl, rfl⟩ := h
    rw [shortAll_iff] at *
    rw [shortAll_iff]
    exact ⟨fun t ht => hs t (List.mem_of_mem_take (List.mem_reverse.mp ht)), fun t ht => hs t (List.mem_of_mem_drop ht)⟩
  · simp at h

theorem readRef_short {k : Nat} {sh : Option Nat} {bs r : Bytes} {t : Tree} (h : readRef k sh bs = some (t, r)) : Short t := by
  unfold readRef at h
  simp only [Option.bind_eq_some_iff, Option.map_eq_some_iff] at h
  obtain ⟨_, _, _, _, h⟩ := h
  simp only [Prod.mk.injEq] at h
  rw [← h.1]; simp [Short]

theorem readArea_short {k : Nat} {sh : Option Nat} {bs r : Bytes} {t : Tree} (h : readArea k sh bs = some (t, r)) : Short t := by
  unfold readArea at h
  simp only [Option.bind_eq_some_iff, Option.map_eq_some_iff] at h
  obtain ⟨_, _, _, _, _, _, _, _, h⟩ := h
  simp only [Prod.mk.injEq] at h
  rw [← h.1]; simp [Short]

theorem applyToken_short {ar : Nat → Option Nat} {st st' : List Tree} {t : Nat} {r r' : Bytes}
    (h : applyToken ar st t r = some (st', r')) (hs : ShortAll st) : ShortAll st' := by
  unfold applyToken at h
  by_cases c1 : 3 ≤ t ∧ t ≤ 0x11
  · rw [if_pos c1] at h
    match st, h, hs with
    | y :: x :: st, h, hs =>
      simp only [Option.some.injEq, Prod.mk.injEq] at h
      simp only [ShortAll] at hs
      rw [← h.1]; exact ⟨⟨hs.2.1, hs.1⟩, hs.2.2⟩
    | [_], h, _ => simp at h
    | [], h, _ => simp at h
  rw [if_neg c1] at h
  by_cases c2 : 0x12 ≤ t ∧ t ≤ 0x15
  · rw [if_pos c2] at h
    match st, h, hs with
    | x :: st, h, hs =>
      simp only [Option.some.injEq, Prod.mk.injEq] at h
      simp only [ShortAll] at hs
      rw [← h.1]; exact ⟨hs.1, hs.2⟩
    | [], h, _ => simp at h
  rw [if_neg c2] at h
  by_cases c3 : t = 0x16
  · rw [if_pos c3] at h
    simp only [Option.some.injEq, Prod.mk.injEq] at h
    rw [← h.1]; exact ⟨trivial, hs⟩
  rw [if_neg c3] at h
  by_cases c4 : t = 0x17
  · rw [if_pos c4] at h
    simp only [Option.map_eq_some_iff, Prod.exists, Prod.mk.injEq] at h
    obtain ⟨s, r1, hx, h, -⟩ := h
    rw [← h]; exact ⟨by simpa [Short] using readStr1_short hx, hs⟩
  rw [if_neg c4] at h
  by_cases c5 : t = 0x1C
  · rw [if_pos c5] at h
    simp only [Option.map_eq_some_iff, Prod.exists, Prod.mk.injEq] at h
    obtain ⟨s, r1, -, h, -⟩ := h
    rw [← h]; exact ⟨by simp [Short], hs⟩
  rw [if_neg c5] at h
  by_cases c6 : t = 0x1D
  · rw [if_pos c6] at h
    simp only [Option.bind_eq_some_iff, Prod.exists] at h
    obtain ⟨v, r1, -, h⟩ := h
    by_cases h0 : v = 0
    · rw [if_pos h0] at h
      simp only [Option.some.injEq, Prod.mk.injEq] at h
      rw [← h.1]; exact ⟨trivial, hs⟩
    rw [if_neg h0] at h
    by_cases h1 : v = 1
    · rw [if_pos h1] at h
      simp only [Option.some.injEq, Prod.mk.injEq] at h
      rw [← h.1]; exact ⟨trivial, hs⟩
    rw [if_neg h1] at h
    simp at h
  rw [if_neg c6] at h
  by_cases c7 : t = 0x1E
  · rw [if_pos c7] at h
    simp only [Option.map_eq_some_iff, Prod.exists, Prod.mk.injEq] at h
    obtain ⟨s, r1, -, h, -⟩ := h
    rw [← h]; exact ⟨by simp [Short], hs⟩
  rw [if_neg c7] at h
  by_cases c8 : t = 0x1F
  · rw [if_pos c8] at h
    simp only [Option.map_eq_some_iff, Prod.exists, Prod.mk.injEq] at h
    obtain ⟨s, r1, -, h, -⟩ := h
    rw [← h]; exact ⟨by simp [Short], hs⟩
  rw [if_neg c8] at h
  by_cases c9 : 0x20 ≤ t ∧ t < 0x80
  · rw [if_pos c9] at h
    by_cases c10 : t % 32 = 0
    · rw [if_pos c10] at h
      simp only [Option.map_eq_some_iff, Prod.exists, Prod.mk.injEq] at h
      obtain ⟨s, r1, -, h, -⟩ := h
      rw [← h]; exact ⟨by simp [Short], hs⟩
    rw [if_neg c10] at h
    by_cases c11 : t % 32 = 1
    · rw [if_pos c11] at h
      simp only [Option.bind_eq_some_iff, Option.map_eq_some_iff, Prod.exists, Prod.mk.injEq] at h
      obtain ⟨_, _, -, _, -, a, st1, hp, h, -⟩ := h
      have := popArgs_short hp hs
      rw [← h]; exact ⟨this.1, this.2⟩
    rw [if_neg c11] at h
    by_cases c12 : t % 32 = 2
    · rw [if_pos c12] at h
      simp only [Option.bind_eq_some_iff, Option.map_eq_some_iff, Prod.exists, Prod.mk.injEq] at h
      obtain ⟨_, _, -, _, _, -, a, st1, hp, h, -⟩ := h
      have := popArgs_short hp hs
      rw [← h]; exact ⟨this.1, this.2⟩
    rw [if_neg c12] at h
    by_cases c13 : t % 32 = 4
    · rw [if_pos c13] at h
      simp only [Option.map_eq_some_iff, Prod.exists, Prod.mk.injEq] at h
      obtain ⟨x, r1, hx, h, -⟩ := h
      rw [← h]; exact ⟨readRef_short hx, hs⟩
    rw [if_neg c13] at h
    by_cases c14 : t % 32 = 5
    · rw [if_pos c14] at h
      simp only [Option.map_eq_some_iff, Prod.exists, Prod.mk.injEq] at h
      obtain ⟨x, r1, hx, h, -⟩ := h
      rw [← h]; exact ⟨readArea_short hx, hs⟩
    rw [if_neg c14] at h
    by_cases c15 : t % 32 = 0x1A
    · rw [if_pos c15] at h
      simp only [Option.bind_eq_some_iff, Option.map_eq_some_iff, Prod.exists, Prod.mk.injEq] at h
      obtain ⟨_, _, -, x, r1, hx, h, -⟩ := h
      rw [← h]; exact ⟨readRef_short hx, hs⟩
    rw [if_neg c15] at h
    by_cases c16 : t % 32 = 0x1B
    · rw [if_pos c16] at h
      simp only [Option.bind_eq_some_iff, Option.map_eq_some_iff, Prod.exists, Prod.mk.injEq] at h
      obtain ⟨_, _, -, x, r1, hx, h, -⟩ := h
      rw [← h]; exact ⟨readArea_short hx, hs⟩
    rw [if_neg c16] at h
    simp at h
  rw [if_neg c9] at h
  simp at h

theorem tokens_short {ar : Nat → Option Nat} (n : Nat) {st st' : List Tree} {bs : Bytes} (h : tokens ar n st bs = some st')
    (hs : ShortAll st) : ShortAll st' := by
  induction n generalizing st bs with
  | zero => cases bs with
    | nil => simp only [tokens, Option.some.injEq] at h; exact h ▸ hs
    | cons b r => simp [tokens] at h
  | succ n ih => cases bs with
    | nil => simp only [tokens, Option.some.injEq] at h; exact h ▸ hs
    | cons b r =>
      simp only [tokens, Option.bind_eq_some_iff] at h
      obtain ⟨x, hx, h⟩ := h
      exact ih h (applyToken_short hx hs)

theorem parse_short {ar : Nat → Option Nat} {bs : Bytes} {t : Tree} (h : Formula.parse ar bs = some t) : Short t := by
  unfold Formula.parse at h
  split at h
  · rename_i t' ht
    simp only [Option.some.injEq] at h
    subst h
    have := tokens_short _ ht (by simp [ShortAll])
    simpa [ShortAll] using this
  · simp at h

mutual
/-- The core: a proper expression is written without error, and reading the bytes gives one operand, which is the
    expression. -/
theorem dump_puts {ar : Nat → Option Nat} (hA : KnowsArity ar) (own : Option Nat) : (e : Expr) → Proper e → Plain e →
    ∃ bs t, dump own e = some (bs, false) ∧ Puts ar bs [t] ∧ Means own e t
  | .bool b, _, _ => by
    refine ⟨_, .bool b, by rw [dump], Puts.one (by omega) fun st rest => ?_, by simp [Means]⟩
    cases b <;> simp [applyToken]
  | .int z, h, _ => by
    simp only [Proper] at h
    by_cases hz : 0 ≤ z ∧ z ≤ 65535
    · refine ⟨_, .int (u16OfInt z), by rw [dump, pushInt, if_pos hz], Puts.one (by omega) fun st rest => ?_, ?_⟩
      · have : u16OfInt z < 65536 := by unfold u16OfInt; omega
        simp [applyToken, takeLE_two _ this]
      · simp only [Means, u16OfInt]; omega
    · have hb : z.natAbs < 2 ^ 53 := by omega
      refine ⟨_, .num (dblOfInt z), by rw [dump, pushInt, if_neg hz], Puts.one (by omega) fun st rest => ?_, ?_⟩
      · have : dblOfInt z % 256 ^ 8 = dblOfInt z := Nat.mod_eq_of_lt (by have := dblOfInt_lt hb; omega)
        simp only [applyToken, takeLE_leN_append, this]; simp
      · simp only [Means]; exact dblOfInt_denotes hb
  | .num b, h, _ => by
    simp only [Proper] at h
    refine ⟨_, .num b, by rw [dump], Puts.one (by omega) fun st rest => ?_, by simp [Means]⟩
    have : b % 256 ^ 8 = b := Nat.mod_eq_of_lt (by omega)
    simp only [applyToken, takeLE_leN_append, this]; simp
  | .err c, h, _ => by
    simp only [Proper] at h
    refine ⟨_, .err c, by rw [dump], Puts.one (by omega) fun st rest => ?_, by simp [Means]⟩
    have : c % 256 ^ 1 = c := Nat.mod_eq_of_lt (by omega)
    simp only [applyToken, takeLE_leN_append, this]; simp
  | .missing, _, _ => by
    refine ⟨leN 1 0x16 ++ [], .missing, by simp [dump], Puts.one (by omega) fun st rest => ?_, by simp [Means]⟩
    simp [applyToken]
  | .text s, h, _ => by
    simp only [Proper] at h
    refine ⟨_, .text s, by rw [dump, pushText], Puts.one (by omega) fun st rest => ?_, by simp [Means]⟩
    simp [applyToken, c04_len1_roundtrip s rest h]
  | .ref r c sh m k, h, hp => by
    simp only [Proper] at h
    simp only [Plain] at hp
    obtain ⟨hr, hc, hs, hm, hk⟩ := h
    refine ⟨_, _, by rw [dump], puts_ref ar own hr hc hs (modeRel_cases hm) hk, ?_⟩
    simp only [Means]
    refine ⟨by rcases hk with rfl | rfl | rfl <;> rfl, by simp, by simp, by simp, ?_⟩
    rcases hp with rfl | rfl <;> rfl
  | .area r c sh lr lc m k, h, hp => by
    simp only [Proper] at h
    simp only [Plain] at hp
    obtain ⟨hr, hc, hs, hlr, hlc, hm, hk⟩ := h
    refine ⟨_, _, by rw [dump], puts_area ar own hr hc hs hlr hlc (modeRel_cases hm) hk, ?_⟩
    simp only [Means]
    refine ⟨by rcases hk with rfl | rfl | rfl <;> rfl, by simp, by simp, by simp, by simp, by simp, ?_⟩
    rcases hp with rfl | rfl <;> exact ⟨rfl, rfl⟩
  | .un op a, h, hp => by
    simp only [Proper] at h
    simp only [Plain] at hp
    obtain ⟨bs, t, hd, hq, hm⟩ := dump_puts hA own a h.2 hp
    refine ⟨bs ++ leN 1 op, .un op t, by simp [dump, hd, Push.then], ?_, ⟨rfl, hm⟩⟩
    rw [leN_one_length op]
    refine hq.token (by omega) fun st rest => ?_
    unfold applyToken
    rw [if_neg (by omega), if_pos h.1]; simp
  | .bin op a b, h, hp => by
    simp only [Proper] at h
    simp only [Plain] at hp
    obtain ⟨bs, t, hd, hq, hm⟩ := dump_puts hA own a h.2.1 hp.1
    obtain ⟨bs', t', hd', hq', hm'⟩ := dump_puts hA own b h.2.2 hp.2
    refine ⟨bs ++ bs' ++ leN 1 op, .bin op t t', by simp [dump, hd, hd', Push.then], ?_, ⟨rfl, hm, hm'⟩⟩
    rw [leN_one_length op]
    refine (hq.append hq').token (by omega) fun st rest => ?_
    unfold applyToken
    rw [if_pos h.1]; simp
  | .func code k args, h, hp => by
    simp only [Proper] at h
    simp only [Plain] at hp
    obtain ⟨hc, hk, hacc, hall⟩ := h
    obtain ⟨bs, ts, hd, hq, hm, hl⟩ := dumpArgs_puts hA own args hall hp.2.2
    rw [← hl] at hacc
    obtain ⟨v, hv, tok, htok, hput⟩ := accepted_call hA hc hk hacc hp.1 hp.2.1 hq
    rw [hl] at hv htok
    refine ⟨bs ++ tok, _, ?_, hput, ?_⟩
    · simp only [dump, hd, hv, htok, Push.then, Option.bind_some, Option.map_some, Bool.or_false]
    · simp only [Means]
      exact ⟨funcClass_means hk, trivial, hm⟩
theorem dumpArgs_puts {ar : Nat → Option Nat} (hA : KnowsArity ar) (own : Option Nat) : (l : List Expr) → ProperAll l →
    PlainAll l → ∃ bs ts, dumpArgs own l = some (bs, false) ∧ Puts ar bs ts ∧ MeansAll own l ts ∧ ts.length = l.length
  | [], _, _ => ⟨[], [], by simp [dumpArgs], Puts.nil ar, by simp [MeansAll], rfl⟩
  | a :: r, h, hp => by
    simp only [ProperAll] at h
    simp only [PlainAll] at hp
    obtain ⟨bs, t, hd, hq, hm⟩ := dump_puts hA own a h.1 hp.1
    obtain ⟨bs', ts, hd', hq', hm', hl⟩ := dumpArgs_puts hA own r h.2 hp.2
    exact ⟨bs ++ bs', t :: ts, by simp [dumpArgs, hd, hd', Push.then], hq.append hq', ⟨hm, hm'⟩, by simp [hl]⟩
end

end Xls.Formula
