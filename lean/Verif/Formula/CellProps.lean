import Verif.Formula.Props
/-
Formula cells: the record holds the formula (C24), its predicted size (C25), calls with a wrong number of arguments (C26), the
cached result (C27), array constants (C49).
-/
namespace Xls.Formula
open Xls.Biff Xls.Num Xls.Unit

theorem takeN_all (bs : Bytes) : takeN bs.length bs = some (bs, []) := by
  have := takeN_append bs []
  rwa [List.append_nil] at this

theorem readFormula_head {row col xf : Nat} (hr : row < 65536) (hc : col < 65536) (hx : xf < 65536) (e : Estimate) (tok : Bytes)
    (ht : tok.length < 65536) :
    readFormula (formulaHead row col xf e ++ rgce tok) =
      some ⟨row, col, xf, e.val.encode % 2 ^ 64, e.flags % 65536, tok, []⟩ := by
  unfold readFormula formulaHead rgce cellHead
  simp only [List.append_assoc, takeLE_two _ hr, takeLE_two _ hc, takeLE_two _ hx, takeLE_two _ ht, takeLE_leN_append,
    Option.bind_some, takeN_all, Option.map_some]

/-- C24 at the level of the cell: the FORMULA record names the cell and carries the parsed expression, which a reader turns into
    the caller's tree (for a plain formula cell whose tokens fit in one record). -/
theorem c24_record_partial {ar : Nat → Option Nat} (hA : KnowsArity ar) (own : Option Nat) {e : Expr} (h : Proper e) (hp : Plain e)
    {row col xf : Nat} (hr : row < 65536) (hc : col < 256) (hx : xf < 65536) :
    ∃ bs t, dump own e = some (bs, false) ∧ Means own e t ∧ (bs.length < 65536 →
      ∃ p rest v fl, formulaRecords row col xf false (estimate e) bs = (0x06, p) :: rest ∧
        readFormula p = some ⟨row, col, xf, v, fl, bs, []⟩ ∧ parse ar bs = some t) := by
  obtain ⟨bs, t, hd, hq, hm⟩ := c24_parse_partial hA own h hp
  refine ⟨bs, t, hd, hm, fun hl => ⟨_, _, _, _, by unfold formulaRecords; rfl,
    readFormula_head hr (by omega) hx _ _ hl, hq⟩⟩

/-- C24 for an array formula: the FORMULA record refers to the cell itself and the ARRAY record that follows covers exactly
    this cell and carries the parsed expression. -/
theorem c24_array_record_partial {ar : Nat → Option Nat} (hA : KnowsArity ar) (own : Option Nat) {e : Expr} (h : Proper e)
    (hp : Plain e) {row col xf : Nat} (hr : row < 65536) (hc : col < 256) (hx : xf < 65536) :
    ∃ bs t, dump own e = some (bs, false) ∧ Means own e t ∧ (bs.length < 65536 →
      ∃ p q rest v fl, formulaRecords row col xf true (estimate e) bs = (0x06, p) :: (0x221, q) :: rest ∧
        readFormula p = some ⟨row, col, xf, v, fl, leN 1 1 ++ leN 2 row ++ leN 2 col, []⟩ ∧
        readArray q = some (row, row, col, col, bs, []) ∧ parse ar bs = some t) := by
  obtain ⟨bs, t, hd, hq, hm⟩ := c24_parse_partial hA own h hp
  refine ⟨bs, t, hd, hm, fun hl => ⟨_, _, _, _, _, by unfold formulaRecords; rfl,
    readFormula_head hr (by omega) hx _ _ (by simp), ?_, hq⟩⟩
  unfold readArray rgce
  simp only [List.append_assoc, takeLE_two _ hr, takeLE_two _ hl, takeLE_leN_append, Option.bind_some, takeN_all, Option.map_some]
  rw [Nat.mod_eq_of_lt (by omega : col < 256 ^ 1)]

-- a cell holding the sample formula
example : ∃ bs t, dump (some 0) sample = some (bs, false) ∧ Means (some 0) sample t ∧ (bs.length < 65536 →
      ∃ p rest v fl, formulaRecords 4 2 15 false (estimate sample) bs = (0x06, p) :: rest ∧
        readFormula p = some ⟨4, 2, 15, v, fl, bs, []⟩ ∧ parse tableArity bs = some t) :=
  c24_record_partial tableArity_knows (some 0) sample_proper (by simp [sample, Plain, PlainAll]) (by decide) (by decide) (by decide)

/-! ### C25: the predicted size -/

/-- The bytes of a STRING record for the result. -/
def strWritten : Est → Nat
  | .str s => 7 + s.length * (if isASCII s then 1 else 2)
  | _ => 0

theorem enc_length (r : Nat × Bytes) : (enc r).length = 4 + r.2.length := by simp [enc]; omega

theorem unit_length (row col xf : Nat) (array : Bool) (e : Estimate) (tok : Bytes) :
    (formulaUnit row col xf array e tok).length = 26 + tok.length + (if array then 23 else 0) + strWritten e.val := by
  have h1 : ((strRecords e.val).flatMap enc).length = strWritten e.val := by
    cases e.val <;> simp only [strRecords, strWritten, List.flatMap_nil, List.length_nil]
    rename_i s
    simp only [List.flatMap_cons, List.flatMap_nil, List.append_nil, enc_length, c04_string_size, unicodeStringLength]
    split <;> omega
  unfold formulaUnit formulaRecords
  rw [List.flatMap_append, List.length_append, h1]
  cases array
  · simp only [Bool.false_eq_true, if_false, List.flatMap_cons, List.flatMap_nil, List.append_nil, enc_length, formulaHead, cellHead,
      rgce, List.length_append, leN_length]
    omega
  · simp only [if_true, List.flatMap_cons, List.flatMap_nil, List.append_nil, enc_length, formulaHead, cellHead,
      rgce, List.length_append, leN_length]
    omega

/-- C25 for formulas given as a token string (`formula_t`): the predicted size is the number of bytes written. -/
theorem c25_stack (row col xf : Nat) (tok : Bytes) : (stackUnit row col xf false tok).length = stackSize tok := by
  unfold stackUnit stackSize
  rw [unit_length]; simp [stackEstimate, strWritten]

/-- … but 23 bytes short if it is an array formula. -/
theorem c25_stack_array (row col xf : Nat) (tok : Bytes) : (stackUnit row col xf true tok).length = stackSize tok + 23 := by
  unfold stackUnit stackSize
  rw [unit_length]; simp [stackEstimate, strWritten]

mutual
/-- No text and no reference to another sheet, at any depth. -/
def Countable (own : Option Nat) : Expr → Prop
  | .text _ => False
  | .ref _ _ sh _ _ => sheetSeen own sh = none
  | .area _ _ sh _ _ _ _ => sheetSeen own sh = none
  | .un _ a => Countable own a
  | .bin _ a b => Countable own a ∧ Countable own b
  | .func _ _ args => CountableAll own args
  | _ => True
def CountableAll (own : Option Nat) : List Expr → Prop
  | [] => True
  | a :: r => Countable own a ∧ CountableAll own r
end

theorem sheetSeen_none {own sheet : Option Nat} (h : sheetSeen own sheet = none) : own = none ∨ sheet = none ∨ sheet = own := by
  unfold sheetSeen at h
  cases own <;> cases sheet <;> simp_all

theorem pushFunc_length {code k : Nat} {x : Bytes} (h : pushFunc code k = (x, false)) : x.length = 3 := by
  unfold pushFunc at h
  split at h
  · simp only [Prod.mk.injEq, and_true] at h
    rw [← h]; simp [classed]
  · simp at h

theorem pushFuncVar_length {code n k : Nat} {x : Bytes} (h : pushFuncVar code n k = (x, false)) : x.length = 4 := by
  unfold pushFuncVar at h
  split at h
  · simp only [Prod.mk.injEq, and_true] at h
    rw [← h]; simp [classed]
  · simp at h

/-- Taking a dump of a call apart. -/
theorem dump_func {own : Option Nat} {code k : Nat} {args : List Expr} {bs : Bytes} (h : dump own (.func code k args) = some (bs, false)) :
    ∃ xs v tok, dumpArgs own args = some (xs, false) ∧ varBranch code args.length = some v ∧ bs = xs ++ tok ∧
      tok.length = 3 + (if v then 1 else 0) := by
  simp only [dump, Option.bind_eq_some_iff, Option.map_eq_some_iff] at h
  obtain ⟨⟨xs, ex⟩, hx, v, hv, h⟩ := h
  simp only [Push.then, Prod.mk.injEq, Bool.or_eq_false_iff] at h
  obtain ⟨h1, h2, h3⟩ := h
  subst h2
  refine ⟨xs, v, (if v then pushFuncVar code args.length k else pushFunc code k).1, hx, hv, h1.symm, ?_⟩
  cases v
  · exact pushFunc_length (Prod.ext rfl h3)
  · exact pushFuncVar_length (Prod.ext rfl h3)

mutual
/-- The size with the subtree is right for expressions without texts and references to other sheets. -/
theorem dump_fullSize {own : Option Nat} : (e : Expr) → {bs : Bytes} → dump own e = some (bs, false) → Countable own e →
    fullSize e = some bs.length
  | .bool b, bs, h, _ => by
    simp only [dump, Option.some.injEq, Prod.mk.injEq, and_true] at h
    rw [← h]; simp [fullSize, rootSize]
  | .int z, bs, h, _ => by
    simp only [dump, Option.some.injEq, Prod.mk.injEq, and_true] at h
    rw [← h, pushInt]
    by_cases hz : 0 ≤ z ∧ z ≤ 65535 <;> simp [fullSize, rootSize, hz]
  | .num b, bs, h, _ => by
    simp only [dump, Option.some.injEq, Prod.mk.injEq, and_true] at h
    rw [← h]; simp [fullSize, rootSize]
  | .err b, bs, h, _ => by
    simp only [dump, Option.some.injEq, Prod.mk.injEq, and_true] at h
    rw [← h]; simp [fullSize, rootSize]
  | .missing, bs, h, _ => by
    simp only [dump, Option.some.injEq, Prod.mk.injEq, and_true] at h
    rw [← h]; simp [fullSize, rootSize]
  | .text _, bs, _, hc => by simp [Countable] at hc
  | .ref r c sh m k, bs, h, hc => by
    simp only [Countable] at hc
    simp only [dump, Option.some.injEq, Prod.mk.injEq, and_true] at h
    rw [← h, pushRef, if_pos (sheetSeen_none hc)]; simp [fullSize, rootSize, classed]
  | .area r c sh lr lc m k, bs, h, hc => by
    simp only [Countable] at hc
    simp only [dump, Option.some.injEq, Prod.mk.injEq, and_true] at h
    rw [← h, pushArea, if_pos (sheetSeen_none hc)]; simp [fullSize, rootSize, classed]
  | .un op a, bs, h, hc => by
    simp only [Countable] at hc
    simp only [dump, Option.map_eq_some_iff] at h
    obtain ⟨⟨x, ex⟩, hx, h⟩ := h
    simp only [Push.then, Prod.mk.injEq, Bool.or_eq_false_iff] at h
    obtain ⟨rfl, rfl, -⟩ := h
    simp [fullSize, dump_fullSize a hx hc, Nat.add_comm]
  | .bin op a b, bs, h, hc => by
    simp only [Countable] at hc
    simp only [dump, Option.map_eq_some_iff, Option.bind_eq_some_iff] at h
    obtain ⟨⟨x, ex⟩, hx, ⟨y, ey⟩, hy, h⟩ := h
    simp only [Push.then, Prod.mk.injEq, Bool.or_eq_false_iff] at h
    obtain ⟨rfl, ⟨rfl, rfl⟩, -⟩ := h
    simp [fullSize, dump_fullSize a hx hc.1, dump_fullSize b hy hc.2]; omega
  | .func code k args, bs, h, hc => by
    simp only [Countable] at hc
    obtain ⟨xs, v, tok, hx, hv, rfl, ht⟩ := dump_func h
    simp [fullSize, dumpArgs_fullSize args hx hc, hv, ht]; omega
theorem dumpArgs_fullSize {own : Option Nat} : (l : List Expr) → {bs : Bytes} → dumpArgs own l = some (bs, false) →
    CountableAll own l → fullSizes l = some bs.length
  | [], bs, h, _ => by
    simp only [dumpArgs, Option.some.injEq, Prod.mk.injEq, and_true] at h
    rw [← h]; simp [fullSizes]
  | a :: r, bs, h, hc => by
    simp only [CountableAll] at hc
    simp only [dumpArgs, Option.map_eq_some_iff, Option.bind_eq_some_iff] at h
    obtain ⟨⟨x, ex⟩, hx, ⟨y, ey⟩, hy, h⟩ := h
    simp only [Push.then, Prod.mk.injEq, Bool.or_eq_false_iff] at h
    obtain ⟨rfl, rfl, rfl⟩ := h
    simp [fullSizes, dump_fullSize a hx hc.1, dumpArgs_fullSize r hy hc.2]
end

/-- Counting the whole subtree gives the exact number of token bytes of an expression without texts and references to other
    sheets.  (The formula cell does not do that: `c25_operators`.) -/
theorem c25_subtree {own : Option Nat} {e : Expr} {bs : Bytes} (h : dump own e = some (bs, false)) (hc : Countable own e) :
    fullSize e = some bs.length := dump_fullSize e h hc

/-- A node without children. -/
def Leaf : Expr → Prop
  | .un .. | .bin .. => False
  | .func _ _ args => args = []
  | _ => True

/-- The estimate is not a text. -/
def NoText (e : Expr) : Prop := ∀ s, (estimate e).val ≠ .str s

/-- C25 where it holds: for a formula of one node, without text, without a reference to another sheet and not an array formula,
    the predicted size is the number of bytes written.  (The full claim, for every expression, fails: the theorems below.) -/
theorem c25_leaf_partial {own : Option Nat} {e : Expr} {bs : Bytes} (h : dump own e = some (bs, false)) (hl : Leaf e)
    (hc : Countable own e) (hn : NoText e) (row col xf : Nat) :
    cellUnit own row col xf false e = some (formulaUnit row col xf false (estimate e) bs) ∧
    cellSize e = some (formulaUnit row col xf false (estimate e) bs).length := by
  refine ⟨by simp [cellUnit, h], ?_⟩
  have hr : rootSize e = some bs.length := by
    rw [← dump_fullSize e h hc]
    cases e <;> try (simp [fullSize]; done)
    · simp [Leaf] at hl
    · simp [Leaf] at hl
    · simp only [Leaf] at hl
      subst hl
      simp [fullSize, rootSize, fullSizes]
  rw [unit_length]
  unfold NoText at hn
  have h0 : strWritten (estimate e).val = 0 ∧ strSize (estimate e).val = 0 := by
    cases hv : (estimate e).val <;> first | exact ⟨rfl, rfl⟩ | exact absurd hv (hn _)
  simp [cellSize, hr, h0]

example : cellSize (.ref 3 4 (some 1) 0xC000 0x40) = some (formulaUnit 0 0 15 false (estimate (.ref 3 4 (some 1) 0xC000 0x40))
    (pushRef (some 1) 3 4 (some 1) 0xC000 0x40)).length :=
  (c25_leaf_partial (own := some 1) (by rw [dump]) (by simp [Leaf]) (by simp [Countable, sheetSeen]) (by simp [NoText, estimate]) 0 0 15).2

theorem strSize_le (e : Est) : strSize e ≤ strWritten e := by cases e <;> simp [strSize, strWritten]

mutual
theorem dump_nonempty {own : Option Nat} : (e : Expr) → {bs : Bytes} → dump own e = some (bs, false) → 0 < bs.length
  | .bool _, bs, h | .num _, bs, h | .err _, bs, h | .missing, bs, h | .text _, bs, h => by
    simp only [dump, pushText, Option.some.injEq, Prod.mk.injEq, and_true] at h
    rw [← h]; simp <;> omega
  | .int z, bs, h => by
    simp only [dump, Option.some.injEq, Prod.mk.injEq, and_true] at h
    rw [← h, pushInt]; split <;> simp
  | .ref .., bs, h => by
    simp only [dump, Option.some.injEq, Prod.mk.injEq, and_true] at h
    rw [← h, pushRef]; split <;> simp [classed]
  | .area .., bs, h => by
    simp only [dump, Option.some.injEq, Prod.mk.injEq, and_true] at h
    rw [← h, pushArea]; split <;> simp [classed]
  | .un op a, bs, h => by
    simp only [dump, Option.map_eq_some_iff] at h
    obtain ⟨⟨x, ex⟩, hx, h⟩ := h
    simp only [Push.then, Prod.mk.injEq] at h
    rw [← h.1]; simp
  | .bin op a b, bs, h => by
    simp only [dump, Option.map_eq_some_iff, Option.bind_eq_some_iff] at h
    obtain ⟨⟨x, ex⟩, hx, ⟨y, ey⟩, hy, h⟩ := h
    simp only [Push.then, Prod.mk.injEq] at h
    rw [← h.1]; simp; omega
  | .func code k args, bs, h => by
    obtain ⟨xs, v, tok, hx, hv, rfl, ht⟩ := dump_func h
    simp [ht]; omega
end

/-- C25 fails for every formula with an operator or with a call that has arguments: the predicted size counts the topmost node
    only, so it is always too small. -/
theorem c25_operators {own : Option Nat} {e : Expr} {bs : Bytes} (h : dump own e = some (bs, false)) (hl : ¬ Leaf e)
    (row col xf : Nat) (array : Bool) :
    ∃ n, cellSize e = some n ∧ n < (formulaUnit row col xf array (estimate e) bs).length := by
  have key : ∃ n, rootSize e = some n ∧ n < bs.length := by
    cases e <;> try (exact absurd trivial hl)
    · rename_i op a
      simp only [dump, Option.map_eq_some_iff] at h
      obtain ⟨⟨x, ex⟩, hx, h⟩ := h
      simp only [Push.then, Prod.mk.injEq, Bool.or_eq_false_iff] at h
      obtain ⟨rfl, rfl, -⟩ := h
      have := dump_nonempty a hx
      exact ⟨1, by simp [rootSize], by simp; omega⟩
    · rename_i op a b
      simp only [dump, Option.map_eq_some_iff, Option.bind_eq_some_iff] at h
      obtain ⟨⟨x, ex⟩, hx, ⟨y, ey⟩, hy, h⟩ := h
      simp only [Push.then, Prod.mk.injEq, Bool.or_eq_false_iff] at h
      obtain ⟨rfl, ⟨rfl, rfl⟩, -⟩ := h
      have := dump_nonempty a hx
      exact ⟨1, by simp [rootSize], by simp; omega⟩
    · rename_i code k args
      obtain ⟨xs, v, tok, hx, hv, rfl, ht⟩ := dump_func h
      refine ⟨3 + (if v then 1 else 0), by simp [rootSize, hv], ?_⟩
      have : 0 < xs.length := by
        cases args with
        | nil => exact absurd rfl hl
        | cons a r =>
          simp only [dumpArgs, Option.map_eq_some_iff, Option.bind_eq_some_iff] at hx
          obtain ⟨⟨x, ex⟩, hx, ⟨y, ey⟩, hy, h⟩ := hx
          simp only [Push.then, Prod.mk.injEq, Bool.or_eq_false_iff] at h
          obtain ⟨rfl, rfl, -⟩ := h
          have := dump_nonempty a hx
          simp; omega
      simp [ht]; omega
  obtain ⟨n, hn, hlt⟩ := key
  refine ⟨26 + n + strSize (estimate e).val, by simp [cellSize, hn], ?_⟩
  have := strSize_le (estimate e).val
  rw [unit_length]; omega

example : ∃ n, cellSize (.bin 3 (.int 1) (.int 2)) = some n ∧
    n < (formulaUnit 0 0 15 false (estimate (.bin 3 (.int 1) (.int 2))) [0x1E, 1, 0, 0x1E, 2, 0, 3]).length :=
  c25_operators (own := none) (by decide) (by simp [Leaf]) 0 0 15 false

/-- C25 for a formula that is one text: right only for plain texts of exactly four characters. -/
theorem c25_text (own : Option Nat) (s : List UInt16) (row col xf : Nat) :
    ∃ u, cellUnit own row col xf false (.text s) = some u ∧
      (cellSize (.text s) = some u.length ↔ isASCII s = true ∧ s.length = 4) := by
  refine ⟨_, by simp only [cellUnit, dump, Option.map_some]; rfl, ?_⟩
  rw [unit_length]
  simp only [cellSize, rootSize, estimate, strSize, strWritten, pushText, List.length_append, leN_length, c04_string_size,
    unicodeStringLength, Option.map_some, Option.some.injEq, Bool.false_eq_true, if_false]
  by_cases h : isASCII s = true
  · simp only [h, if_true, true_and]; omega
  · simp only [h, if_neg, Bool.false_eq_true, not_false_eq_true, false_and, iff_false]; omega

/-- C25 for a reference to another sheet: two bytes short. -/
theorem c25_other_sheet {own : Option Nat} {r c : Nat} {sh : Option Nat} {m k : Nat} (h : sheetSeen own sh ≠ none)
    (row col xf : Nat) :
    ∃ u n, cellUnit own row col xf false (.ref r c sh m k) = some u ∧ cellSize (.ref r c sh m k) = some n ∧ u.length = n + 2 := by
  refine ⟨_, _, by simp only [cellUnit, dump, Option.map_some]; rfl, by simp only [cellSize, rootSize, Option.map_some]; rfl, ?_⟩
  rw [unit_length, pushRef, if_neg (fun e => h (sheetSeen_same e))]
  simp [estimate, strSize, strWritten, classed]

example : sheetSeen (some 0) (some 2) ≠ none := by decide

/-- So the claim as stated does not hold, even for proper expressions. -/
theorem c25_fails (own : Option Nat) : ¬ ∀ e row col xf, Proper e →
    ∃ u, cellUnit own row col xf false e = some u ∧ cellSize e = some u.length := by
  intro h
  obtain ⟨u, hu, hs⟩ := h (.un 0x13 (.int 1)) 0 0 15 (by simp [Proper])
  have hd : dump own (.un 0x13 (.int 1)) = some ([0x1E, 1, 0, 0x13], false) := by
    simp only [dump, pushInt]; decide
  obtain ⟨n, hn, hlt⟩ := c25_operators hd (by simp [Leaf]) 0 0 15 false
  rw [cellUnit, hd] at hu
  simp only [Option.map_some, Option.some.injEq] at hu
  rw [hn, ← hu] at hs
  simp only [Option.some.injEq] at hs
  omega

/-! ### C26: a wrong number of arguments -/

/-- Where the number of arguments is not permitted, nothing is pushed for the call. -/
theorem unaccepted_push {code n : Nat} (h : ¬ Accepts code n) (hn : n < 32) (k : Nat) :
    ∃ v, varBranch code n = some v ∧ (if v then pushFuncVar code n k else pushFunc code k) = ([], true) := by
  have hu : (funcProp code).2 ≠ anyCount := fun hu => h (.inr ⟨hu, by omega⟩)
  have hb : ¬ (n ≤ 30 ∧ (funcProp code).2.testBit n = true) := fun hb => h (.inl hb)
  refine ⟨_, by rw [varBranch, if_neg hu, if_pos hn], ?_⟩
  by_cases hv : ((funcProp code).2 &&& (0xFFFFFFFF ^^^ 2 ^ n) != 0) = true
  · rw [if_pos hv, pushFuncVar, if_neg]
    rintro (h1 | ⟨h1, h2⟩)
    · exact hu h1
    · exact hb ⟨h1, (and_pow_ne_zero _ _).mp h2⟩
  · rw [if_neg hv, pushFunc, if_neg]
    intro hm
    have hz : (funcProp code).2 &&& (0xFFFFFFFF ^^^ 2 ^ n) = 0 := by simpa using hv
    -- a mask of one bit inside 2^n's complement's complement is 2^n itself
    have key : ∀ i, i ≤ 5 → (funcProp code).2 = 2 ^ i → False := by
      intro i hi e
      have hin : i = n := by
        refine Classical.byContradiction fun hne => ?_
        have := congrArg (·.testBit i) hz
        simp only [Nat.testBit_and, Nat.testBit_xor, Nat.zero_testBit, Nat.testBit_two_pow, e] at this
        have h1 : Nat.testBit 0xFFFFFFFF i = true := by
          rw [show (0xFFFFFFFF : Nat) = 2 ^ 32 - 1 from rfl, Nat.testBit_two_pow_sub_one]; simp; omega
        rw [h1] at this
        simp [Ne.symm hne] at this
      subst hin
      exact hb ⟨by omega, by rw [e]; simp⟩
    simp only [List.mem_cons, List.not_mem_nil, or_false] at hm
    rcases hm with e | e | e | e | e | e | e
    · exact key 0 (by omega) e
    · exact key 1 (by omega) e
    · exact key 2 (by omega) e
    · exact key 3 (by omega) e
    · exact key 4 (by omega) e
    · exact key 5 (by omega) e
    · exact hu e

/-- C26 fails for every count other than one that the function does not accept (below 32): dumping reports an error that the
    formula cell ignores, and the FORMULA record it writes holds an expression that leaves `n` values, so it does not parse. -/
theorem c26_corrupt {ar : Nat → Option Nat} (hA : KnowsArity ar) (own : Option Nat) {code k : Nat} {args : List Expr}
    (h : ¬ Accepts code args.length) (hn : args.length < 32) (h1 : args.length ≠ 1) (ha : ProperAll args) (hp : PlainAll args)
    {row col xf : Nat} (hr : row < 65536) (hc : col < 65536) (hx : xf < 65536) :
    ∃ bs u, dump own (.func code k args) = some (bs, true) ∧ cellUnit own row col xf false (.func code k args) = some u ∧
      parse ar bs = none ∧ (bs.length < 65536 → ∃ p rest v fl, u = enc (0x06, p) ++ rest ∧
        readFormula p = some ⟨row, col, xf, v, fl, bs, []⟩) := by
  obtain ⟨v, hv, hpush⟩ := unaccepted_push h hn k
  obtain ⟨bs, ts, hd, hq, -, hl⟩ := nothing_pushed hA own ha hp hv hpush
  refine ⟨bs, formulaUnit row col xf false (estimate (.func code k args)) bs, hd, by simp [cellUnit, hd],
    hq.parse_none (by omega), fun hl => ?_⟩
  refine ⟨formulaHead row col xf (estimate (.func code k args)) ++ rgce bs,
    (strRecords (estimate (.func code k args)).val).flatMap enc, _, _, ?_, readFormula_head hr hc hx _ _ hl⟩
  simp only [formulaUnit, formulaRecords, Bool.false_eq_true, if_false, List.cons_append, List.nil_append, List.flatMap_cons]

-- SIN (15) with two arguments
example : ∃ bs, dump none (.func 15 0 [.int 1, .int 2]) = some (bs, true) ∧ parse tableArity bs = none := by
  obtain ⟨bs, u, h, -, h', -⟩ := c26_corrupt tableArity_knows none (code := 15) (k := 0) (args := [.int 1, .int 2])
    (by simp only [Accepts]; decide +kernel) (by decide) (by decide) (by simp [ProperAll, Proper]) (by simp [PlainAll, Plain])
    (row := 0) (col := 0) (xf := 15) (by decide) (by decide) (by decide)
  exact ⟨bs, h, h'⟩

/-- With one argument that the function does not accept, the formula parses, but the call is gone: it is the argument. -/
theorem c26_call_lost {ar : Nat → Option Nat} (hA : KnowsArity ar) (own : Option Nat) {code k : Nat} {a : Expr}
    (h : ¬ Accepts code 1) (ha : Proper a) (hp : Plain a) :
    ∃ bs t, dump own (.func code k [a]) = some (bs, true) ∧ parse ar bs = some t ∧ Means own a t := by
  obtain ⟨v, hv, hpush⟩ := unaccepted_push h (by omega) k
  obtain ⟨bs, ts, hd, hq, hm, hl⟩ := nothing_pushed hA own (args := [a]) (by simpa [ProperAll] using ha)
    (by simpa [PlainAll] using hp) hv hpush
  match ts, hm, hl, hq with
  | [t], hm, _, hq =>
    simp only [MeansAll, and_true] at hm
    exact ⟨bs, t, hd, hq.parse, hm⟩

-- PI (19) with an argument
example : ¬ Accepts 19 1 := by simp only [Accepts]; decide +kernel

/-- With 32 or more arguments the count is shifted out of range: undefined behaviour, both when the size is predicted and when the
    formula is written (unless the function accepts any number). -/
theorem c26_undefined (own : Option Nat) {code k : Nat} {args : List Expr} (hu : (funcProp code).2 ≠ anyCount)
    (hn : 32 ≤ args.length) : dump own (.func code k args) = none ∧ cellSize (.func code k args) = none := by
  have hv : varBranch code args.length = none := by rw [varBranch, if_neg hu, if_neg (by omega)]
  constructor
  · simp only [dump, hv]
    cases dumpArgs own args <;> simp
  · simp [cellSize, rootSize, hv]

-- SUM (4)
example : dump none (.func 4 0 (List.replicate 32 (.int 1))) = none :=
  (c26_undefined none (by decide +kernel) (by simp)).1

/-- Functions that accept any number: with more than 127 arguments no error is reported, and the expression does not parse. -/
theorem c26_too_many {ar : Nat → Option Nat} (hA : KnowsArity ar) (own : Option Nat) {code k : Nat} {args : List Expr}
    (hu : (funcProp code).2 = anyCount) (hk : k = 0 ∨ IsClass k) (hn : 128 ≤ args.length) (ha : ProperAll args)
    (hp : PlainAll args) : ∃ bs, dump own (.func code k args) = some (bs, false) ∧ parse ar bs = none := by
  obtain ⟨xs, ts, hd, hq, -, hl⟩ := dumpArgs_puts hA own args ha hp
  have hK := funcClass_isClass (code := code) hk
  refine ⟨xs ++ (classed 0x22 (funcClass code k) ++ leN 1 (args.length % 256 &&& 0x7F) ++ leN 2 (code &&& 0x7FFF)), ?_, ?_⟩
  · simp [dump, hd, varBranch, hu, pushFuncVar, Push.then]
  · obtain ⟨j, hj, hq⟩ := hq
    rw [classed_eq (by simp) hK]
    generalize hm : args.length % 256 &&& 0x7F = m
    generalize hf : code &&& 0x7FFF = f
    have hm' : m < 128 := by
      rw [← hm, show (0x7F : Nat) = 2 ^ 7 - 1 from rfl, Nat.and_two_pow_sub_one_eq_mod]; omega
    have ht : 2 + funcClass code k < 256 := by rcases hK with h | h | h <;> rw [h] <;> omega
    unfold parse
    have hlen : (xs ++ (leN 1 (0x22 % 32 + funcClass code k) ++ leN 1 m ++ leN 2 f)).length = j + ((xs.length - j + 3) + 1) := by
      simp; omega
    rw [hlen, hq, List.append_nil, List.append_assoc, tokens_step _ _ _ _ _ ht, applyToken_class ar _ hK (by omega)]
    have e1 : m % 256 ^ 1 % 128 = m := by omega
    simp only [takeLE_leN_append, takeLE_leN, Option.bind_some, e1]
    rw [if_neg (by decide), if_neg (by decide), if_pos (by decide)]
    unfold popArgs
    rw [if_pos (by simp; omega)]
    simp only [Option.map_some, Option.bind_some, tokens]
    have : 1 ≤ (ts.reverse.drop m).length := by simp; omega
    match hx : ts.reverse.drop m, this with
    | x :: l, _ => rfl

/-- C26 where it holds: with a permitted number of arguments (and not CUMPRINC or CUMIPMT), or with exactly one argument, the
    formula parses to one value.  (The full claim, for every number of arguments, fails: `c26_fails`.) -/
theorem c26_one_value_partial {ar : Nat → Option Nat} (hA : KnowsArity ar) (own : Option Nat) {code k : Nat} {args : List Expr}
    (hcode : code < 2 ^ 15) (hk : k = 0 ∨ IsClass k) (ha : ProperAll args) (hp : PlainAll args) (h1 : code ≠ 447) (h2 : code ≠ 448)
    (h : Accepts code args.length ∨ args.length = 1) :
    ∃ bs e t, dump own (.func code k args) = some (bs, e) ∧ parse ar bs = some t := by
  by_cases hacc : Accepts code args.length
  · obtain ⟨bs, t, hd, ht, -⟩ := c24_parse_partial hA own (e := .func code k args) (by simp only [Proper]; exact ⟨hcode, hk, hacc, ha⟩)
      (by simp only [Plain]; exact ⟨h1, h2, hp⟩)
    exact ⟨bs, _, t, hd, ht⟩
  · have hl := h.resolve_left hacc
    match args, hl with
    | [a], _ =>
      simp only [ProperAll, and_true] at ha
      simp only [PlainAll, and_true] at hp
      obtain ⟨bs, t, hd, ht, -⟩ := c26_call_lost hA own (k := k) hacc ha hp
      exact ⟨bs, _, t, hd, ht⟩

/-- So the claim as stated does not hold. -/
theorem c26_fails {ar : Nat → Option Nat} (hA : KnowsArity ar) (own : Option Nat) :
    ¬ ∀ code k args, (k = 0 ∨ IsClass k) → ProperAll args → ∃ bs e, dump own (.func code k args) = some (bs, e) ∧
      (cellUnit own 0 0 15 false (.func code k args) = none ∨ ∃ t, parse ar bs = some t) := by
  intro h
  obtain ⟨bs, e, hd, h⟩ := h 15 0 [.int 1, .int 2] (.inl rfl) (by simp [ProperAll, Proper])
  obtain ⟨bs', u, hd', hu, hp, -⟩ := c26_corrupt hA own (code := 15) (k := 0) (args := [.int 1, .int 2])
    (by simp only [Accepts]; decide +kernel) (by decide) (by decide) (by simp [ProperAll, Proper]) (by simp [PlainAll, Plain])
    (row := 0) (col := 0) (xf := 15) (by decide) (by decide) (by decide)
  rw [hd] at hd'
  simp only [Option.some.injEq, Prod.mk.injEq] at hd'
  rw [hu, hd'.1, hp] at h
  simp at h

/-! ### C27: the cached result -/

/-- The cached value read is the estimate. -/
def CachedIs : Est → Cached → Prop
  | .bool b, .bool b' => b = b'
  | .int z, .num b => Denotes b z
  | .dbl b, .num b' => b = b'
  | .str _, .str => True
  | .err c, .err c' => c = c'
  | _, _ => False

/-- Values the encoding has room for: integers of 32 bits, one-byte error codes, and doubles whose upper 16 bits are not the
    marker 0xFFFF (a range of NaN patterns). -/
def Est.InRange : Est → Prop
  | .unknown => False
  | .bool _ => True
  | .int z => -2 ^ 31 ≤ z ∧ z < 2 ^ 31
  | .dbl b => b < 0xFFFF000000000000
  | .str _ => True
  | .err c => c < 256

/-- Every one-byte error code. -/
theorem err_decodes : ∀ c : Fin 256, readCached ((Est.err c.val).encode % 2 ^ 64) = some (.err c.val) := by decide +kernel

/-- C27: the eight bytes of the cached result decode to the estimate: the kinds never share an encoding, and the value is kept.
    A double with one of the reserved NaN patterns is excluded, as is an estimate never set. -/
theorem c27_decodes {e : Est} (h : e.InRange) : ∃ c, readCached (e.encode % 2 ^ 64) = some c ∧ CachedIs e c := by
  cases e with
  | unknown => exact absurd h (by simp [Est.InRange])
  | bool b => exact ⟨.bool b, by cases b <;> decide, rfl⟩
  | int z =>
    simp only [Est.InRange] at h
    have hb : z.natAbs < 2 ^ 53 := by omega
    have hl := dblOfInt_lt hb
    have hd := dblOfInt_denotes hb
    refine ⟨.num (dblOfInt z), ?_, hd⟩
    simp only [Est.encode]
    rw [Nat.mod_eq_of_lt hl]
    unfold readCached
    rw [if_neg]
    intro hf
    obtain ⟨m, e, hp, -⟩ := hd
    unfold dblParts at hp
    have : dblOfInt z / 2 ^ 52 % 2048 = 2047 := by omega
    simp only [this, if_true] at hp
    simp at hp
  | dbl b =>
    simp only [Est.InRange] at h
    refine ⟨.num b, ?_, rfl⟩
    simp only [Est.encode]
    unfold readCached
    rw [if_neg (by omega), Nat.mod_eq_of_lt (by omega)]
  | str s => exact ⟨.str, by simp only [Est.encode]; decide, trivial⟩
  | err c =>
    simp only [Est.InRange] at h
    exact ⟨.err c, err_decodes ⟨c, h⟩, rfl⟩

example : (Est.int (-7)).InRange ∧ (Est.dbl 0x4045000000000000).InRange ∧ (Est.err 0x2A).InRange := by
  simp [Est.InRange]

/-- Two estimates with the same eight bytes are the same cached value: the kinds never share an encoding. -/
theorem c27_distinct {e e' : Est} (h : e.InRange) (h' : e'.InRange) (he : e.encode % 2 ^ 64 = e'.encode % 2 ^ 64) :
    ∃ c, CachedIs e c ∧ CachedIs e' c := by
  obtain ⟨d, hd, hi⟩ := c27_decodes h
  obtain ⟨d', hd', hi'⟩ := c27_decodes h'
  rw [he, hd'] at hd
  simp only [Option.some.injEq] at hd
  exact ⟨d, hi, hd ▸ hi'⟩

/-- The exception is real: a double with a reserved pattern is never read back as that double. -/
theorem c27_reserved {b : Nat} (h : 0xFFFF000000000000 ≤ b) (hb : b < 2 ^ 64) (c : Cached)
    (hc : readCached ((Est.dbl b).encode % 2 ^ 64) = some c) : ¬ CachedIs (.dbl b) c := by
  simp only [Est.encode] at hc
  unfold readCached at hc
  rw [Nat.mod_eq_of_lt hb, if_pos (by omega)] at hc
  intro hi
  cases c <;> simp only [CachedIs] at hi
  repeat' split at hc
  all_goals simp at hc

example : readCached ((Est.dbl 0xFFFF000000000001).encode % 2 ^ 64) = some (.bool false) := by decide

/-- C27 in the record: the cell's cached value decodes to the expression's estimate, and a text result follows in a STRING record
    (one of at most 65535 characters). -/
theorem c27_record {row col xf : Nat} (hr : row < 65536) (hc : col < 65536) (hx : xf < 65536) (e : Expr) {tok : Bytes}
    (ht : tok.length < 65536) (h : (estimate e).val.InRange) :
    ∃ p rest v fl c, formulaRecords row col xf false (estimate e) tok = (0x06, p) :: rest ∧
      readFormula p = some ⟨row, col, xf, v, fl, tok, []⟩ ∧ readCached v = some c ∧ CachedIs (estimate e).val c ∧
      (∀ s, (estimate e).val = .str s → s.length < 65536 → ∃ q, rest = [(0x207, q)] ∧ Spec.readStr2 q = some (s, [])) ∧
      (c ≠ .str → rest = []) := by
  obtain ⟨c, hd, hi⟩ := c27_decodes h
  refine ⟨_, _, _, _, c, by unfold formulaRecords; rfl, readFormula_head hr hc hx _ _ ht, hd, hi, ?_, ?_⟩
  · intro s hs hl
    rw [hs]
    refine ⟨_, rfl, ?_⟩
    have := c04_len2_roundtrip s [] hl
    rwa [List.append_nil] at this
  · intro hne
    cases hv : (estimate e).val <;> try rfl
    rw [hv] at hi
    cases c <;> simp_all [CachedIs]

/-- Every formula that is not a constant is marked to be recalculated when the file is opened, so the estimate is never taken for
    the result; and the functions whose value changes by itself (NOW 74, TODAY 221, RAND 63, OFFSET 78, INDIRECT 148, CELL 125) are
    marked to be recalculated always. -/
def Constant : Expr → Prop
  | .bool _ | .int _ | .num _ | .err _ | .missing | .text _ => True
  | _ => False

theorem funcEstimate_onLoad (code : Nat) : (funcEstimate code).onLoad = true := by
  unfold funcEstimate
  repeat' split
  all_goals rfl

theorem c27_recalculated {e : Expr} (h : ¬ Constant e) : (estimate e).flags / 2 % 2 = 1 := by
  have : (estimate e).onLoad = true := by
    cases e <;> first | rfl | exact absurd trivial h | exact funcEstimate_onLoad _
  unfold Estimate.flags
  rw [if_pos this]
  cases (estimate e).always <;> decide

theorem c27_volatile {code : Nat} (h : code ∈ [74, 221, 63, 78, 148, 125]) (k : Nat) (args : List Expr) :
    (estimate (.func code k args)).flags % 2 = 1 := by
  simp only [List.mem_cons, List.not_mem_nil, or_false] at h
  rcases h with rfl | rfl | rfl | rfl | rfl | rfl <;> simp only [estimate] <;> decide +kernel

/-- Every estimate the library makes for an expression within the limits is in range, except a reserved NaN given as a constant. -/
theorem estimate_inRange {e : Expr} (h : Proper e) (hn : ∀ b, e = .num b → b < 0xFFFF000000000000) :
    (estimate e).val.InRange := by
  cases e <;> simp only [Proper] at h <;> try (simp [estimate, Est.InRange]; done)
  · simpa [estimate, Est.InRange] using h
  · simpa [estimate, Est.InRange] using hn _ rfl
  · simpa [estimate, Est.InRange] using h
  · simp only [estimate]
    unfold funcEstimate
    repeat' split
    all_goals simp [Est.InRange]

/-- So C27 holds for every proper expression, with that exception. -/
theorem c27_expression {row col xf : Nat} (hr : row < 65536) (hc : col < 65536) (hx : xf < 65536) {e : Expr} {tok : Bytes}
    (ht : tok.length < 65536) (h : Proper e) (hn : ∀ b, e = .num b → b < 0xFFFF000000000000) :
    ∃ p rest v fl c, formulaRecords row col xf false (estimate e) tok = (0x06, p) :: rest ∧
      readFormula p = some ⟨row, col, xf, v, fl, tok, []⟩ ∧ readCached v = some c ∧ CachedIs (estimate e).val c := by
  obtain ⟨p, rest, v, fl, c, h1, h2, h3, h4, -⟩ := c27_record hr hc hx e ht (estimate_inRange h hn)
  exact ⟨p, rest, v, fl, c, h1, h2, h3, h4⟩

example : ∃ p rest v fl c, formulaRecords 1 2 15 false (estimate sample) [0x16] = (0x06, p) :: rest ∧
      readFormula p = some ⟨1, 2, 15, v, fl, [0x16], []⟩ ∧ readCached v = some c ∧ CachedIs (estimate sample).val c :=
  c27_expression (by decide) (by decide) (by decide) (by decide) sample_proper (by simp [sample])

/-! ### C49: array constants -/

theorem readExtra_head (n : Nat) (d : Bytes) : readExtra (leN 1 1 ++ leN 2 n ++ d) =
    (readItems (2 * (n % 65536 + 1)) d).map fun (l, bs) => ((2, n % 65536 + 1, l), bs) := by
  unfold readExtra
  simp only [List.append_assoc, takeLE_leN_append, Option.bind_some]

theorem readItems_head {n : Nat} {d r : Bytes} {l : List Item} (h : readItems (n + 1) d = some (l, r)) :
    ∃ x l', l = x :: l' ∧ ∃ d', readItem d = some (x, d') := by
  simp only [readItems, Option.bind_eq_some_iff, Option.map_eq_some_iff, Prod.exists, Prod.mk.injEq] at h
  obtain ⟨x, d', hx, l', r', -, rfl, -⟩ := h
  exact ⟨x, l', rfl, d', hx⟩

/-- C49 fails for every text array: whatever a reader finds in the data, it is not the texts. -/
theorem c49_texts_lost (v : List (List UInt16)) {c r : Nat} {l : List Item} {rest : Bytes}
    (h : readExtra ((pushTextArray v).2) = some ((c, r, l), rest)) : l ≠ v.map .text := by
  unfold pushTextArray at h
  rw [readExtra_head] at h
  simp only [Option.map_eq_some_iff, Prod.exists, Prod.mk.injEq] at h
  obtain ⟨l', r', hr, ⟨-, -, rfl⟩, -⟩ := h
  obtain ⟨x, l'', rfl, d', hx⟩ := readItems_head (n := 2 * (v.length % 65536) + 1) (by rw [← hr]; congr 1)
  cases v with
  | nil => simp
  | cons s v =>
    intro e
    simp only [List.map_cons, List.cons.injEq] at e
    rw [e.1] at hx
    simp only [List.flatMap_cons, List.append_assoc] at hx
    rw [show leN 1 1 = [1] from rfl] at hx
    simp only [List.cons_append, readItem] at hx
    rw [if_neg (by decide), if_pos (by decide)] at hx
    simp at hx

/-- … and for every array of numbers. -/
theorem c49_numbers_lost (v : List Nat) {c r : Nat} {l : List Item} {rest : Bytes}
    (h : readExtra ((pushDblArray v).2) = some ((c, r, l), rest)) : l ≠ v.map .num := by
  unfold pushDblArray at h
  rw [readExtra_head] at h
  simp only [Option.map_eq_some_iff, Prod.exists, Prod.mk.injEq] at h
  obtain ⟨l', r', hr, ⟨-, -, rfl⟩, -⟩ := h
  obtain ⟨x, l'', rfl, d', hx⟩ := readItems_head (n := 2 * (v.length % 65536) + 1) (by rw [← hr]; congr 1)
  cases v with
  | nil => simp
  | cons s v =>
    intro e
    simp only [List.map_cons, List.cons.injEq] at e
    rw [e.1] at hx
    simp only [List.flatMap_cons, List.append_assoc] at hx
    rw [show leN 1 2 = [2] from rfl] at hx
    simp only [List.cons_append, readItem] at hx
    rw [if_neg (by decide), if_neg (by decide), if_pos (by decide)] at hx
    simp at hx

/-- The data of an array constant is also counted as part of the tokens, so whatever complete expression comes before it, the formula
    does not parse. -/
theorem c49_data_among_tokens {ar : Nat → Option Nat} {m : Bytes} {ts : List Tree} (hm : Puts ar m ts) (v : List (List UInt16)) :
    parse ar (m ++ (pushTextArray v).2) = none := by
  obtain ⟨k, hk, h⟩ := hm
  unfold parse pushTextArray
  simp only [List.append_assoc]
  generalize leN 2 v.length ++ _ = d
  have hl : (m ++ (leN 1 1 ++ d)).length = k + ((m.length - k + d.length) + 1) := by simp; omega
  rw [hl, h, tokens_step _ _ _ _ _ (by omega)]
  simp [applyToken]

-- the formula {"a"} on its own
example : parse tableArity ((pushTextArray [[97]]).1 ++ (pushTextArray [[97]]).2) = none :=
  c49_data_among_tokens (ts := [.array 3]) (Puts.one (by omega) fun st rest => by simp [applyToken, takeN]) [[97]]

/-- The token of an array of numbers lacks its seven reserved bytes: on its own it is not even a token. -/
theorem c49_numbers_token (ar : Nat → Option Nat) (v : List Nat) : parse ar (pushDblArray v).1 = none := by
  unfold parse pushDblArray
  have := tokens_step ar 0 [] 0x60 [] (by omega)
  rw [List.append_nil] at this
  simp only [leN_length]
  rw [this]
  simp [applyToken, takeN]

end Xls.Formula
