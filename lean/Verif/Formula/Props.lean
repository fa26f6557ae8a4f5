import Verif.Formula.Lemmas
/-
C24: a formula reads back as the expression that was built.
-/
namespace Xls.Formula
open Xls.Biff Xls.Num Xls.Unit

/-- The expression is written without error, and a reader gets it back. -/
def Faithful (ar : Nat → Option Nat) (own : Option Nat) (e : Expr) : Prop :=
  ∃ bs t, dump own e = some (bs, false) ∧ parse ar bs = some t ∧ Means own e t

/-- A reader that knows the fixed counts exists. -/
def tableArity (code : Nat) : Option Nat :=
  (List.range 32).find? fun n => (funcProp code).2 == 2 ^ n

theorem tableArity_knows : KnowsArity tableArity := by
  intro code n h
  have hn : n < 32 := by
    refine Classical.byContradiction fun hn => ?_
    have h1 := mask_lt code
    rw [h] at h1
    exact hn ((Nat.pow_lt_pow_iff_right (by decide)).mp h1)
  have hf : ((List.range 32).find? fun m => (funcProp code).2 == 2 ^ m) = some n := by
    rw [List.find?_eq_some_iff_append]
    refine ⟨by simp [h], List.range n, (List.range' (n + 1) (32 - n - 1)), ?_, ?_⟩
    · rw [List.range_eq_range', List.range_eq_range', ← List.range'_succ]
      have := List.range'_append_1 (s := 0) (m := n) (n := 32 - n - 1 + 1)
      rw [Nat.zero_add] at this
      rw [this]; congr 1; omega
    · intro a ha
      have : a < n := List.mem_range.mp ha
      rw [h]
      simp only [Bool.not_eq_true', beq_eq_false_iff_ne]
      intro e
      have := (Nat.pow_right_inj (by decide : 1 < 2)).mp e
      omega
  exact hf

/-- C24 for every expression within the format's limits, except those using mixed addressing modes or the two functions of
    exactly six arguments: the bytes are one well-formed postfix expression, and it is the caller's tree.  (The full claim is
    `∀ e, Proper e → Faithful ar own e`; `c24_fails` shows that it does not hold.) -/
theorem c24_parse_partial {ar : Nat → Option Nat} (hA : KnowsArity ar) (own : Option Nat) {e : Expr} (h : Proper e)
    (hp : Plain e) : Faithful ar own e := by
  obtain ⟨bs, t, hd, hq, hm⟩ := dump_puts hA own e h hp
  exact ⟨bs, t, hd, hq.parse, hm⟩

/-- `-(A1 + Sheet3!$B$2) & IF(TRUE, "yes", )` -/
def sample : Expr :=
  .bin 8 (.un 0x13 (.un 0x15 (.bin 3 (.ref 0 0 none 0xC000 0x40) (.ref 1 1 (some 2) 0 0x40))))
    (.func 1 0 [.bool true, .text [121, 101, 115], .missing])

theorem sample_proper : Proper sample := by
  simp [sample, Proper, ProperAll, IsClass, modeRel, Accepts]
  left; decide +kernel

-- the hypotheses are met by a nested formula with references to two sheets and a call with a variable number of arguments
example : Faithful tableArity (some 0) sample :=
  c24_parse_partial tableArity_knows (some 0) sample_proper (by simp [sample, Plain, PlainAll])
-- and these are the bytes
example : dump (some 0) sample = some ([0x44, 0, 0, 0, 0xC0, 0x5A, 2, 0, 1, 0, 1, 0, 3, 0x15, 0x13, 0x1D, 1, 0x17, 3, 0,
    121, 101, 115, 0x16, 0x42, 3, 1, 0, 8], false) := by decide +kernel

/-- C24: an operator can be made exactly if it is one of the format's operators with that number of operands (+ − * / ^ & < ≤ = ≥ > ≠, intersection,
    union and range with two, 3 to 0x11; plus, minus, percent and parentheses with one, 0x12 to 0x15), and it is then the operator that was asked
    for. -/
theorem c24_operators (op : Nat) {a b : Expr} (ha : Proper a) (hb : Proper b) :
    (∀ e, mkUn op a = some e ↔ e = .un op a ∧ Proper e) ∧ (∀ e, mkBin op a b = some e ↔ e = .bin op a b ∧ Proper e) := by
  have hu : op ∈ [0x12, 0x13, 0x14, 0x15] ↔ 0x12 ≤ op ∧ op ≤ 0x15 := by simp; omega
  have hv : op ∈ [3, 5, 4, 6, 7, 8, 0xA, 9, 0xB, 0xC, 0xD, 0xE, 0xF, 0x10, 0x11] ↔ 3 ≤ op ∧ op ≤ 0x11 := by simp; omega
  constructor
  · intro e
    rw [mkUn]
    by_cases h : op ∈ [0x12, 0x13, 0x14, 0x15]
    · rw [if_pos h, Option.some.injEq]
      constructor
      · rintro rfl; exact ⟨rfl, by simp only [Proper]; exact ⟨hu.mp h, ha⟩⟩
      · rintro ⟨rfl, -⟩; rfl
    · rw [if_neg h]
      constructor
      · intro he; cases he
      · rintro ⟨rfl, hp⟩; simp only [Proper] at hp; exact absurd (hu.mpr hp.1) h
  · intro e
    rw [mkBin]
    by_cases h : op ∈ [3, 5, 4, 6, 7, 8, 0xA, 9, 0xB, 0xC, 0xD, 0xE, 0xF, 0x10, 0x11]
    · rw [if_pos h, Option.some.injEq]
      constructor
      · rintro rfl; exact ⟨rfl, by simp only [Proper]; exact ⟨hv.mp h, ha, hb⟩⟩
      · rintro ⟨rfl, -⟩; rfl
    · rw [if_neg h]
      constructor
      · intro he; cases he
      · rintro ⟨rfl, hp⟩; simp only [Proper] at hp; exact absurd (hv.mpr hp.1) h

-- multiplication with two operands, not with one
example : (mkBin 5 (.bool true) .missing).isSome ∧ mkUn 5 (.bool true) = none := ⟨rfl, rfl⟩

/-- C24 does not hold for mixed addressing modes: every such reference reads back with the relative and the absolute coordinate
    exchanged (`A$1` becomes `$A1`). -/
theorem c24_mixed_swapped (ar : Nat → Option Nat) (own : Option Nat) {r c : Nat} {sh : Option Nat} {m k : Nat}
    (h : Proper (.ref r c sh m k)) (hm : m = 0x8000 ∨ m = 0x4000) :
    ∃ bs rr cr, dump own (.ref r c sh m k) = some (bs, false) ∧
      parse ar bs = some (.ref (k / 32) (sheetSeen own sh) r c rr cr) ∧ modeRel m = some (cr, rr) ∧ rr ≠ cr := by
  simp only [Proper] at h
  obtain ⟨hr, hc, hs, hm', hk⟩ := h
  refine ⟨_, _, _, by rw [dump], (puts_ref ar own hr hc hs (modeRel_cases hm') hk).parse, ?_⟩
  rcases hm with rfl | rfl <;> exact ⟨rfl, by decide⟩

theorem c24_mixed_swapped_area (ar : Nat → Option Nat) (own : Option Nat) {r c lr lc : Nat} {sh : Option Nat} {m k : Nat}
    (h : Proper (.area r c sh lr lc m k)) (hm : m = 0x8000 ∨ m = 0x4000) :
    ∃ bs rr cr, dump own (.area r c sh lr lc m k) = some (bs, false) ∧
      parse ar bs = some (.area (k / 32) (sheetSeen own sh) r lr c rr cr lc rr cr) ∧ modeRel m = some (cr, rr) ∧ rr ≠ cr := by
  simp only [Proper] at h
  obtain ⟨hr, hc, hs, hlr, hlc, hm', hk⟩ := h
  refine ⟨_, _, _, by rw [dump], (puts_area ar own hr hc hs hlr hlc (modeRel_cases hm') hk).parse, ?_⟩
  rcases hm with rfl | rfl <;> exact ⟨rfl, by decide⟩

example : Proper (.ref 0 0 none 0x8000 0x40) := by simp [Proper, modeRel, IsClass]

/-- A mixed reference is never read back as what it was. -/
theorem c24_mixed_fails (ar : Nat → Option Nat) (own : Option Nat) {r c : Nat} {sh : Option Nat} {m k : Nat}
    (h : Proper (.ref r c sh m k)) (hm : m = 0x8000 ∨ m = 0x4000) : ¬ Faithful ar own (.ref r c sh m k) := by
  obtain ⟨bs, rr, cr, hd, hp, hmode, hne⟩ := c24_mixed_swapped ar own h hm
  rintro ⟨bs', t, hd', hp', hmeans⟩
  rw [hd] at hd'
  simp only [Option.some.injEq, Prod.mk.injEq, and_true] at hd'
  subst hd'
  rw [hp] at hp'
  simp only [Option.some.injEq] at hp'
  subst hp'
  simp only [Means] at hmeans
  rw [hmode] at hmeans
  simp only [Option.some.injEq, Prod.mk.injEq] at hmeans
  exact hne hmeans.2.2.2.2.1.symm

/-- What a call with no token pushed leaves: the arguments, unreduced. -/
theorem nothing_pushed {ar : Nat → Option Nat} (hA : KnowsArity ar) (own : Option Nat) {code k : Nat} {args : List Expr}
    (h : ProperAll args) (hp : PlainAll args) {v : Bool} (hv : varBranch code args.length = some v)
    (hpush : (if v then pushFuncVar code args.length k else pushFunc code k) = ([], true)) :
    ∃ bs ts, dump own (.func code k args) = some (bs, true) ∧ Puts ar bs ts ∧ MeansAll own args ts ∧ ts.length = args.length := by
  obtain ⟨bs, ts, hd, hq, hm, hl⟩ := dumpArgs_puts hA own args h hp
  refine ⟨bs, ts, ?_, hq, hm, hl⟩
  simp only [dump, hd, hv, hpush, Push.then, Option.bind_some, Option.map_some, List.append_nil, Bool.or_true]

/-- C24 does not hold for the functions of exactly six arguments (CUMPRINC 447, CUMIPMT 448): with the six arguments they
    require, the call is left out and the formula does not parse. -/
theorem c24_six_args {ar : Nat → Option Nat} (hA : KnowsArity ar) (own : Option Nat) {code k : Nat} {args : List Expr}
    (hcode : code = 447 ∨ code = 448) (h6 : args.length = 6) (h : ProperAll args) (hp : PlainAll args) :
    Accepts code args.length ∧ ∃ bs, dump own (.func code k args) = some (bs, true) ∧ parse ar bs = none := by
  have hm : (funcProp code).2 = 2 ^ 6 := by rcases hcode with rfl | rfl <;> decide +kernel
  have hv : varBranch code args.length = some false := by
    rw [varBranch, hm, h6]; decide
  have hpush : (if false = true then pushFuncVar code args.length k else pushFunc code k) = ([], true) := by
    simp only [Bool.false_eq_true, if_false]
    unfold pushFunc
    rw [hm, if_neg (by decide)]
  refine ⟨.inl ⟨by omega, by rw [hm, h6]; decide⟩, ?_⟩
  obtain ⟨bs, ts, hd, hq, -, hl⟩ := nothing_pushed hA own h hp hv hpush
  exact ⟨bs, hd, hq.parse_none (by omega)⟩

example : ∃ bs, dump none (.func 448 0 (List.replicate 6 (.int 1))) = some (bs, true) ∧ parse tableArity bs = none :=
  (c24_six_args tableArity_knows none (.inr rfl) (by decide) (by simp [ProperAll, Proper]) (by simp [PlainAll, Plain])).2

/-- So the claim as stated does not hold. -/
theorem c24_fails (ar : Nat → Option Nat) (own : Option Nat) : ¬ ∀ e, Proper e → Faithful ar own e := by
  intro h
  have hP : Proper (.ref 0 0 none 0x8000 0x40) := by simp [Proper, modeRel, IsClass]
  exact c24_mixed_fails ar own hP (.inl rfl) (h _ hP)

/-- A reference built with the operand class CELL_DEFAULT (0) is written with an opcode that means subtraction: a formula
    that begins with one does not parse, whatever follows. -/
theorem c24_default_class (ar : Nat → Option Nat) (own : Option Nat) (r c : Nat) (m : Nat) (sh : Option Nat)
    (hsh : own = none ∨ sh = none ∨ sh = own) (rest : Bytes) :
    ∃ bs, dump own (.ref r c sh m 0) = some (bs, false) ∧ parse ar (bs ++ rest) = none := by
  refine ⟨_, by rw [dump], ?_⟩
  rw [pushRef, if_pos hsh]
  rw [show classed 0x24 0 = leN 1 4 from rfl]
  unfold parse
  have hl : ∀ x : Bytes, (leN 1 4 ++ leN 2 r ++ x ++ rest).length = (leN 2 r ++ x ++ rest).length + 1 := by
    intro x; simp; omega
  rw [hl]
  simp only [List.append_assoc]
  rw [tokens_step _ _ _ _ _ (by omega)]
  simp [applyToken]

example : ∃ bs, dump (some 1) (.ref 4 5 (some 1) 0xC000 0) = some (bs, false) ∧ parse tableArity (bs ++ []) = none :=
  c24_default_class tableArity (some 1) 4 5 0xC000 (some 1) (.inr (.inr rfl)) []

mutual
/-- The expression contains, at any depth, a text of more than 255 characters. -/
def HasLong : Expr → Prop
  | .text s => 256 ≤ s.length
  | .un _ a => HasLong a
  | .bin _ a b => HasLong a ∨ HasLong b
  | .func _ _ args => HasLongAny args
  | _ => False
def HasLongAny : List Expr → Prop
  | [] => False
  | a :: r => HasLong a ∨ HasLongAny r
end

mutual
theorem means_short {own : Option Nat} : (e : Expr) → (t : Tree) → Means own e t → Short t → ¬ HasLong e
  | .text s, t, hm, hs => by
    cases t <;> simp only [Means] at hm
    subst hm
    simp only [Short, HasLong] at *; omega
  | .un _ a, t, hm, hs => by
    cases t <;> simp only [Means] at hm
    simp only [Short] at hs
    simp only [HasLong]
    exact means_short a _ hm.2 hs
  | .bin _ a b, t, hm, hs => by
    cases t <;> simp only [Means] at hm
    simp only [Short] at hs
    simp only [HasLong, not_or]
    exact ⟨means_short a _ hm.2.1 hs.1, means_short b _ hm.2.2 hs.2⟩
  | .func _ _ args, t, hm, hs => by
    cases t <;> simp only [Means] at hm
    simp only [Short] at hs
    simp only [HasLong]
    exact means_shortAll args _ hm.2.2 hs
  | .bool _, _, _, _ | .int _, _, _, _ | .num _, _, _, _ | .err _, _, _, _ | .missing, _, _, _ => by simp [HasLong]
  | .ref .., _, _, _ | .area .., _, _, _ => by simp [HasLong]
theorem means_shortAll {own : Option Nat} : (l : List Expr) → (ts : List Tree) → MeansAll own l ts → ShortAll ts → ¬ HasLongAny l
  | [], _, _, _ => by simp [HasLongAny]
  | a :: r, [], hm, _ => by simp [MeansAll] at hm
  | a :: r, t :: ts, hm, hs => by
    simp only [MeansAll] at hm
    simp only [ShortAll] at hs
    simp only [HasLongAny, not_or]
    exact ⟨means_short a t hm.1 hs.1, means_shortAll r ts hm.2 hs.2⟩
end

/-- An expression with a text of more than 255 characters, at any depth, is never read back (formula.cpp 271 has a note that the
    text should be clipped). -/
theorem c24_long_text (ar : Nat → Option Nat) (own : Option Nat) {e : Expr} (h : HasLong e) : ¬ Faithful ar own e := by
  rintro ⟨bs, t, _, hp, hm⟩
  exact means_short e t hm (parse_short hp) h

example : ¬ Faithful tableArity none (.bin 8 (.text (List.replicate 256 65)) (.int 1)) :=
  c24_long_text _ _ (by simp only [HasLong]; exact .inl (Nat.le_of_eq List.length_replicate.symm))

end Xls.Formula
