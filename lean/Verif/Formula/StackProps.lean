import Verif.Formula.StackSpec
/-
C63: a formula built call by call.
-/
namespace Xls.Formula
open Xls.Biff Xls.Unit Xls.Num

theorem meansAll_append {own : Option Nat} : ∀ (a b : List Expr) (ts : List Tree), MeansAll own (a ++ b) ts ↔
    ∃ x y, ts = x ++ y ∧ MeansAll own a x ∧ MeansAll own b y
  | [], b, ts => by
    constructor
    · intro h; exact ⟨[], ts, rfl, by simp [MeansAll], h⟩
    · rintro ⟨x, y, rfl, hx, hy⟩
      cases x with
      | nil => exact hy
      | cons _ _ => simp [MeansAll] at hx
  | e :: a, b, ts => by
    cases ts with
    | nil =>
      constructor
      · intro h; simp [MeansAll] at h
      · rintro ⟨x, y, he, hx, hy⟩
        cases x with
        | nil => simp [MeansAll] at hx
        | cons _ _ => simp at he
    | cons t ts =>
      simp only [List.cons_append, MeansAll]
      rw [meansAll_append a b ts]
      constructor
      · rintro ⟨h1, x, y, rfl, hx, hy⟩
        exact ⟨t :: x, y, rfl, ⟨h1, hx⟩, hy⟩
      · rintro ⟨x, y, he, hx, hy⟩
        cases x with
        | nil => simp [MeansAll] at hx
        | cons u x =>
          simp only [List.cons_append, List.cons.injEq] at he
          obtain ⟨rfl, rfl⟩ := he
          simp only [MeansAll] at hx
          exact ⟨hx.1, x, y, rfl, hx.2, hy⟩

theorem meansAll_length {own : Option Nat} : ∀ (a : List Expr) (ts : List Tree), MeansAll own a ts → ts.length = a.length
  | [], [], _ => rfl
  | [], _ :: _, h => by simp [MeansAll] at h
  | _ :: _, [], h => by simp [MeansAll] at h
  | _ :: a, _ :: ts, h => by
    simp only [MeansAll] at h
    simp [meansAll_length a ts h.2]

/-- A token that takes some operands and puts one. -/
theorem Puts.take {ar : Nat → Option Nat} {a : Bytes} {ws xs : List Tree} {t : Nat} {r : Bytes} {y : Tree} (ha : Puts ar a (ws ++ xs))
    (ht : t < 256) (h : ∀ st rest, applyToken ar (xs.reverse ++ st) t (r ++ rest) = some (y :: st, rest)) :
    Puts ar (a ++ (leN 1 t ++ r)) (ws ++ [y]) := by
  obtain ⟨k, hk, h1⟩ := ha
  refine ⟨k + 1, by simp; omega, fun n st rest => ?_⟩
  rw [Nat.add_assoc, List.append_assoc, h1, Nat.add_comm 1 n, List.append_assoc, tokens_step _ _ _ _ _ ht, List.reverse_append, List.append_assoc, h]
  simp

/-- A token that cannot be applied makes the formula unreadable, whatever follows. -/
theorem Puts.stuck {ar : Nat → Option Nat} {a : Bytes} {xs : List Tree} {t : Nat} {r : Bytes} (ha : Puts ar a xs)
    (ht : t < 256) (h : ∀ rest, applyToken ar xs.reverse t (r ++ rest) = none) (rest : Bytes) :
    Formula.parse ar ((a ++ (leN 1 t ++ r)) ++ rest) = none := by
  obtain ⟨k, hk, h1⟩ := ha
  unfold Formula.parse
  have hl : ((a ++ (leN 1 t ++ r)) ++ rest).length = k + ((a.length - k + r.length + rest.length) + 1) := by simp; omega
  rw [hl, List.append_assoc, h1, List.append_assoc, tokens_step _ _ _ _ _ ht, List.append_nil, h]
  rfl

theorem pushes_main (own : Option Nat) : ∀ (cs : List Call) (s : Stack), (∀ c ∈ cs, Fit c) →
    ∃ r, (s.pushes own cs).1.main = s.main ++ r ∧ (s.pushes own cs).1.aux = s.aux
  | [], s, _ => ⟨[], by simp [Stack.pushes], rfl⟩
  | c :: cs, s, h => by
    obtain ⟨r, h1, h2⟩ := pushes_main own cs (s.push own c).1 fun d hd => h d (List.mem_cons_of_mem _ hd)
    have hc := h c List.mem_cons_self
    have : ∃ x, (s.push own c).1.main = s.main ++ x ∧ (s.push own c).1.aux = s.aux := by
      cases c <;> first | exact ⟨_, rfl, rfl⟩ | exact absurd hc (by simp [Fit])
    obtain ⟨x, h3, h4⟩ := this
    exact ⟨x ++ r, by simp only [Stack.pushes]; rw [h1, h3, List.append_assoc], by simp only [Stack.pushes]; rw [h2, h4]⟩

/-- What one call without error does to the reader's operands. -/
def Does (ar : Nat → Option Nat) (own : Option Nat) (main : Bytes) (st : List Expr) (c : Call) (p : Push) : Prop :=
  match ask ar st c with
  | some st' => ∃ ts, Puts ar (main ++ p.1) ts ∧ MeansAll own st'.reverse ts
  | none => ∀ rest, Formula.parse ar ((main ++ p.1) ++ rest) = none

/-- A leaf of an expression as a call. -/
theorem leaf_does {ar : Nat → Option Nat} (hA : KnowsArity ar) {own : Option Nat} {main : Bytes} {st : List Expr} {ts : List Tree}
    (hp : Puts ar main ts) (hm : MeansAll own st.reverse ts) (e : Expr) (he : Proper e) (hq : Plain e) {p : Push} (hd : dump own e = some p) :
    ∃ ts, Puts ar (main ++ p.1) ts ∧ MeansAll own (e :: st).reverse ts := by
  obtain ⟨bs, t, h1, h2, h3⟩ := dump_puts hA own e he hq
  rw [hd] at h1
  obtain rfl := Option.some.inj h1
  refine ⟨ts ++ [t], hp.append h2, ?_⟩
  rw [List.reverse_cons, meansAll_append]
  exact ⟨ts, [t], rfl, hm, by simp [MeansAll, h3]⟩

theorem args_split {own : Option Nat} {st : List Expr} {ts : List Tree} (hm : MeansAll own st.reverse ts) {n : Nat} (hn : n ≤ st.length) :
    ∃ ws xs, ts = ws ++ xs ∧ xs.length = n ∧ MeansAll own (st.drop n).reverse ws ∧ MeansAll own (st.take n).reverse xs := by
  have : st.reverse = (st.drop n).reverse ++ (st.take n).reverse := by rw [← List.reverse_append, List.take_append_drop]
  rw [this, meansAll_append] at hm
  obtain ⟨ws, xs, h1, h2, h3⟩ := hm
  exact ⟨ws, xs, h1, by rw [meansAll_length _ _ h3]; simp; omega, h2, h3⟩

theorem popArgs_short_stack {n : Nat} {st : List Tree} (h : ¬ n ≤ st.length) : popArgs n st = none := if_neg h

theorem class_small {code k o : Nat} (hK : IsClass (funcClass code k)) (ho : o < 32) : o + funcClass code k < 256 := by
  rcases hK with h | h | h <;> rw [h] <;> omega

theorem call_does {ar : Nat → Option Nat} (hA : KnowsArity ar) {own : Option Nat} {s : Stack} {st : List Expr} {ts : List Tree}
    (hp : Puts ar s.main ts) (hm : MeansAll own st.reverse ts) (c : Call) (hc : Fit c) (hok : (s.push own c).2 = false) :
    match ask ar st c with
    | some st' => ∃ ts, Puts ar (s.push own c).1.main ts ∧ MeansAll own st'.reverse ts
    | none => ∀ rest, Formula.parse ar ((s.push own c).1.main ++ rest) = none := by
  have hl := meansAll_length _ _ hm
  rw [List.length_reverse] at hl
  cases c with
  | bool b => exact leaf_does hA hp hm (.bool b) trivial trivial rfl
  | missing => exact leaf_does hA hp hm .missing trivial trivial rfl
  | err v => exact leaf_does hA hp hm (.err v) hc trivial rfl
  | int z => exact leaf_does hA hp hm (.int z) hc trivial rfl
  | num b => exact leaf_does hA hp hm (.num b) hc trivial rfl
  | text t => exact leaf_does hA hp hm (.text t) hc trivial rfl
  | ref r c sh m k =>
    obtain ⟨h1, h2, h3, h4, h5⟩ := hc
    exact leaf_does hA hp hm (.ref r c sh m k) ⟨h1, h2, h3, by rcases h4 with rfl | rfl <;> rfl, h5⟩ h4 rfl
  | area r c sh lr lc m k =>
    obtain ⟨h1, h2, h3, h4, h5, h6, h7⟩ := hc
    exact leaf_does hA hp hm (.area r c sh lr lc m k) ⟨h1, h2, h3, h4, h5, by rcases h6 with rfl | rfl <;> rfl, h7⟩ h6 rfl
  | op o =>
    have hmain : (s.push own (.op o)).1.main = s.main ++ (leN 1 o ++ []) := by simp [Stack.push, Stack.add]
    rw [hmain]
    simp only [Fit] at hc
    by_cases hb : 3 ≤ o ∧ o ≤ 0x11
    · by_cases h2 : 2 ≤ st.length
      · obtain ⟨ws, xs, rfl, hx, m1, m2⟩ := args_split hm h2
        match st, h2, xs, hx with
        | b :: a :: st, _, [x, y], _ =>
          simp only [ask, if_pos hb]
          refine ⟨ws ++ [.bin o x y], hp.take (by omega) fun st rest => ?_, ?_⟩
          · unfold applyToken
            rw [if_pos hb]; simp
          · rw [List.reverse_cons, meansAll_append]
            simp only [List.take_succ_cons, List.take_zero, List.reverse_cons, List.reverse_nil, List.nil_append, List.cons_append, MeansAll] at m2
            exact ⟨ws, [_], rfl, by simpa using m1, by simp [MeansAll, Means, m2.1, m2.2.1]⟩
      · have : ask ar st (.op o) = none := by
          simp only [ask, if_pos hb]
          match st, h2 with
          | [], _ => rfl
          | [_], _ => rfl
          | _ :: _ :: _, h2 => simp at h2
        rw [this]
        refine fun rest => hp.stuck (by omega) (fun rest => ?_) rest
        unfold applyToken
        rw [if_pos hb]
        have : ts.reverse.length < 2 := by simp; omega
        match ts.reverse, this with
        | [], _ => rfl
        | [_], _ => rfl
    · have hu : 0x12 ≤ o ∧ o ≤ 0x15 := by omega
      by_cases h1 : 1 ≤ st.length
      · obtain ⟨ws, xs, rfl, hx, m1, m2⟩ := args_split hm h1
        match st, h1, xs, hx with
        | a :: st, _, [x], _ =>
          simp only [ask, if_neg hb, if_pos hu]
          refine ⟨ws ++ [.un o x], hp.take (by omega) fun st rest => ?_, ?_⟩
          · unfold applyToken
            rw [if_neg hb, if_pos hu]; simp
          · rw [List.reverse_cons, meansAll_append]
            simp only [List.take_succ_cons, List.take_zero, List.reverse_cons, List.reverse_nil, List.nil_append, MeansAll] at m2
            exact ⟨ws, [_], rfl, by simpa using m1, by simp [MeansAll, Means, m2.1]⟩
      · have : st = [] := by cases st <;> simp_all
        subst this
        have : ask ar [] (.op o) = none := by simp only [ask, if_neg hb, if_pos hu]
        rw [this]
        refine fun rest => hp.stuck (by omega) (fun rest => ?_) rest
        unfold applyToken
        rw [if_neg hb, if_pos hu]
        have : ts = [] := by cases ts <;> simp_all
        subst this; rfl
  | func code k =>
    simp only [Fit] at hc
    have hK := funcClass_isClass (code := code) hc.2
    have hmask : (funcProp code).2 ∈ [1, 2, 4, 8, 16, 32, anyCount] := by
      apply Classical.byContradiction
      intro h
      simp [Stack.push, Stack.add, pushFunc, h] at hok
    have hmain : (s.push own (.func code k)).1.main = s.main ++ (leN 1 (1 + funcClass code k) ++ leN 2 code) := by
      simp only [Stack.push, Stack.add, pushFunc, if_pos hmask]
      rw [classed_eq (by simp) hK]
    rw [hmain]
    have e4 : code < 65536 := by omega
    simp only [ask]
    cases hn : ar code with
    | none =>
      refine fun rest => hp.stuck (class_small hK (by omega)) (fun rest => ?_) rest
      rw [applyToken_class ar _ hK (by omega)]
      simp [takeLE_two _ e4, hn]
    | some n =>
      simp only [Option.bind_some]
      by_cases h : n ≤ st.length
      · rw [if_pos h]
        obtain ⟨ws, xs, rfl, hx, m1, m2⟩ := args_split hm h
        refine ⟨ws ++ [.call (funcClass code k / 32) code xs], hp.take (class_small hK (by omega)) fun st rest => ?_, ?_⟩
        · rw [applyToken_class ar _ hK (by omega)]
          simp only [takeLE_two _ e4, Option.bind_some, hn, ← hx, popArgs_reverse]
          simp
        · rw [List.reverse_cons, meansAll_append]
          exact ⟨ws, [_], rfl, m1, by simp only [MeansAll, Means]; exact ⟨⟨funcClass_means hc.2, trivial, m2⟩, trivial⟩⟩
      · rw [if_neg h]
        refine fun rest => hp.stuck (class_small hK (by omega)) (fun rest => ?_) rest
        rw [applyToken_class ar _ hK (by omega)]
        simp [takeLE_two _ e4, hn, popArgs_short_stack (show ¬ n ≤ ts.reverse.length by simp; omega)]
  | funcN code n k =>
    simp only [Fit] at hc
    have hK := funcClass_isClass (code := code) hc.2.2
    have hmask : (funcProp code).2 = anyCount ∨ (n ≤ 30 ∧ (funcProp code).2 &&& 2 ^ n ≠ 0) := by
      apply Classical.byContradiction
      intro h
      simp only [Stack.push, Stack.add, pushFuncVar, if_neg h] at hok
      simp at hok
    have e1 : n % 256 &&& 0x7F = n := by
      rw [show (0x7F : Nat) = 2 ^ 7 - 1 from rfl, Nat.and_two_pow_sub_one_eq_mod]; omega
    have e2 : code &&& 0x7FFF = code := by
      rw [show (0x7FFF : Nat) = 2 ^ 15 - 1 from rfl, Nat.and_two_pow_sub_one_eq_mod]; omega
    have hmain : (s.push own (.funcN code n k)).1.main = s.main ++ (leN 1 (2 + funcClass code k) ++ (leN 1 n ++ leN 2 code)) := by
      simp only [Stack.push, Stack.add, pushFuncVar, if_pos hmask]
      rw [classed_eq (by simp) hK, e1, e2, List.append_assoc]
    rw [hmain]
    have e3 : n % 256 ^ 1 % 128 = n := by omega
    have e4 : code % 256 ^ 2 % 2 ^ 15 = code := by omega
    simp only [ask]
    by_cases h : n ≤ st.length
    · rw [if_pos h]
      obtain ⟨ws, xs, rfl, hx, m1, m2⟩ := args_split hm h
      refine ⟨ws ++ [.call (funcClass code k / 32) code xs], hp.take (class_small hK (by omega)) fun st rest => ?_, ?_⟩
      · rw [applyToken_class ar _ hK (by omega)]
        simp only [List.append_assoc, takeLE_leN_append, Option.bind_some, e3, e4]
        rw [← hx, popArgs_reverse]
        simp
      · rw [List.reverse_cons, meansAll_append]
        exact ⟨ws, [_], rfl, m1, by simp only [MeansAll, Means]; exact ⟨⟨funcClass_means hc.2.2, trivial, m2⟩, trivial⟩⟩
    · rw [if_neg h]
      refine fun rest => hp.stuck (class_small hK (by omega)) (fun rest => ?_) rest
      rw [applyToken_class ar _ hK (by omega)]
      simp only [List.append_assoc, takeLE_leN_append, Option.bind_some, e3, e4]
      rw [popArgs_short_stack (show ¬ n ≤ ts.reverse.length by simp; omega)]
      simp
  | texts v => exact absurd hc (by simp [Fit])
  | nums v => exact absurd hc (by simp [Fit])

theorem calls_do {ar : Nat → Option Nat} (hA : KnowsArity ar) (own : Option Nat) : ∀ (cs : List Call) (s : Stack) (st : List Expr) (ts : List Tree),
    Puts ar s.main ts → MeansAll own st.reverse ts → (∀ c ∈ cs, Fit c) → (∀ b ∈ (s.pushes own cs).2, b = false) →
    match asked ar st cs with
    | some st' => ∃ ts, Puts ar (s.pushes own cs).1.main ts ∧ MeansAll own st'.reverse ts
    | none => Formula.parse ar (s.pushes own cs).1.main = none
  | [], s, st, ts, hp, hm, _, _ => ⟨ts, hp, hm⟩
  | c :: cs, s, st, ts, hp, hm, hf, hok => by
    have h1 := call_does hA hp hm c (hf c List.mem_cons_self) (hok _ (by simp [Stack.pushes]))
    have hf' : ∀ d ∈ cs, Fit d := fun d hd => hf d (List.mem_cons_of_mem _ hd)
    simp only [asked]
    cases ha : ask ar st c with
    | none =>
      rw [ha] at h1
      obtain ⟨r, h2, -⟩ := pushes_main own cs (s.push own c).1 hf'
      simp only [Option.bind_none, Stack.pushes]
      rw [h2]
      exact h1 r
    | some st' =>
      rw [ha] at h1
      obtain ⟨ts', h2, h3⟩ := h1
      exact calls_do hA own cs (s.push own c).1 st' ts' h2 h3 hf' fun b hb => hok b (by simp [Stack.pushes, hb])

/-- C63: whatever calls are made on a formula, if none of them reports an error, a reader finds in the formula's bytes the formula that
    the calls asked for; and if they do not ask for one (an operator or a function without enough operands before it, or other than one
    operand left), the bytes are no formula.  Missing for the full claim: references with one relative and one absolute coordinate
    (`c24_mixed_swapped`), texts of more than 255 characters (`c24_long_text`) and array constants (C49). -/
theorem c63_calls_partial {ar : Nat → Option Nat} (hA : KnowsArity ar) (own : Option Nat) (cs : List Call) (hf : ∀ c ∈ cs, Fit c)
    (hok : ∀ b ∈ (Stack.pushes own {} cs).2, b = false) :
    match formulaOf ar cs with
    | some e => ∃ t, parse ar (Stack.pushes own {} cs).1.bytes = some t ∧ Means own e t
    | none => parse ar (Stack.pushes own {} cs).1.bytes = none := by
  have h := calls_do hA own cs {} [] [] (Puts.nil ar) (by simp [MeansAll]) hf hok
  obtain ⟨r, -, h2⟩ := pushes_main own cs {} hf
  have hb : (Stack.pushes own {} cs).1.bytes = (Stack.pushes own {} cs).1.main := by simp [Stack.bytes, h2]
  rw [hb]
  unfold formulaOf
  cases ha : asked ar [] cs with
  | none => rw [ha] at h; exact h
  | some l =>
    rw [ha] at h
    obtain ⟨ts, h3, h4⟩ := h
    have hl := meansAll_length _ _ h4
    match l with
    | [] => exact h3.parse_none (by simp at hl; simp [hl])
    | [e] =>
      match ts, hl with
      | [t], _ =>
        simp only [List.reverse_cons, List.reverse_nil, List.nil_append, MeansAll] at h4
        exact ⟨t, h3.parse, h4.1⟩
    | _ :: _ :: _ => exact h3.parse_none (by simp at hl; omega)

/-- C63: a call that reports an error has no effect, so that one may go on with another number of arguments. -/
theorem c63_refused (own : Option Nat) (s : Stack) (c : Call) (h : (s.push own c).2 = true) : (s.push own c).1 = s := by
  cases c <;> try (simp [Stack.push, Stack.add] at h; done)
  case func code k =>
    simp only [Stack.push, Stack.add] at h ⊢
    unfold pushFunc at h ⊢
    split at h
    · simp at h
    · rename_i hn; rw [if_neg hn]; simp
  case funcN code n k =>
    simp only [Stack.push, Stack.add] at h ⊢
    unfold pushFuncVar at h ⊢
    split at h
    · simp at h
    · rename_i hn; rw [if_neg hn]; simp

/-- C63: a function pushed with a number of arguments is refused exactly if the table does not permit that number. -/
theorem c63_refuses_count (own : Option Nat) (s : Stack) (code n k : Nat) (hn : n ≤ 127) :
    (s.push own (.funcN code n k)).2 = true ↔ ¬ Accepts code n := by
  have : ((funcProp code).2 = anyCount ∨ (n ≤ 30 ∧ (funcProp code).2 &&& 2 ^ n ≠ 0)) ↔ Accepts code n := by
    unfold Accepts
    rw [and_pow_ne_zero]
    constructor
    · rintro (h | h)
      · exact .inr ⟨h, hn⟩
      · exact .inl h
    · rintro (h | h)
      · exact .inr h
      · exact .inl h.1
  rw [← this]
  simp only [Stack.push, Stack.add, pushFuncVar]
  split <;> simp_all

/-- C63: a function pushed without a number of arguments is refused exactly if the table has for it neither a single number, of at most
    five, nor any number. -/
theorem c63_refuses_fixed (own : Option Nat) (s : Stack) (code k : Nat) :
    (s.push own (.func code k)).2 = true ↔ ¬ ((∃ n, n ≤ 5 ∧ (funcProp code).2 = 2 ^ n) ∨ (funcProp code).2 = anyCount) := by
  have e : (∃ n, n ≤ 5 ∧ (funcProp code).2 = 2 ^ n) ↔ (funcProp code).2 ∈ [1, 2, 4, 8, 16, 32] := by
    constructor
    · rintro ⟨n, hn, h⟩
      rw [h]
      have : n = 0 ∨ n = 1 ∨ n = 2 ∨ n = 3 ∨ n = 4 ∨ n = 5 := by omega
      rcases this with rfl | rfl | rfl | rfl | rfl | rfl <;> simp
    · intro h
      simp only [List.mem_cons, List.not_mem_nil, or_false] at h
      rcases h with h | h | h | h | h | h
      · exact ⟨0, by omega, h⟩
      · exact ⟨1, by omega, h⟩
      · exact ⟨2, by omega, h⟩
      · exact ⟨3, by omega, h⟩
      · exact ⟨4, by omega, h⟩
      · exact ⟨5, by omega, h⟩
  have e2 : (funcProp code).2 ∈ [1, 2, 4, 8, 16, 32, anyCount] ↔ ((funcProp code).2 ∈ [1, 2, 4, 8, 16, 32] ∨ (funcProp code).2 = anyCount) := by
    simp only [List.mem_cons, List.not_mem_nil, or_false, or_assoc]
  rw [e, ← e2]
  simp only [Stack.push, Stack.add, pushFunc]
  split <;> simp_all

/-- C63: nothing else is ever refused. -/
theorem c63_takes (own : Option Nat) (s : Stack) (c : Call) (h1 : ∀ code k, c ≠ .func code k) (h2 : ∀ code n k, c ≠ .funcN code n k) :
    (s.push own c).2 = false := by
  cases c <;> first | rfl | exact absurd rfl (h1 _ _) | exact absurd rfl (h2 _ _ _)

theorem pushes_append (own : Option Nat) : ∀ (a b : List Call) (s : Stack),
    s.pushes own (a ++ b) = (((s.pushes own a).1.pushes own b).1, (s.pushes own a).2 ++ ((s.pushes own a).1.pushes own b).2)
  | [], b, s => by simp [Stack.pushes]
  | c :: a, b, s => by simp [Stack.pushes, pushes_append own a b]

theorem asked_append (ar : Nat → Option Nat) : ∀ (a b : List Call) (st : List Expr),
    asked ar st (a ++ b) = (asked ar st a).bind fun st => asked ar st b
  | [], b, s => by simp [asked]
  | c :: a, b, s => by simp only [List.cons_append, asked, Option.bind_assoc]; congr; funext t; exact asked_append ar a b t

/-- The calls lead from any stack to the same with these bytes added, without error, and mean these expressions. -/
def Makes (ar : Nat → Option Nat) (own : Option Nat) (cs : List Call) (bs : Bytes) (es : List Expr) : Prop :=
  (∀ s : Stack, s.pushes own cs = ({ s with main := s.main ++ bs }, cs.map fun _ => false)) ∧ ∀ st, asked ar st cs = some (es.reverse ++ st)

theorem Makes.append {ar : Nat → Option Nat} {own : Option Nat} {a b : List Call} {x y : Bytes} {es fs : List Expr}
    (h1 : Makes ar own a x es) (h2 : Makes ar own b y fs) : Makes ar own (a ++ b) (x ++ y) (es ++ fs) := by
  refine ⟨fun s => ?_, fun st => ?_⟩
  · rw [pushes_append, h1.1, h2.1]; simp
  · rw [asked_append, h1.2, Option.bind_some, h2.2]; simp

theorem Makes.leaf {ar : Nat → Option Nat} {own : Option Nat} (c : Call) (bs : Bytes) (e : Expr) (h1 : ∀ s : Stack, s.push own c = s.add (bs, false))
    (h2 : ∀ st, ask ar st c = some (e :: st)) : Makes ar own [c] bs [e] :=
  ⟨fun s => by simp [Stack.pushes, h1, Stack.add], fun st => by simp [asked, h2]⟩

theorem Makes.op {ar : Nat → Option Nat} {own : Option Nat} {a : List Call} {x y : Bytes} {es : List Expr} (h : Makes ar own a x es) (c : Call) (e : Expr)
    (h1 : ∀ s : Stack, s.push own c = s.add (y, false)) (h2 : ∀ st, ask ar (es.reverse ++ st) c = some (e :: st)) : Makes ar own (a ++ [c]) (x ++ y) [e] := by
  refine ⟨fun s => ?_, fun st => ?_⟩
  · rw [pushes_append, h.1]; simp [Stack.pushes, h1, Stack.add]
  · rw [asked_append, h.2]; simp [asked, h2]

mutual
theorem made {ar : Nat → Option Nat} (hA : KnowsArity ar) (own : Option Nat) : (e : Expr) → Proper e → {bs : Bytes} → dump own e = some (bs, false) →
    ∃ cs, Makes ar own cs bs [e]
  | .bool b, _, bs, h => by
    simp only [dump, Option.some.injEq, Prod.mk.injEq, and_true] at h; subst h
    exact ⟨_, .leaf (.bool b) _ _ (fun _ => rfl) fun _ => rfl⟩
  | .int b, _, bs, h => by
    simp only [dump, Option.some.injEq, Prod.mk.injEq, and_true] at h; subst h
    exact ⟨_, .leaf (.int b) _ _ (fun _ => rfl) fun _ => rfl⟩
  | .num b, _, bs, h => by
    simp only [dump, Option.some.injEq, Prod.mk.injEq, and_true] at h; subst h
    exact ⟨_, .leaf (.num b) _ _ (fun _ => rfl) fun _ => rfl⟩
  | .err b, _, bs, h => by
    simp only [dump, Option.some.injEq, Prod.mk.injEq, and_true] at h; subst h
    exact ⟨_, .leaf (.err b) _ _ (fun _ => rfl) fun _ => rfl⟩
  | .missing, _, bs, h => by
    simp only [dump, Option.some.injEq, Prod.mk.injEq, and_true] at h; subst h
    exact ⟨_, .leaf .missing _ _ (fun _ => rfl) fun _ => rfl⟩
  | .text b, _, bs, h => by
    simp only [dump, Option.some.injEq, Prod.mk.injEq, and_true] at h; subst h
    exact ⟨_, .leaf (.text b) _ _ (fun _ => rfl) fun _ => rfl⟩
  | .ref r c sh m k, _, bs, h => by
    simp only [dump, Option.some.injEq, Prod.mk.injEq, and_true] at h; subst h
    exact ⟨_, .leaf (.ref r c sh m k) _ _ (fun _ => rfl) fun _ => rfl⟩
  | .area r c sh lr lc m k, _, bs, h => by
    simp only [dump, Option.some.injEq, Prod.mk.injEq, and_true] at h; subst h
    exact ⟨_, .leaf (.area r c sh lr lc m k) _ _ (fun _ => rfl) fun _ => rfl⟩
  | .un o a, hP, bs, h => by
    simp only [Proper] at hP
    simp only [dump, Option.map_eq_some_iff] at h
    obtain ⟨⟨x, b⟩, h1, h2⟩ := h
    simp only [Push.then, Bool.or_false, Prod.mk.injEq] at h2
    obtain ⟨rfl, rfl⟩ := h2
    obtain ⟨cs, hc⟩ := made hA own a hP.2 h1
    exact ⟨_, hc.op (.op o) _ (fun _ => rfl) fun st => by
      simp only [ask, if_neg (show ¬ (3 ≤ o ∧ o ≤ 0x11) by omega), if_pos hP.1, List.reverse_cons, List.reverse_nil, List.nil_append, List.cons_append]⟩
  | .bin o a b, hP, bs, h => by
    simp only [Proper] at hP
    simp only [dump, Option.map_eq_some_iff, Option.bind_eq_some_iff] at h
    obtain ⟨⟨x, b1⟩, h1, ⟨y, b2⟩, h2, h3⟩ := h
    simp only [Push.then, Bool.or_false, Prod.mk.injEq, Bool.or_eq_false_iff] at h3
    obtain ⟨rfl, rfl, rfl⟩ := h3
    obtain ⟨cs, hc⟩ := made hA own a hP.2.1 h1
    obtain ⟨ds, hd⟩ := made hA own b hP.2.2 h2
    exact ⟨_, (hc.append hd).op (.op o) _ (fun _ => rfl) fun st => by simp [ask, if_pos hP.1]⟩
  | .func code k args, hP, bs, h => by
    simp only [Proper] at hP
    simp only [dump, Option.map_eq_some_iff, Option.bind_eq_some_iff] at h
    obtain ⟨⟨x, b1⟩, h1, v, h2, h3⟩ := h
    simp only [Push.then, Prod.mk.injEq, Bool.or_eq_false_iff] at h3
    obtain ⟨rfl, rfl, h4⟩ := h3
    obtain ⟨cs, hc⟩ := madeAll hA own args hP.2.2.2 h1
    cases v with
    | true =>
      refine ⟨_, hc.op (.funcN code args.length k) (.func code k args) (fun s => ?_) fun st => ?_⟩
      · simp only [if_true] at h4 ⊢
        simp only [Stack.push, ← h4]
      · have : (args.reverse ++ st).take args.length = args.reverse := by rw [← List.length_reverse (as := args), List.take_left]
        have h2 : (args.reverse ++ st).drop args.length = st := by rw [← List.length_reverse (as := args), List.drop_left]
        simp only [ask]
        rw [if_pos (by simp), this, h2, List.reverse_reverse]
    | false =>
      simp only [Bool.false_eq_true, if_false] at h4 ⊢
      have har : ar code = some args.length := by
        refine hA code _ ?_
        unfold varBranch at h2
        split at h2
        · simp at h2
        · rename_i hne
          split at h2
          · simp only [Option.some.injEq, bne_eq_false_iff_eq] at h2
            rcases hP.2.2.1 with ⟨h30, ht⟩ | ⟨h, -⟩
            · exact mask_single (mask_lt code) ht h2
            · exact absurd h hne
          · simp at h2
      refine ⟨_, hc.op (.func code k) (.func code k args) (fun s => ?_) fun st => ?_⟩
      · simp only [Stack.push, ← h4]
      · have : (args.reverse ++ st).take args.length = args.reverse := by rw [← List.length_reverse (as := args), List.take_left]
        have h2 : (args.reverse ++ st).drop args.length = st := by rw [← List.length_reverse (as := args), List.drop_left]
        simp only [ask, har, Option.bind_some]
        rw [if_pos (by simp), this, h2, List.reverse_reverse]
theorem madeAll {ar : Nat → Option Nat} (hA : KnowsArity ar) (own : Option Nat) : (l : List Expr) → ProperAll l → {bs : Bytes} →
    dumpArgs own l = some (bs, false) → ∃ cs, Makes ar own cs bs l
  | [], _, bs, h => by
    simp only [dumpArgs, Option.some.injEq, Prod.mk.injEq, and_true] at h; subst h
    exact ⟨[], fun s => by simp [Stack.pushes], fun st => by simp [asked]⟩
  | a :: r, hP, bs, h => by
    simp only [ProperAll] at hP
    simp only [dumpArgs, Option.map_eq_some_iff, Option.bind_eq_some_iff] at h
    obtain ⟨⟨x, b1⟩, h1, ⟨y, b2⟩, h2, h3⟩ := h
    simp only [Push.then, Prod.mk.injEq, Bool.or_eq_false_iff] at h3
    obtain ⟨rfl, rfl, rfl⟩ := h3
    obtain ⟨cs, hc⟩ := made hA own a hP.1 h1
    obtain ⟨ds, hd⟩ := madeAll hA own r hP.2 h2
    exact ⟨_, hc.append hd⟩
end

/-- C63: building call by call can do everything that expression trees can: for each tree that is written without error there are calls
    that ask for it, give the same bytes, and are all accepted. -/
theorem c63_same {ar : Nat → Option Nat} (hA : KnowsArity ar) (own : Option Nat) {e : Expr} (he : Proper e) {bs : Bytes}
    (h : dump own e = some (bs, false)) :
    ∃ cs, (Stack.pushes own {} cs).1.bytes = bs ∧ (∀ b ∈ (Stack.pushes own {} cs).2, b = false) ∧ formulaOf ar cs = some e := by
  obtain ⟨cs, h1, h2⟩ := made hA own e he h
  refine ⟨cs, by simp [h1, Stack.bytes], ?_, ?_⟩
  · rw [h1]; intro b hb
    simp only [List.mem_map] at hb
    obtain ⟨_, _, rfl⟩ := hb
    rfl
  · simp [formulaOf, h2]

/-- C63 does not hold if the formula was made for one sheet and its cell is on another: a reference to the sheet that the formula was made
    for is written without a sheet, so a reader takes it for the cell's sheet. -/
theorem c63_other_sheet (ar : Nat → Option Nat) {i j : Nat} (hij : i ≠ j) {r c m k : Nat} (hc : Fit (.ref r c (some i) m k)) :
    ∃ t, parse ar (Stack.pushes (some i) {} [.ref r c (some i) m k]).1.bytes = some t ∧ Means (some j) (.ref r c (some j) m k) t ∧
      ¬ Means (some j) (.ref r c (some i) m k) t := by
  obtain ⟨hr, hc', hs, hm, hk⟩ := hc
  have hb : (Stack.pushes (some i) {} [.ref r c (some i) m k]).1.bytes = pushRef (some i) r c (some i) m k := by
    simp [Stack.pushes, Stack.push, Stack.add, Stack.bytes]
  rw [hb]
  have hm' : m = 0 ∨ m = 0xC000 ∨ m = 0x8000 ∨ m = 0x4000 := by rcases hm with rfl | rfl <;> simp
  refine ⟨_, (puts_ref ar (some i) hr hc' hs hm' hk).parse, ?_, ?_⟩
  · simp only [Means, sheetSeen, if_true]
    refine ⟨by rcases hk with rfl | rfl | rfl <;> rfl, trivial, trivial, trivial, ?_⟩
    rcases hm with rfl | rfl <;> rfl
  · simp only [Means, sheetSeen, if_true, if_neg (Ne.symm hij)]
    rintro ⟨-, h, -⟩
    simp at h

example : Fit (.ref 4 2 (some 0) 0xC000 0x40) := by simp [Fit, IsClass]

/-- `IF(A1 > 2, CUMIPMT(1, 1, 1, 1, 1, 1), "no")`; 448 is the function of six arguments. -/
def sampleCalls : List Call :=
  [.ref 0 0 (some 0) 0xC000 0x40, .int 2, .op 0x0D] ++ List.replicate 6 (.int 1) ++ [.funcN 448 6 0, .text [110, 111], .funcN 1 3 0]

theorem sampleCalls_fit : ∀ c ∈ sampleCalls, Fit c := by
  intro c hc
  simp only [sampleCalls, List.mem_append, List.mem_cons, List.not_mem_nil, or_false, List.mem_replicate] at hc
  rcases hc with ((rfl | rfl | rfl) | ⟨-, rfl⟩) | rfl | rfl | rfl <;> simp [Fit, IsClass]

theorem sampleCalls_ok : ∀ b ∈ (Stack.pushes (some 0) {} sampleCalls).2, b = false := by decide +kernel

theorem sampleCalls_formula : formulaOf tableArity sampleCalls = some (.func 1 0 [.bin 0x0D (.ref 0 0 (some 0) 0xC000 0x40) (.int 2),
    .func 448 0 (List.replicate 6 (.int 1)), .text [110, 111]]) := rfl

-- the function of six arguments, which an expression tree cannot call (`c24_six_args`), can be called this way
example : ∃ t, parse tableArity (Stack.pushes (some 0) {} sampleCalls).1.bytes = some t ∧
    Means (some 0) (.func 1 0 [.bin 0x0D (.ref 0 0 (some 0) 0xC000 0x40) (.int 2), .func 448 0 (List.replicate 6 (.int 1)), .text [110, 111]]) t := by
  have h := c63_calls_partial tableArity_knows (some 0) sampleCalls sampleCalls_fit sampleCalls_ok
  rw [sampleCalls_formula] at h
  exact h

-- without its arguments it is no formula
example : parse tableArity (Stack.pushes (some 0) {} [.int 1, .funcN 448 6 0]).1.bytes = none := by
  have h := c63_calls_partial tableArity_knows (some 0) [.int 1, .funcN 448 6 0] (by simp [Fit]) (by decide +kernel)
  exact h

-- CUMIPMT without a number of arguments, and IF with one argument, are refused
example : (Stack.push (some 0) {} (.func 448 0)).2 = true ∧ (Stack.push (some 0) {} (.funcN 1 1 0)).2 = true := by decide +kernel
example : Accepts 448 6 ∧ ¬ Accepts 1 1 := by
  constructor
  · left; decide +kernel
  · rintro (h | h) <;> revert h <;> decide +kernel

-- `c63_same` for the sample of C24
example : ∃ bs, dump (some 0) sample = some (bs, false) ∧ ∃ cs, (Stack.pushes (some 0) {} cs).1.bytes = bs ∧ formulaOf tableArity cs = some sample := by
  obtain ⟨bs, t, h, -⟩ := c24_parse_partial tableArity_knows (some 0) sample_proper (by simp [sample, Plain, PlainAll])
  obtain ⟨cs, h1, -, h2⟩ := c63_same tableArity_knows (some 0) sample_proper h
  exact ⟨bs, h, cs, h1, h2⟩

end Xls.Formula
