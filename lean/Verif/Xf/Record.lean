import Verif.Xf.Lemmas
namespace Xls.Xf
open Xls.Biff

/-- The words of the finished record. -/
def propWord (x : Xf) : Nat :=
  let p := putFlag 16 0x2 x.hidden (putFlag 16 0x1 x.locked (if x.isCell then 0 else 0xfff4) % 2 ^ 16)
  if x.isCell then put 16 0xFFF0 0 4 (p % 2 ^ 16) else p

def alignWord (x : Xf) : Nat :=
  put 32 0xFC000000 x.flags 24 (putFlag 32 0x8 x.wrap (put 32 0xFF00 x.orient 8
    (put 32 (indentMask x.indent <<< 16) x.indent 16 (put 32 0x70 x.valign 4 (put 32 0x7 x.halign 0
      (if x.isCell then 0 else 0xfc000020) % 2 ^ 32) % 2 ^ 32) % 2 ^ 32) % 2 ^ 32) % 2 ^ 32)

def border1 (x : Xf) : Nat :=
  put2 32 0x3f800000 x.bcolor.right 23 0xF0 x.bstyle.right 4 (put2 32 0x7f0000 x.bcolor.left 16 0xF x.bstyle.left 0
    (put 32 0xF00 x.bstyle.top 8 (put 32 0xF000 x.bstyle.bottom 12 0 % 2 ^ 32) % 2 ^ 32) % 2 ^ 32)

def border2 (x : Xf) : Nat :=
  put 32 0x7f x.bcolor.top 0 (put 32 0x3f80 x.bcolor.bottom 7 (put 32 0xFC000000 x.fill 26 0 % 2 ^ 32) % 2 ^ 32)

def colorWord (x : Xf) : Nat :=
  put 16 0x3f80 x.bg 7 (put 16 0x7f x.fg 0 (if x.isCell then 0 else 0x20c0) % 2 ^ 16)

theorem dummy_words (c : Bool) : enc (0xE0, dummy c) =
    words 0 0 (if c then 0 else 0xfff4) (if c then 0 else 0xfc000020) 0 0 (if c then 0 else 0x20c0) := by
  cases c <;> rfl

theorem step_some {f : Bytes → Option Bytes} {r : List (Bytes → Option Bytes)} {bs bs' : Bytes} (h : f bs = some bs') :
    runSteps (f :: r) bs = runSteps r bs' := by
  rw [runSteps, h, Option.bind_some]

theorem record_words (x : Xf) : record x = some (words (fontIndex x) x.formatIndex (propWord x) (alignWord x) (border1 x)
    (border2 x) (colorWord x)) := by
  unfold record steps
  rw [dummy_words]
  generalize hp : (if x.isCell then 0 else 0xfff4 : Nat) = p
  generalize ha : (if x.isCell then 0 else 0xfc000020 : Nat) = a
  generalize hc : (if x.isCell then 0 else 0x20c0 : Nat) = c
  have hp' : p % 2 ^ 16 = p := by rw [← hp]; split <;> rfl
  have ha' : a % 2 ^ 32 = a := by rw [← ha]; split <;> rfl
  have hc' : c % 2 ^ 16 = c := by rw [← hc]; split <;> rfl
  refine (step_some (by exact set_f _ _ _ _ _ _ _ _)).trans ?_
  refine (step_some (by exact set_m _ _ _ _ _ _ _ _)).trans ?_
  refine (step_some (by exact upd_a _ _ _ _ _ _ _ _)).trans ?_
  refine (step_some (by exact upd_a _ _ _ _ _ _ _ _)).trans ?_
  refine (step_some (by exact upd_a _ _ _ _ _ _ _ _)).trans ?_
  refine (step_some (by exact upd_a _ _ _ _ _ _ _ _)).trans ?_
  refine (step_some (by exact upd_c _ _ _ _ _ _ _ _)).trans ?_
  refine (step_some (by exact upd_c _ _ _ _ _ _ _ _)).trans ?_
  refine (step_some (by exact upd_b2 _ _ _ _ _ _ _ _)).trans ?_
  refine (step_some (by exact upd_p _ _ _ _ _ _ _ _)).trans ?_
  refine (step_some (by exact upd_p _ _ _ _ _ _ _ _)).trans ?_
  refine (step_some (by exact upd_a _ _ _ _ _ _ _ _)).trans ?_
  refine (step_some (by exact upd_b1 _ _ _ _ _ _ _ _)).trans ?_
  refine (step_some (by exact upd_b2 _ _ _ _ _ _ _ _)).trans ?_
  refine (step_some (by exact upd_b1 _ _ _ _ _ _ _ _)).trans ?_
  refine (step_some (by exact upd_b2 _ _ _ _ _ _ _ _)).trans ?_
  refine (step_some (by exact upd_b1 _ _ _ _ _ _ _ _)).trans ?_
  refine (step_some (by exact upd_b1 _ _ _ _ _ _ _ _)).trans ?_
  refine (step_some (by exact upd_a _ _ _ _ _ _ _ _)).trans ?_
  rw [hp', ha', hc']
  simp only [Nat.zero_mod]
  unfold propWord alignWord border1 border2 colorWord
  rw [hp, ha, hc]
  by_cases h : x.isCell
  · rw [if_pos h]
    refine (step_some (by rw [if_pos h]; exact upd_p _ _ _ _ _ _ _ _)).trans ?_
    rw [runSteps]
  · rw [if_neg h]
    refine (step_some (by rw [if_neg h])).trans ?_
    rw [runSteps]

theorem readXf_words (f m p a b1 b2 c : Nat) : readXf ((words f m p a b1 b2 c).drop 4) =
    readXf (leN 2 f ++ (leN 2 m ++ (leN 2 p ++ (leN 4 a ++ (leN 4 b1 ++ (leN 4 b2 ++ (leN 2 c ++ []))))))) := by
  have : (words f m p a b1 b2 c) = (leN 2 0xE0 ++ leN 2 20) ++
      (leN 2 f ++ (leN 2 m ++ (leN 2 p ++ (leN 4 a ++ (leN 4 b1 ++ (leN 4 b2 ++ (leN 2 c ++ []))))))) := by
    simp [words, List.append_assoc]
  rw [this, List.drop_append_of_le_length (by simp), List.drop_of_length_le (by simp), List.nil_append]

theorem toNat_beq (b : Bool) : (b.toNat == 1) = b := by cases b <;> rfl

/-- Peel words off a field they do not touch. -/
macro "peel" : tactic => `(tactic|
  repeat (first
    | rw [bits_mod _ 32 _ _ (by decide)]
    | rw [bits_mod _ 16 _ _ (by decide)]
    | rw [put_other _ _ _ _ _ _ _ (by decide) (by decide)]
    | rw [putFlag_other _ _ _ _ _ _ (by decide) (by decide)]
    | rw [put2_other _ _ _ _ _ _ _ _ _ _ (by decide) (by decide) (by decide)]
    | rw [indent_other _ _ _ _ (by decide) (by decide)]))

section prop
variable (x : Xf)

theorem prop_locked : bits (propWord x) 0 1 = x.locked.toNat := by
  unfold propWord
  by_cases h : x.isCell
  · rw [if_pos h]; peel; exact putFlag_same _ _ _ _ _ (by decide) (by decide)
  · rw [if_neg h]; peel; exact putFlag_same _ _ _ _ _ (by decide) (by decide)

theorem prop_hidden : bits (propWord x) 1 1 = x.hidden.toNat := by
  unfold propWord
  by_cases h : x.isCell
  · rw [if_pos h]; peel; exact putFlag_same _ _ _ _ _ (by decide) (by decide)
  · rw [if_neg h]; peel; exact putFlag_same _ _ _ _ _ (by decide) (by decide)

theorem prop_style : bits (propWord x) 2 1 = (!x.isCell).toNat := by
  unfold propWord
  by_cases h : x.isCell
  · rw [if_pos h]; peel; rw [if_pos h, h]; decide
  · rw [if_neg h]; peel; rw [if_neg h]; simp only [Bool.not_eq_true] at h; rw [h]; decide

theorem prop_123 : bits (propWord x) 3 1 = 0 := by
  unfold propWord
  by_cases h : x.isCell
  · rw [if_pos h]; peel; rw [if_pos h]; decide
  · rw [if_neg h]; peel; rw [if_neg h]; decide

theorem prop_parent : bits (propWord x) 4 12 = if x.isCell then 0 else 0xFFF := by
  unfold propWord
  by_cases h : x.isCell
  · rw [if_pos h, put_same _ _ _ _ _ _ (by decide) (by decide), if_pos h]
  · rw [if_neg h, if_neg h]; peel; rw [if_neg h]; decide

theorem dflt_bits (c : Bool) (s w : Nat) (n : Nat) (h0 : bits 0 s w = 0) (hn : bits n s w = 0) :
    bits (if c then 0 else n) s w = 0 := by
  split
  · exact h0
  · exact hn

theorem align_h : bits (alignWord x) 0 3 = x.halign % 8 := by
  unfold alignWord
  peel; exact put_same _ _ _ _ _ _ (by decide) (by decide)

theorem align_wrap : bits (alignWord x) 3 1 = x.wrap.toNat := by
  unfold alignWord
  peel; exact putFlag_same _ _ _ _ _ (by decide) (by decide)

theorem align_v : bits (alignWord x) 4 3 = x.valign % 8 := by
  unfold alignWord
  peel; exact put_same _ _ _ _ _ _ (by decide) (by decide)

theorem align_just : bits (alignWord x) 7 1 = 0 := by
  unfold alignWord
  peel; exact dflt_bits _ _ _ _ (by decide) (by decide)

theorem align_orient : bits (alignWord x) 8 8 = x.orient % 256 := by
  unfold alignWord
  peel; exact put_same _ _ _ _ _ _ (by decide) (by decide)

theorem align_indent (hx : x.indent ∈ indentTable) : bits (alignWord x) 16 4 = x.indent % 16 ∧
    bits (alignWord x) 20 1 = bits x.indent 4 1 ∧ bits (alignWord x) 22 2 = bits x.indent 6 2 := by
  unfold alignWord
  have hz : ∀ s w, bits (0 : Nat) s w = 0 → bits 0xfc000020 s w = 0 →
      0x7 &&& ((2 ^ w - 1) <<< s) = 0 → 0x70 &&& ((2 ^ w - 1) <<< s) = 0 → s + w ≤ 32 →
      bits (put 32 0x70 x.valign 4 (put 32 0x7 x.halign 0 (if x.isCell then 0 else 0xfc000020) % 2 ^ 32) % 2 ^ 32) s w = 0 := by
    intro s w h0 h1 h2 h3 h4
    rw [bits_mod _ 32 _ _ h4, put_other _ _ _ _ _ _ _ h3 h4, bits_mod _ 32 _ _ h4, put_other _ _ _ _ _ _ _ h2 h4]
    exact dflt_bits _ _ _ _ h0 h1
  obtain ⟨a, b, c⟩ := indent_put x.indent _ hx (hz 16 4 (by decide) (by decide) (by decide) (by decide) (by decide))
    (hz 20 1 (by decide) (by decide) (by decide) (by decide) (by decide))
    (hz 22 2 (by decide) (by decide) (by decide) (by decide) (by decide))
  refine ⟨?_, ?_, ?_⟩
  · rw [put_other _ _ _ _ _ _ _ (by decide) (by decide), bits_mod _ 32 _ _ (by decide),
      putFlag_other _ _ _ _ _ _ (by decide) (by decide), bits_mod _ 32 _ _ (by decide),
      put_other _ _ _ _ _ _ _ (by decide) (by decide), bits_mod _ 32 _ _ (by decide)]
    exact a
  · rw [put_other _ _ _ _ _ _ _ (by decide) (by decide), bits_mod _ 32 _ _ (by decide),
      putFlag_other _ _ _ _ _ _ (by decide) (by decide), bits_mod _ 32 _ _ (by decide),
      put_other _ _ _ _ _ _ _ (by decide) (by decide), bits_mod _ 32 _ _ (by decide)]
    exact b
  · rw [put_other _ _ _ _ _ _ _ (by decide) (by decide), bits_mod _ 32 _ _ (by decide),
      putFlag_other _ _ _ _ _ _ (by decide) (by decide), bits_mod _ 32 _ _ (by decide),
      put_other _ _ _ _ _ _ _ (by decide) (by decide), bits_mod _ 32 _ _ (by decide)]
    exact c

theorem align_unused5 : bits (alignWord x) 21 1 = 0 := by
  unfold alignWord
  peel; rw [indent_unused]; peel; exact dflt_bits _ _ _ _ (by decide) (by decide)

theorem align_unused8 : bits (alignWord x) 24 2 = 0 := by
  unfold alignWord
  peel; exact dflt_bits _ _ _ _ (by decide) (by decide)

theorem align_num : bits (alignWord x) 26 1 = bits x.flags 2 1 := by
  unfold alignWord
  exact put_in _ _ _ _ _ _ _ (by decide) (by decide) (by decide)

theorem align_font : bits (alignWord x) 27 1 = bits x.flags 3 1 := by
  unfold alignWord
  exact put_in _ _ _ _ _ _ _ (by decide) (by decide) (by decide)

theorem align_alc : bits (alignWord x) 28 1 = bits x.flags 4 1 := by
  unfold alignWord
  exact put_in _ _ _ _ _ _ _ (by decide) (by decide) (by decide)

theorem align_bdr : bits (alignWord x) 29 1 = bits x.flags 5 1 := by
  unfold alignWord
  exact put_in _ _ _ _ _ _ _ (by decide) (by decide) (by decide)

theorem align_pat : bits (alignWord x) 30 1 = bits x.flags 6 1 := by
  unfold alignWord
  exact put_in _ _ _ _ _ _ _ (by decide) (by decide) (by decide)

theorem align_prot : bits (alignWord x) 31 1 = bits x.flags 7 1 := by
  unfold alignWord
  exact put_in _ _ _ _ _ _ _ (by decide) (by decide) (by decide)

theorem b1_left : bits (border1 x) 0 4 = x.bstyle.left % 16 := by
  unfold border1
  peel; exact put2_second _ _ _ _ _ _ _ _ _ (by decide) (by decide) (by decide)

theorem b1_right : bits (border1 x) 4 4 = x.bstyle.right % 16 := by
  unfold border1
  peel; exact put2_second _ _ _ _ _ _ _ _ _ (by decide) (by decide) (by decide)

theorem b1_top : bits (border1 x) 8 4 = x.bstyle.top % 16 := by
  unfold border1
  peel; exact put_same _ _ _ _ _ _ (by decide) (by decide)

theorem b1_bottom : bits (border1 x) 12 4 = x.bstyle.bottom % 16 := by
  unfold border1
  peel; exact put_same _ _ _ _ _ _ (by decide) (by decide)

theorem b1_leftc : bits (border1 x) 16 7 = x.bcolor.left % 128 := by
  unfold border1
  peel; exact put2_first _ _ _ _ _ _ _ _ _ (by decide) (by decide) (by decide)

theorem b1_rightc : bits (border1 x) 23 7 = x.bcolor.right % 128 := by
  unfold border1
  peel; exact put2_first _ _ _ _ _ _ _ _ _ (by decide) (by decide) (by decide)

theorem b1_diag : bits (border1 x) 30 2 = 0 := by
  unfold border1
  peel; decide

theorem b2_topc : bits (border2 x) 0 7 = x.bcolor.top % 128 := by
  unfold border2
  peel; exact put_same _ _ _ _ _ _ (by decide) (by decide)

theorem b2_bottomc : bits (border2 x) 7 7 = x.bcolor.bottom % 128 := by
  unfold border2
  peel; exact put_same _ _ _ _ _ _ (by decide) (by decide)

theorem b2_diagc : bits (border2 x) 14 7 = 0 := by
  unfold border2
  peel; decide

theorem b2_diag : bits (border2 x) 21 4 = 0 := by
  unfold border2
  peel; decide

theorem b2_ext : bits (border2 x) 25 1 = 0 := by
  unfold border2
  peel; decide

theorem b2_fill : bits (border2 x) 26 6 = x.fill % 64 := by
  unfold border2
  peel; exact put_same _ _ _ _ _ _ (by decide) (by decide)

theorem c_fg : bits (colorWord x) 0 7 = x.fg % 128 := by
  unfold colorWord
  peel; exact put_same _ _ _ _ _ _ (by decide) (by decide)

theorem c_bg : bits (colorWord x) 7 7 = x.bg % 128 := by
  unfold colorWord
  peel; exact put_same _ _ _ _ _ _ (by decide) (by decide)

theorem c_button : bits (colorWord x) 14 2 = 0 := by
  unfold colorWord
  peel; exact dflt_bits _ _ _ _ (by decide) (by decide)

end prop

theorem read_record (x : Xf) (hx : x.indent ∈ indentTable) :
    ∃ bs, record x = some bs ∧ bs.take 4 = leN 2 0xE0 ++ leN 2 20 ∧ bs.length = 24 ∧ readXf (bs.drop 4) = some (seenOf x) := by
  refine ⟨_, record_words x, rfl, by simp [words], ?_⟩
  rw [readXf_words]
  obtain ⟨i1, i2, i3⟩ := align_indent x hx
  simp only [readXf, takeLE_leN_append, Option.bind_eq_bind, Option.bind_some, ne_eq, not_true_eq_false, if_false]
  have e4 : (256 : Nat) ^ 4 = 2 ^ 32 := by decide
  have e2 : (256 : Nat) ^ 2 = 2 ^ 16 := by decide
  rw [e4, e2]
  generalize hP : propWord x % 2 ^ 16 = P
  generalize hA : alignWord x % 2 ^ 32 = A
  generalize hB : border1 x % 2 ^ 32 = B
  generalize hC : border2 x % 2 ^ 32 = C
  generalize hD : colorWord x % 2 ^ 16 = D
  have fP : ∀ s w, s + w ≤ 16 → bits P s w = bits (propWord x) s w := fun s w h => by rw [← hP, bits_mod _ _ _ _ h]
  have fA : ∀ s w, s + w ≤ 32 → bits A s w = bits (alignWord x) s w := fun s w h => by rw [← hA, bits_mod _ _ _ _ h]
  have fB : ∀ s w, s + w ≤ 32 → bits B s w = bits (border1 x) s w := fun s w h => by rw [← hB, bits_mod _ _ _ _ h]
  have fC : ∀ s w, s + w ≤ 32 → bits C s w = bits (border2 x) s w := fun s w h => by rw [← hC, bits_mod _ _ _ _ h]
  have fD : ∀ s w, s + w ≤ 16 → bits D s w = bits (colorWord x) s w := fun s w h => by rw [← hD, bits_mod _ _ _ _ h]
  rw [fP 0 1 (by decide), fP 1 1 (by decide), fP 2 1 (by decide), fP 3 1 (by decide), fP 4 12 (by decide),
    fA 0 3 (by decide), fA 3 1 (by decide), fA 4 3 (by decide), fA 7 1 (by decide), fA 8 8 (by decide), fA 16 4 (by decide),
    fA 20 1 (by decide), fA 21 1 (by decide), fA 22 2 (by decide), fA 24 2 (by decide), fA 26 1 (by decide),
    fA 27 1 (by decide), fA 28 1 (by decide), fA 29 1 (by decide), fA 30 1 (by decide), fA 31 1 (by decide),
    fB 0 4 (by decide), fB 4 4 (by decide), fB 8 4 (by decide), fB 12 4 (by decide), fB 16 7 (by decide), fB 23 7 (by decide),
    fB 30 2 (by decide), fC 0 7 (by decide), fC 7 7 (by decide), fC 14 7 (by decide), fC 21 4 (by decide),
    fC 25 1 (by decide), fC 26 6 (by decide), fD 0 7 (by decide), fD 7 7 (by decide), fD 14 2 (by decide),
    prop_locked, prop_hidden, prop_style, prop_123, prop_parent, align_h, align_wrap, align_v, align_just, align_orient, i1, i2,
    align_unused5, i3, align_unused8, align_num, align_font, align_alc, align_bdr, align_pat, align_prot, b1_left, b1_right,
    b1_top, b1_bottom, b1_leftc, b1_rightc, b1_diag, b2_topc, b2_bottomc, b2_diagc, b2_diag, b2_ext, b2_fill, c_fg, c_bg,
    c_button, toNat_beq, toNat_beq, toNat_beq, toNat_beq]
  rfl

end Xls.Xf
