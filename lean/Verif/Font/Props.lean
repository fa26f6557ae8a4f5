import Verif.Font.Spec
import Verif.Xf.Track
/-
C30: the switches of a font are independent, the getters report what was set last, and the FONT record says so.
-/
namespace Xls.Font
open Xls.Font.Spec Xls.Unit Xls.Biff

/-- The attribute word for four switches; `z` is the lowest bit, which no setter changes. -/
def word (z i s o h : Bool) : Nat :=
  (if z then 1 else 0) + (if i then 2 else 0) + (if s then 8 else 0) + (if o then 16 else 0) + (if h then 32 else 0)

/-- The font with these attributes. -/
def mk (name : List UInt16) (height bold script : Nat) (z i s o h : Bool) (color underline family charset : Nat) : Font :=
  ⟨name, height, bold, script, word z i s o h, color, underline, family, charset⟩

theorem bold_code : ∀ n, n < 4 → boldTable[n]? = some (weightOf n) := by decide
theorem underline_code : ∀ n, n < 5 → underlineTable[n]? = some (underlineOf n) := by decide
theorem script_code : ∀ n, n < 3 → scriptTable[n]? = some n := by decide

theorem set_i : ∀ z i s o h b, (if b then word z i s o h ||| aItalic else word z i s o h &&& (0xFFFF ^^^ aItalic)) = word z b s o h := by decide
theorem set_s : ∀ z i s o h b, (if b then word z i s o h ||| aStrike else word z i s o h &&& (0xFFFF ^^^ aStrike)) = word z i b o h := by decide
theorem set_o : ∀ z i s o h b, (if b then word z i s o h ||| aOutline else word z i s o h &&& (0xFFFF ^^^ aOutline)) = word z i s b h := by decide
theorem set_h : ∀ z i s o h b, (if b then word z i s o h ||| aShadow else word z i s o h &&& (0xFFFF ^^^ aShadow)) = word z i s o b := by decide

/-- The state after any history of calls. -/
theorem run_mk (ops : List FOp) (ho : ∀ o ∈ ops, Valid o) (name : List UInt16) (height bold script : Nat) (z i s o h : Bool)
    (color underline family charset : Nat) :
    runAll (mk name height bold script z i s o h color underline family charset) ops =
      some (mk (last pickName name ops) (last pickHeight height ops) (last pickBold bold ops) (last pickScript script ops) z
        (last pickItalic i ops) (last pickStrike s ops) (last pickOutline o ops) (last pickShadow h ops)
        (last pickColor color ops) (last pickUnderline underline ops) (last pickFamily family ops)
        (last pickCharset charset ops)) := by
  induction ops generalizing name height bold script z i s o h color underline family charset with
  | nil => rfl
  | cons op r ih =>
    have hv := ho op (by simp)
    have ih := ih (fun o h => ho o (by simp [h]))
    have key : op.run (mk name height bold script z i s o h color underline family charset) =
        some (mk ((pickName op).getD name) ((pickHeight op).getD height) ((pickBold op).getD bold) ((pickScript op).getD script) z
          ((pickItalic op).getD i) ((pickStrike op).getD s) ((pickOutline op).getD o) ((pickShadow op).getD h)
          ((pickColor op).getD color) ((pickUnderline op).getD underline) ((pickFamily op).getD family)
          ((pickCharset op).getD charset)) := by
      cases op with
      | bold n => simp only [FOp.run, bold_code n hv]; rfl
      | underline n => simp only [FOp.run, underline_code n hv]; rfl
      | script n => simp only [FOp.run, script_code n hv]; rfl
      | color n => simp only [FOp.run, Xf.color_code n hv]; rfl
      | italic b => simp only [FOp.run, setAttr, mk, set_i]; rfl
      | strike b => simp only [FOp.run, setAttr, mk, set_s]; rfl
      | outline b => simp only [FOp.run, setAttr, mk, set_o]; rfl
      | shadow b => simp only [FOp.run, setAttr, mk, set_h]; rfl
      | _ => rfl
    rw [runAll, key, Option.bind_some, ih]
    rfl

theorem last_inv {α : Type} (pick : FOp → Option α) (P : α → Prop) (d : α) (ops : List FOp) (hd : P d)
    (h : ∀ o ∈ ops, ∀ v, pick o = some v → P v) : P (last pick d ops) := by
  induction ops generalizing d with
  | nil => exact hd
  | cons o r ih =>
    refine ih _ ?_ (fun o' h' => h o' (by simp [h']))
    show P ((pick o).getD d)
    cases hp : pick o with
    | none => simpa using hd
    | some v => simpa using h o (by simp) v hp

/-- Reading back one font. -/
theorem read_mk (name : List UInt16) (height bold script : Nat) (z i s o h : Bool) (color underline family charset : Nat)
    (h1 : name.length < 256) (h2 : height < 65536) (h3 : bold < 65536) (h4 : script < 65536) (h5 : color < 65536)
    (h6 : underline < 256) (h7 : family < 256) (h8 : charset < 256) :
    readFont (payload (mk name height bold script z i s o h color underline family charset)) =
      some ⟨height, i, s, o, h, [if z then 1 else 0, 0, 0], color, bold, script, underline, family, charset, 0, name⟩ := by
  have e : payload (mk name height bold script z i s o h color underline family charset) =
      leN 2 height ++ (leN 2 (word z i s o h) ++ (leN 2 color ++ (leN 2 bold ++ (leN 2 script ++ (leN 1 underline ++
        (leN 1 family ++ (leN 1 charset ++ (leN 1 0 ++ (strBytes name .len1 ++ []))))))))) := by
    simp [payload, recordOps, mk, Unit.Op.bytes, leN, byteK]
  have ew : ∀ z i s o h, word z i s o h % 256 ^ 2 = word z i s o h ∧ (Xf.bits (word z i s o h) 1 1 == 1) = i ∧
      (Xf.bits (word z i s o h) 3 1 == 1) = s ∧ (Xf.bits (word z i s o h) 4 1 == 1) = o ∧
      (Xf.bits (word z i s o h) 5 1 == 1) = h ∧ Xf.bits (word z i s o h) 0 1 = (if z then 1 else 0) ∧ Xf.bits (word z i s o h) 2 1 = 0 ∧
      Xf.bits (word z i s o h) 6 10 = 0 := by decide
  obtain ⟨w0, w1, w2, w3, w4, w5, w6, w7⟩ := ew z i s o h
  have m2 : ∀ v, v < 65536 → v % 256 ^ 2 = v := fun v hv => Nat.mod_eq_of_lt hv
  have m1 : ∀ v, v < 256 → v % 256 ^ 1 = v := fun v hv => Nat.mod_eq_of_lt hv
  rw [e]
  simp only [readFont, takeLE_leN_append, Option.bind_eq_bind, Option.bind_some, c04_len1_roundtrip name [] h1, ne_eq,
    not_true_eq_false, if_false, w0, w1, w2, w3, w4, w5, w6, w7, m2 _ h2, m2 _ h3, m2 _ h4, m2 _ h5, m1 _ h6, m1 _ h7, m1 _ h8,
    m1 0 (by decide)]

/-- C30: for every history of calls on a new font, each switch (italic, strikeout, outline, shadow) and each other
    attribute is what was last asked for, in the getters and in the FONT record, whatever calls about other attributes
    were made. -/
theorem c30_font (ops : List FOp) (ho : ∀ o ∈ ops, Valid o) :
    ∃ f, runAll fresh ops = some f ∧ readFont (payload f) = some (want ops) ∧
      getAttr f aItalic = last pickItalic false ops ∧ getAttr f aStrike = last pickStrike false ops ∧
      getAttr f aOutline = last pickOutline false ops ∧ getAttr f aShadow = last pickShadow false ops := by
  refine ⟨_, run_mk ops ho verdana 0xc8 400 0 false false false false false 0x7fff 0 0 1, ?_, ?_⟩
  · apply read_mk
    · refine last_inv _ (fun n : List UInt16 => n.length < 256) _ _ (by decide) ?_
      intro o hm v h
      have hv := ho o hm
      cases o <;> simp only [pickName, reduceCtorEq] at h
      simp only [Option.some.injEq] at h; simp only [Valid] at hv; exact h ▸ hv
    · refine last_inv _ (· < 65536) _ _ (by decide) ?_
      intro o hm v h
      have hv := ho o hm
      cases o <;> simp only [pickHeight, reduceCtorEq] at h
      simp only [Option.some.injEq] at h; simp only [Valid] at hv; exact h ▸ hv
    · refine last_inv _ (· < 65536) _ _ (by decide) ?_
      intro o hm v h
      cases o <;> simp only [pickBold, reduceCtorEq] at h
      simp only [Option.some.injEq, weightOf] at h; split at h <;> omega
    · refine last_inv _ (· < 65536) _ _ (by decide) ?_
      intro o hm v h
      have hv := ho o hm
      cases o <;> simp only [pickScript, reduceCtorEq] at h
      simp only [Option.some.injEq] at h; simp only [Valid] at hv; omega
    · refine last_inv _ (· < 65536) _ _ (by decide) ?_
      intro o hm v h
      have hv := ho o hm
      cases o <;> simp only [pickColor, reduceCtorEq] at h
      · simp only [Option.some.injEq] at h; simp only [Valid] at hv; subst h
        exact (by decide : ∀ n, n < 59 → Xf.Spec.colorCode n < 65536) _ hv
      · simp only [Option.some.injEq] at h; simp only [Valid] at hv; omega
    · refine last_inv _ (· < 256) _ _ (by decide) ?_
      intro o hm v h
      cases o <;> simp only [pickUnderline, reduceCtorEq] at h
      simp only [Option.some.injEq, underlineOf] at h; split at h <;> omega
    · refine last_inv _ (· < 256) _ _ (by decide) ?_
      intro o hm v h
      have hv := ho o hm
      cases o <;> simp only [pickFamily, reduceCtorEq] at h
      simp only [Option.some.injEq] at h; simp only [Valid] at hv; omega
    · refine last_inv _ (· < 256) _ _ (by decide) ?_
      intro o hm v h
      have hv := ho o hm
      cases o <;> simp only [pickCharset, reduceCtorEq] at h
      simp only [Option.some.injEq] at h; simp only [Valid] at hv; omega
  · have e : ∀ z i s o h, (word z i s o h &&& aItalic != 0) = i ∧ (word z i s o h &&& aStrike != 0) = s ∧
        (word z i s o h &&& aOutline != 0) = o ∧ (word z i s o h &&& aShadow != 0) = h := by decide
    exact e _ _ _ _ _

/-- The record buffer really receives that payload. -/
theorem c30_record (f : Font) (hf : f.name.length < 256) : ∃ s, buildRecord 0x31 (recordOps f) = some (some s) ∧ Holds s (enc (0x31, payload f)) := by
  refine record_built 0x31 (recordOps f) ?_
  have := c04_string_size f.name .len1
  have h2 : (strBytes f.name .len1).length ≤ 2 * f.name.length + 2 := by
    rw [this, unicodeStringLength]
    split <;> omega
  simp only [recordOps, List.flatMap_cons, List.flatMap_nil, Unit.Op.bytes, List.length_append, leN_length, List.length_cons,
    List.length_nil]
  have e29 : (2 : Nat) ^ 29 = 536870912 := by decide
  omega

/-- The default fonts: plain, bold, italic, bold italic, plain. -/
theorem c30_defaults : defaults.map (fun f => (readFont (payload f)).map fun s => (s.weight, s.italic, s.name.length)) =
    [some (400, false, 7), some (700, false, 7), some (400, true, 7), some (700, true, 7), some (400, false, 7)] := by decide +kernel

/-- A name of 256 characters or more is not read back: the count in the record has eight bits. -/
theorem c30_long_name : ∃ ops f, runAll fresh ops = some f ∧ readFont (payload f) = none := by
  refine ⟨[.name (List.replicate 256 0x41)], _, rfl, ?_⟩
  decide +kernel

/-- Meeting the hypotheses: italic, then strikeout on and off, then another height. -/
example : ∃ f, runAll fresh [.italic true, .strike true, .shadow true, .strike false, .height 240, .bold 0, .color 17] = some f ∧
    (readFont (payload f)).map (fun s => (s.italic, s.strike, s.outline, s.shadow, s.height, s.weight, s.color)) =
      some (true, false, false, true, 240, 700, 10) := ⟨_, rfl, rfl⟩

end Xls.Font
