import Verif.Hpsf.Model
import Verif.Hpsf.Spec
/-
Helper lemmas about the summary streams.
-/
namespace Xls.Hpsf
open Xls.Unit Xls.Cells Xls.Spec

/-! ### The list of items -/

theorem insertLoop_spec (x : Item) {l : List Item} (hl : Ordered Item.key l) (fuel : Nat) :
    ∃ l', insertLoop x (fuel + 2) l = some l' ∧ Ordered Item.key l' ∧
      ∀ y, y ∈ l' ↔ y = x ∨ (y ∈ l ∧ y.key ≠ x.key) := by
  by_cases h : ∃ y ∈ l, y.key = x.key
  · obtain ⟨y, hy, hk⟩ := h
    have ho := setErase_ordered hl y.key
    have hm := mem_setErase hl y.key
    obtain ⟨e1, e2, e3⟩ := setInsert_new ho x (fun z hz => by
      have := (hm z).mp hz
      rw [← hk]; exact this.2)
    refine ⟨(setInsert Item.key x (setErase Item.key y.key l)).1, ?_, e2, ?_⟩
    · rw [insertLoop, setInsert_old hl x y hy hk]
      simp only
      rw [insertLoop]
      cases hi : setInsert Item.key x (setErase Item.key y.key l) with
      | mk a b =>
        rw [hi] at e1
        simp only at e1
        subst e1
        rfl
    · intro z
      rw [e3, hm, ← hk]
  · have h' : ∀ y ∈ l, y.key ≠ x.key := fun y hy hk => h ⟨y, hy, hk⟩
    obtain ⟨e1, e2, e3⟩ := setInsert_new hl x h'
    refine ⟨(setInsert Item.key x l).1, ?_, e2, ?_⟩
    · rw [insertLoop]
      cases hi : setInsert Item.key x l with
      | mk a b =>
        rw [hi] at e1
        simp only at e1
        subst e1
        rfl
    · intro z
      rw [e3]
      constructor
      · rintro (h1 | h1)
        · exact Or.inl h1
        · exact Or.inr ⟨h1, h' z h1⟩
      · rintro (h1 | h1)
        · exact Or.inl h1
        · exact Or.inr h1.1

theorem addItem_spec {l : List Item} (hl : Ordered Item.key l) (id : Nat) (v : Val) (hid : id < 65536) :
    ∃ l', addItem l id v = some l' ∧ Ordered Item.key l' ∧ ∀ y, y ∈ l' ↔ y = ⟨id, v⟩ ∨ (y ∈ l ∧ y.id ≠ id) := by
  obtain ⟨l', h1, h2, h3⟩ := insertLoop_spec ⟨id % 65536, v⟩ hl l.length
  rw [Nat.mod_eq_of_lt hid] at h3
  refine ⟨l', h1, h2, fun y => ?_⟩
  rw [h3]
  simp [Item.key]

/-! ### The bytes of the stream -/

theorem endOffset_eq (off : Nat) (l : List Item) : endOffset off l = off + (l.map (·.val.size)).sum := by
  induction l generalizing off with
  | nil => simp [endOffset]
  | cons i r ih => simp [endOffset, ih]; omega

/-- The bytes of one typed value. -/
def valBytes (v : Val) : Bytes := (valOps v).flatMap Op.bytes

/-- The bytes of the table. -/
def tableBytes (off : Nat) (l : List Item) : Bytes := (tableOps off l).flatMap Op.bytes

theorem valBytes_length (v : Val) : (valBytes v).length = v.size := by
  cases v <;> simp [valBytes, valOps, Op.bytes, Val.size]
  omega

theorem size_mod4 (v : Val) : v.size % 4 = 0 := by
  cases v <;> simp [Val.size]

theorem tableBytes_length (off : Nat) (l : List Item) : (tableBytes off l).length = 8 * l.length := by
  induction l generalizing off with
  | nil => rfl
  | cons i r ih =>
    have := ih (off + i.val.size)
    simp only [tableBytes, tableOps, List.flatMap_cons, List.length_append, Op.bytes, leN_length, List.length_cons] at this ⊢
    omega

theorem values_length (l : List Item) : (l.flatMap fun i => valBytes i.val).length = (l.map (·.val.size)).sum := by
  induction l with
  | nil => rfl
  | cons i r ih => simp [valBytes_length, ih]

/-- Bytes before the section. -/
def headBytes (dt : DocType) : Bytes := (headOps dt).flatMap Op.bytes

theorem headBytes_length (dt : DocType) : (headBytes dt).length = 44 := by cases dt <;> rfl

/-- The section. -/
def sectionBytes (l : List Item) : Bytes :=
  leN 4 (endOffset (8 + l.length * 8) l) ++ (leN 4 l.length ++ (tableBytes (8 + l.length * 8) l ++ l.flatMap fun i => valBytes i.val))

/-- Length of the stream before it is padded. -/
def need (l : List Item) : Nat := 56 + 8 * l.length + (l.map (·.val.size)).sum

theorem sectionBytes_length (l : List Item) : (sectionBytes l).length = need l - 48 := by
  simp only [sectionBytes, List.length_append, leN_length, tableBytes_length, values_length, need]
  omega

/-! ### Reading it back -/

/-- The value a reader should find. -/
def toValue : Val → PropSet.Value
  | .str s => .lpstr s
  | .bool b => .bool b
  | .i16 v => .i2 v
  | .i32 v => .i4 v
  | .i64 v => .filetime v

/-- The numbers fit their types. -/
def Val.Ok : Val → Prop
  | .str s => s.length + 1 < 2 ^ 32
  | .bool _ => True
  | .i16 v => v < 2 ^ 16
  | .i32 v => v < 2 ^ 32
  | .i64 v => v < 2 ^ 64

theorem readValue_val (v : Val) (hv : v.Ok) (rest : Bytes) : PropSet.readValue (valBytes v ++ rest) = some (toValue v) := by
  cases v with
  | str s =>
    have h1 : valBytes (.str s) ++ rest = leN 4 30 ++ (leN 4 (s.length + 1) ++ ((s ++ [0]) ++
        (List.replicate ((4 - (s.length + 1) % 4) % 4) 0 ++ rest))) := by
      simp [valBytes, valOps, Op.bytes, Nat.add_comm 1, List.replicate_succ]
    rw [h1, PropSet.readValue, takeLE_leN_append]
    simp only [Option.bind_some]
    rw [if_pos (by decide), PropSet.readLpstr, takeLE_leN_append]
    simp only [Option.bind_some]
    have hm : (s.length + 1) % 256 ^ 4 = s.length + 1 := Nat.mod_eq_of_lt hv
    rw [hm, takeN_append' (s ++ [0]) _ (by simp)]
    simp [toValue]
  | bool b =>
    cases b <;>
      simp [valBytes, valOps, Op.bytes, PropSet.readValue, takeLE_leN_append, toValue]
  | i16 v =>
    have hm : v % 256 ^ 2 = v := Nat.mod_eq_of_lt hv
    simp [valBytes, valOps, Op.bytes, PropSet.readValue, takeLE_leN_append, toValue]
    simpa using hm
  | i32 v =>
    have hm : v % 256 ^ 4 = v := Nat.mod_eq_of_lt hv
    simp [valBytes, valOps, Op.bytes, PropSet.readValue, takeLE_leN_append, toValue]
    simpa using hm
  | i64 v =>
    have hm : v % 256 ^ 8 = v := Nat.mod_eq_of_lt hv
    simp [valBytes, valOps, Op.bytes, PropSet.readValue, takeLE_leN_append, toValue]
    simpa using hm

/-- Identifier and offset of every item. -/
def entries : Nat → List Item → List (Nat × Nat)
  | _, [] => []
  | off, i :: r => (i.id, off) :: entries (off + i.val.size) r

theorem readTable_items (l : List Item) (off : Nat) (rest : Bytes) (hid : ∀ i ∈ l, i.id < 2 ^ 32)
    (hoff : endOffset off l < 2 ^ 32) :
    PropSet.readTable l.length (tableBytes off l ++ rest) = some (entries off l) := by
  induction l generalizing off with
  | nil => rfl
  | cons i r ih =>
    have he := endOffset_eq (off + i.val.size) r
    have hoff' : off < 2 ^ 32 := by rw [endOffset] at hoff; omega
    have h1 : tableBytes off (i :: r) ++ rest = leN 4 i.id ++ (leN 4 off ++ (tableBytes (off + i.val.size) r ++ rest)) := by
      simp [tableBytes, tableOps, Op.bytes]
    rw [h1, List.length_cons, PropSet.readTable, takeLE_leN_append]
    simp only [Option.bind_some]
    rw [takeLE_leN_append]
    simp only [Option.bind_some]
    rw [ih (off + i.val.size) (fun x hx => hid x (by simp [hx])) hoff]
    have hm1 : i.id % 256 ^ 4 = i.id := Nat.mod_eq_of_lt (hid i (by simp))
    have hm2 : off % 256 ^ 4 = off := Nat.mod_eq_of_lt hoff'
    rw [hm1, hm2]
    rfl

/-- What a reader should find. -/
def found : Nat → List Item → List PropSet.Found
  | _, [] => []
  | off, i :: r => ⟨i.id, off, toValue i.val⟩ :: found (off + i.val.size) r

theorem mapM_values (bs : Bytes) (len n : Nat) (l : List Item) (off : Nat) (hok : ∀ i ∈ l, i.val.Ok)
    (hoff : 8 + 8 * n ≤ off) (h4 : off % 4 = 0) (hlen : endOffset off l ≤ len)
    (hbs : ∃ rest, (bs.take len).drop off = (l.flatMap fun i => valBytes i.val) ++ rest) :
    (entries off l).mapM (fun (x : Nat × Nat) =>
        if x.2 % 4 = 0 ∧ 8 + 8 * n ≤ x.2 ∧ x.2 ≤ len then
          (PropSet.readValue ((bs.take len).drop x.2)).map fun v => (⟨x.1, x.2, v⟩ : PropSet.Found)
        else none) = some (found off l) := by
  induction l generalizing off with
  | nil => rfl
  | cons i r ih =>
    obtain ⟨rest, hbs⟩ := hbs
    have he := endOffset_eq (off + i.val.size) r
    have h4' := size_mod4 i.val
    rw [endOffset] at hlen
    have hnext : (bs.take len).drop (off + i.val.size) = (r.flatMap fun i => valBytes i.val) ++ rest := by
      rw [← List.drop_drop, hbs, List.flatMap_cons, List.append_assoc, List.drop_left' (valBytes_length _)]
    rw [entries, List.mapM_cons, ih (off + i.val.size) (fun x hx => hok x (by simp [hx])) (by omega) (by omega) hlen ⟨rest, hnext⟩]
    rw [if_pos ⟨h4, hoff, by omega⟩, hbs, List.flatMap_cons, List.append_assoc, readValue_val _ (hok i (by simp))]
    rfl

theorem readSection_items (l : List Item) (rest : Bytes) (hid : ∀ i ∈ l, i.id < 2 ^ 32) (hok : ∀ i ∈ l, i.val.Ok)
    (h32 : need l < 2 ^ 32) : PropSet.readSection (sectionBytes l ++ rest) = some (found (8 + l.length * 8) l) := by
  have hE := endOffset_eq (8 + l.length * 8) l
  have hS := sectionBytes_length l
  unfold need at h32 hS
  have hlen : endOffset (8 + l.length * 8) l = (sectionBytes l).length := by omega
  have he : sectionBytes l ++ rest = leN 4 (endOffset (8 + l.length * 8) l) ++ (leN 4 l.length ++
      (tableBytes (8 + l.length * 8) l ++ ((l.flatMap fun i => valBytes i.val) ++ rest))) := by simp [sectionBytes]
  have hm1 : endOffset (8 + l.length * 8) l % 256 ^ 4 = endOffset (8 + l.length * 8) l := Nat.mod_eq_of_lt (by omega)
  have hm2 : l.length % 256 ^ 4 = l.length := Nat.mod_eq_of_lt (by omega)
  have ht : (sectionBytes l ++ rest).take (endOffset (8 + l.length * 8) l) = sectionBytes l :=
    List.take_left' hlen.symm
  unfold PropSet.readSection
  have h1 : takeLE 4 (sectionBytes l ++ rest) = some (endOffset (8 + l.length * 8) l, leN 4 l.length ++
      (tableBytes (8 + l.length * 8) l ++ ((l.flatMap fun i => valBytes i.val) ++ rest))) := by
    rw [he, takeLE_leN_append, hm1]
  rw [h1]
  simp only [Option.bind_some]
  rw [takeLE_leN_append, hm2]
  simp only [Option.bind_some]
  rw [if_pos (by rw [List.length_append, hlen]; omega), readTable_items l _ _ hid (by omega)]
  simp only [Option.bind_some]
  refine mapM_values (sectionBytes l ++ rest) _ l.length l _ hok (by omega) (by omega) (Nat.le_refl _) ⟨[], ?_⟩
  rw [ht, List.append_nil]
  have : sectionBytes l = (leN 4 (endOffset (8 + l.length * 8) l) ++ leN 4 l.length ++ tableBytes (8 + l.length * 8) l) ++
      (l.flatMap fun i => valBytes i.val) := by simp [sectionBytes]
  rw [this, List.drop_left' (by simp [tableBytes_length]; omega)]

/-- The identifier of the stream. -/
def fmtid : DocType → Bytes
  | .summary => PropSet.fmtidSummary
  | .docSummary => PropSet.fmtidDocSummary

theorem headBytes_eq (dt : DocType) : headBytes dt = leN 2 0xFFFE ++ (leN 2 0 ++ (leN 4 2 ++
    (List.replicate 16 0 ++ (leN 4 1 ++ fmtid dt)))) := by
  cases dt <;> decide

theorem read_stream (dt : DocType) (l : List Item) (rest : Bytes) (hid : ∀ i ∈ l, i.id < 2 ^ 32) (hok : ∀ i ∈ l, i.val.Ok)
    (h32 : need l < 2 ^ 32) :
    PropSet.read (headBytes dt ++ (leN 4 48 ++ sectionBytes l) ++ rest) = some (fmtid dt, found (8 + l.length * 8) l) := by
  have hf : (fmtid dt).length = 16 := by cases dt <;> rfl
  have he : headBytes dt ++ (leN 4 48 ++ sectionBytes l) ++ rest = leN 2 0xFFFE ++ (leN 2 0 ++ (leN 4 2 ++
    (List.replicate 16 0 ++ (leN 4 1 ++ (fmtid dt ++ (leN 4 48 ++ (sectionBytes l ++ rest))))))) := by
    rw [headBytes_eq]; simp
  have hd : (headBytes dt ++ (leN 4 48 ++ sectionBytes l) ++ rest).drop 48 = sectionBytes l ++ rest := by
    have : headBytes dt ++ (leN 4 48 ++ sectionBytes l) ++ rest = (headBytes dt ++ leN 4 48) ++ (sectionBytes l ++ rest) := by simp
    rw [this, List.drop_left' (by simp [headBytes_length])]
  have hl : 48 ≤ (headBytes dt ++ (leN 4 48 ++ sectionBytes l) ++ rest).length := by
    simp only [List.length_append, headBytes_length, leN_length]; omega
  have h1 : takeLE 2 (headBytes dt ++ (leN 4 48 ++ sectionBytes l) ++ rest) = some (0xFFFE, leN 2 0 ++ (leN 4 2 ++
    (List.replicate 16 0 ++ (leN 4 1 ++ (fmtid dt ++ (leN 4 48 ++ (sectionBytes l ++ rest))))))) := by
    rw [he, takeLE_leN_append]
  unfold PropSet.read
  rw [h1]
  simp only [Option.bind_some]
  rw [takeLE_leN_append]
  simp only [Option.bind_some]
  rw [takeN_append' (leN 4 2) _ (by simp)]
  simp only [Option.bind_some]
  rw [takeN_append' (List.replicate 16 0) _ (by simp)]
  simp only [Option.bind_some]
  rw [takeLE_leN_append]
  simp only [Option.bind_some]
  rw [if_pos (by decide), takeN_append' (fmtid dt) _ hf]
  simp only [Option.bind_some]
  rw [takeLE_leN_append]
  have h48 : 48 % 256 ^ 4 = 48 := by decide
  simp only [Option.bind_some, h48]
  rw [if_pos hl, hd, readSection_items l rest hid hok h32]
  rfl

end Xls.Hpsf

namespace Xls.Hpsf
open Xls.Unit Xls.Cells Xls.Spec

/-! ### How much memory the buffer takes -/

theorem resize_mem {s s' : Store} {n : Nat} (h : s.resize n = some s') :
    s'.mem.length ≤ max s.mem.length n ∧ s'.dataSize = s.dataSize := by
  unfold Store.resize at h
  by_cases h1 : s.varying = false
  · rw [if_pos h1] at h
    by_cases h2 : n > fixedWidth
    · rw [if_pos h2] at h
      by_cases h3 : s.dataSize ≤ n
      · rw [if_pos h3] at h
        injection h with h
        subst h
        refine ⟨?_, rfl⟩
        simp [regrow]
        omega
      · rw [if_neg h3] at h; simp at h
    · rw [if_neg h2] at h
      injection h with h
      subst h
      exact ⟨by omega, rfl⟩
  · rw [if_neg h1] at h
    by_cases h2 : n ≠ s.mem.length
    · rw [if_pos h2] at h
      injection h with h
      subst h
      refine ⟨?_, rfl⟩
      simp [regrow]
      omega
    · rw [if_neg h2] at h
      injection h with h
      subst h
      exact ⟨by omega, rfl⟩

theorem pokeSeq_length {m m' : Mem} {i : Nat} {bs : Bytes} (h : pokeSeq m i bs = some m') : m'.length = m.length := by
  induction bs generalizing m i with
  | nil => simp [pokeSeq] at h; subst h; rfl
  | cons b r ih =>
    simp only [pokeSeq, poke] at h
    by_cases hi : i < m.length
    · rw [if_pos hi] at h
      simp only [Option.bind_some] at h
      rw [ih h, List.length_set]
    · rw [if_neg hi] at h
      simp at h

theorem addRoomed_mem {s : Store} {room : Nat} {bs : Bytes} {u : CUnit} (h : addRoomed s room bs = some u) :
    ∃ s', u = some s' ∧ s'.mem.length ≤ max s.mem.length (room + s.dataSize) := by
  unfold addRoomed at h
  have key : ∀ s1 : Store, s1.mem.length ≤ max s.mem.length (room + s.dataSize) →
      (pokeSeq s1.mem s1.dataSize bs).map (fun m => some ({ s1 with mem := m }.setDataSize (s1.dataSize + bs.length))) = some u →
      ∃ s', u = some s' ∧ s'.mem.length ≤ max s.mem.length (room + s.dataSize) := by
    intro s1 h1 h2
    cases hp : pokeSeq s1.mem s1.dataSize bs with
    | none => rw [hp] at h2; simp at h2
    | some m =>
      rw [hp] at h2
      simp only [Option.map_some, Option.some.injEq] at h2
      refine ⟨_, h2.symm, ?_⟩
      show m.length ≤ _
      rw [pokeSeq_length hp]
      exact h1
  by_cases hc : s.getSize - s.dataSize < room
  · rw [if_pos hc] at h
    cases hr : s.resize (room + s.dataSize) with
    | none => rw [hr] at h; simp at h
    | some s1 =>
      rw [hr] at h
      exact key s1 (resize_mem hr).1 h
  · rw [if_neg hc] at h
    exact key s (by omega) h

theorem addValue8_mem {s : Store} {v : UInt8} {u : CUnit} (h : addValue8 (some s) v = some u) :
    ∃ s', u = some s' ∧ s'.mem.length ≤ max s.mem.length (s.dataSize + 1) := by
  unfold addValue8 at h
  simp only [Option.bind_some] at h
  have key : ∀ s1 : Store, s1.mem.length ≤ max s.mem.length (s.dataSize + 1) →
      (poke s1.mem s1.dataSize v).map (fun m => some ({ s1 with mem := m }.setDataSize (s1.dataSize + 1))) = some u →
      ∃ s', u = some s' ∧ s'.mem.length ≤ max s.mem.length (s.dataSize + 1) := by
    intro s1 h1 h2
    cases hp : poke s1.mem s1.dataSize v with
    | none => rw [hp] at h2; simp at h2
    | some m =>
      rw [hp] at h2
      simp only [Option.map_some, Option.some.injEq] at h2
      refine ⟨_, h2.symm, ?_⟩
      show m.length ≤ _
      unfold poke at hp
      split at hp
      · injection hp with hp
        subst hp
        rw [List.length_set]
        exact h1
      · simp at hp
  by_cases hc : s.dataSize ≥ s.getSize
  · rw [if_pos hc] at h
    cases hr : s.resize (s.dataSize + 1) with
    | none => rw [hr] at h; simp at h
    | some s1 =>
      rw [hr] at h
      exact key s1 (resize_mem hr).1 h
  · rw [if_neg hc] at h
    exact key s (by omega) h

/-- The operations used here. -/
def Plain : Op → Prop
  | .u16 _ | .u32 _ | .u64 _ | .arr _ | .fill _ _ => True
  | _ => False

theorem byte_step {s : Store} {bs : Bytes} (h : Holds s bs) (v : UInt8) (h29 : bs.length + 1 < 2 ^ 29) :
    ∃ s', addValue8 (some s) v = some (some s') ∧ Holds s' (bs ++ [v]) ∧ s'.mem.length ≤ max s.mem.length (bs.length + 1) := by
  obtain ⟨s1, e1, h1⟩ := addValue8_holds v h h29
  obtain ⟨s2, e2, h2⟩ := addValue8_mem e1
  injection e2 with e2
  subst e2
  rw [h.size] at h2
  exact ⟨s1, e1, h1, h2⟩

theorem plain_step {s : Store} {bs : Bytes} (op : Op) (hp : Plain op) (h : Holds s bs)
    (h29 : bs.length + op.bytes.length < 2 ^ 29) :
    ∃ s', op.run (some s) = some (some s') ∧ Holds s' (bs ++ op.bytes) ∧
      s'.mem.length ≤ max s.mem.length (bs.length + op.bytes.length) := by
  cases op with
  | u8 _ => exact absurd hp id
  | app _ => exact absurd hp id
  | str _ _ => exact absurd hp id
  | reloc => exact absurd hp id
  | u16 v =>
    simp only [Op.bytes, leN_length] at h29 ⊢
    obtain ⟨s1, e1, h1, m1⟩ := byte_step h (byteK 0 v) (by omega)
    obtain ⟨s2, e2, h2, m2⟩ := byte_step h1 (byteK 1 v) (by simp; omega)
    refine ⟨s2, by simp [Op.run, addValue16, e1, e2], by simpa [leN_two] using h2, ?_⟩
    simp only [List.length_append, List.length_cons, List.length_nil] at m2
    omega
  | u32 v =>
    simp only [Op.bytes, leN_length] at h29 ⊢
    obtain ⟨s1, e1, h1, m1⟩ := byte_step h (byteK 0 v) (by omega)
    obtain ⟨s2, e2, h2, m2⟩ := byte_step h1 (byteK 1 v) (by simp; omega)
    obtain ⟨s3, e3, h3, m3⟩ := byte_step h2 (byteK 2 v) (by simp; omega)
    obtain ⟨s4, e4, h4, m4⟩ := byte_step h3 (byteK 3 v) (by simp; omega)
    refine ⟨s4, by simp [Op.run, addValue32, e1, e2, e3, e4], by simpa [leN_four] using h4, ?_⟩
    simp only [List.length_append, List.length_cons, List.length_nil] at m2 m3 m4
    omega
  | u64 v =>
    simp only [Op.bytes, leN_length] at h29 ⊢
    obtain ⟨s1, e1, h1, m1⟩ := byte_step h (byteK 0 v) (by omega)
    obtain ⟨s2, e2, h2, m2⟩ := byte_step h1 (byteK 1 v) (by simp; omega)
    obtain ⟨s3, e3, h3, m3⟩ := byte_step h2 (byteK 2 v) (by simp; omega)
    obtain ⟨s4, e4, h4, m4⟩ := byte_step h3 (byteK 3 v) (by simp; omega)
    obtain ⟨s5, e5, h5, m5⟩ := byte_step h4 (byteK 4 v) (by simp; omega)
    obtain ⟨s6, e6, h6, m6⟩ := byte_step h5 (byteK 5 v) (by simp; omega)
    obtain ⟨s7, e7, h7, m7⟩ := byte_step h6 (byteK 6 v) (by simp; omega)
    obtain ⟨s8, e8, h8, m8⟩ := byte_step h7 (byteK 7 v) (by simp; omega)
    refine ⟨s8, by simp [Op.run, addValue64, e1, e2, e3, e4, e5, e6, e7, e8], by simpa [leN_eight] using h8, ?_⟩
    simp only [List.length_append, List.length_cons, List.length_nil] at m2 m3 m4 m5 m6 m7 m8
    omega
  | arr new =>
    obtain ⟨s1, e1, h1⟩ := addRoomed_holds (room := new.length) h (Nat.le_refl _) h29
    obtain ⟨s2, e2, m2⟩ := addRoomed_mem e1
    injection e2 with e2
    subst e2
    rw [h.size] at m2
    exact ⟨s1, e1, h1, by simp only [Op.bytes]; omega⟩
  | fill v n =>
    simp only [Op.bytes, List.length_replicate] at h29
    obtain ⟨s1, e1, h1⟩ := addRoomed_holds (new := List.replicate n v) (room := n) h (by simp) (by simpa using h29)
    obtain ⟨s2, e2, m2⟩ := addRoomed_mem e1
    injection e2 with e2
    subst e2
    rw [h.size] at m2
    exact ⟨s1, e1, h1, by simp only [Op.bytes, List.length_replicate]; omega⟩

theorem plain_run (ops : List Op) (hp : ∀ op ∈ ops, Plain op) {s : Store} {bs : Bytes} (h : Holds s bs) (new : Bytes)
    (hn : ops.flatMap Op.bytes = new) (h29 : bs.length + new.length < 2 ^ 29) :
    ∃ s', runOps (some s) ops = some (some s') ∧ Holds s' (bs ++ new) ∧
      s'.mem.length ≤ max s.mem.length (bs.length + new.length) := by
  subst hn
  induction ops generalizing s bs with
  | nil => exact ⟨s, rfl, by simpa using h, by omega⟩
  | cons op r ih =>
    simp only [List.flatMap_cons, List.length_append] at h29 ⊢
    obtain ⟨s1, e1, h1, m1⟩ := plain_step op (hp op (by simp)) h (by omega)
    obtain ⟨s2, e2, h2, m2⟩ := ih (fun o ho => hp o (by simp [ho])) h1 (by rw [List.length_append]; omega)
    refine ⟨s2, ?_, by simpa using h2, ?_⟩
    · simp only [runOps, List.foldlM_cons, e1] at e2 ⊢
      exact e2
    · simp only [List.length_append] at m2
      omega

theorem headOps_plain (dt : DocType) : ∀ op ∈ headOps dt, Plain op := by
  cases dt <;> simp [headOps, fmt, Plain]

theorem tableOps_plain (off : Nat) (l : List Item) : ∀ op ∈ tableOps off l, Plain op := by
  induction l generalizing off with
  | nil => simp [tableOps]
  | cons i r ih =>
    intro op hop
    simp only [tableOps, List.mem_cons] at hop
    rcases hop with rfl | rfl | hop
    · trivial
    · trivial
    · exact ih _ op hop

theorem valOps_plain (v : Val) : ∀ op ∈ valOps v, Plain op := by
  cases v <;> simp [valOps, Plain]

theorem setValueAt8_mem {s s' : Store} {v : UInt8} {i : Nat} {e : Int} (h : setValueAt8 (some s) v i = some (some s', e)) :
    s'.mem.length = s.mem.length := by
  unfold setValueAt8 at h
  simp only [Option.bind_some] at h
  split at h
  · unfold poke at h
    split at h
    · simp only [Option.map_some, Option.some.injEq, Prod.mk.injEq] at h
      rw [← h.1]
      simp
    · simp at h
  · simp only [Option.some.injEq, Prod.mk.injEq] at h
    rw [h.1]

theorem setValueAt8_some {s : Store} {v : UInt8} {i : Nat} {u : CUnit} {e : Int} (h : setValueAt8 (some s) v i = some (u, e)) :
    ∃ s', u = some s' := by
  unfold setValueAt8 at h
  simp only [Option.bind_some] at h
  split at h
  · cases hp : poke s.mem i v with
    | none => rw [hp] at h; simp at h
    | some m =>
      rw [hp] at h
      simp only [Option.map_some, Option.some.injEq, Prod.mk.injEq] at h
      exact ⟨_, h.1.symm⟩
  · simp only [Option.some.injEq, Prod.mk.injEq] at h
    exact ⟨_, h.1.symm⟩

theorem setValueAt32_mem {s s' : Store} {v i : Nat} {e : Int} (h : setValueAt32 (some s) v i = some (some s', e)) :
    s'.mem.length = s.mem.length := by
  unfold setValueAt32 at h
  obtain ⟨⟨u1, x1⟩, h1, h⟩ := Option.bind_eq_some_iff.mp h
  obtain ⟨s1, rfl⟩ := setValueAt8_some h1
  obtain ⟨⟨u2, x2⟩, h2, h⟩ := Option.bind_eq_some_iff.mp h
  obtain ⟨s2, rfl⟩ := setValueAt8_some h2
  obtain ⟨⟨u3, x3⟩, h3, h⟩ := Option.bind_eq_some_iff.mp h
  obtain ⟨s3, rfl⟩ := setValueAt8_some h3
  obtain ⟨⟨u4, x4⟩, h4, h⟩ := Option.bind_eq_some_iff.mp h
  obtain ⟨s4, rfl⟩ := setValueAt8_some h4
  simp only [Option.some.injEq, Prod.mk.injEq] at h
  rw [← h.1, setValueAt8_mem h4, setValueAt8_mem h3, setValueAt8_mem h2, setValueAt8_mem h1]

/-- Before the last line: the buffer holds the unpadded stream. -/
theorem build_eq (dt : DocType) (l : List Item) (h29 : need l < 2 ^ 29) :
    ∃ s, Holds s (headBytes dt ++ (leN 4 48 ++ sectionBytes l)) ∧ s.mem.length ≤ max 4096 (need l) ∧
      build dt l = addFixed64 (some s) 0 (sub64 summarySize (need l)) := by
  obtain ⟨s1, e1, h1, m1⟩ := plain_run (headOps dt) (headOps_plain dt) (prepare_holds summarySize) (headBytes dt) rfl
    (by rw [headBytes_length]; simp)
  have hsz : s1.dataSize = 44 := by rw [h1.size]; simp [headBytes_length]
  have hT := tableBytes_length (8 + l.length * 8) l
  have hV := values_length l
  unfold need at h29
  obtain ⟨s2, e2, h2, m2⟩ := plain_run ([.u32 (44 + 4), .u32 0, .u32 l.length] ++ tableOps (8 + l.length * 8) l)
    (fun op hop => by
      rcases List.mem_append.mp hop with hop | hop
      · simp only [List.mem_cons, List.not_mem_nil, or_false] at hop
        rcases hop with rfl | rfl | rfl <;> trivial
      · exact tableOps_plain _ _ op hop) h1
    (leN 4 48 ++ (leN 4 0 ++ (leN 4 l.length ++ tableBytes (8 + l.length * 8) l)))
    (by simp [Op.bytes, tableBytes])
    (by simp only [List.length_append, headBytes_length, leN_length, List.length_nil, hT]; omega)
  obtain ⟨s3, e3, h3⟩ := c03_setValueAt32 h2 (endOffset (8 + l.length * 8) l) 48
    (by simp only [List.length_append, headBytes_length, leN_length, List.length_nil, hT]; omega) (by omega)
  have hb3 : (([] ++ headBytes dt ++ (leN 4 48 ++ (leN 4 0 ++ (leN 4 l.length ++ tableBytes (8 + l.length * 8) l)))).take 48 ++
      leN 4 (endOffset (8 + l.length * 8) l) ++
      ([] ++ headBytes dt ++ (leN 4 48 ++ (leN 4 0 ++ (leN 4 l.length ++ tableBytes (8 + l.length * 8) l)))).drop (48 + 4)) =
      headBytes dt ++ (leN 4 48 ++ (leN 4 (endOffset (8 + l.length * 8) l) ++ (leN 4 l.length ++ tableBytes (8 + l.length * 8) l))) := by
    have ht : ([] ++ headBytes dt ++ (leN 4 48 ++ (leN 4 0 ++ (leN 4 l.length ++ tableBytes (8 + l.length * 8) l)))) =
        (headBytes dt ++ leN 4 48) ++ (leN 4 0 ++ (leN 4 l.length ++ tableBytes (8 + l.length * 8) l)) := by simp
    have hd : ([] ++ headBytes dt ++ (leN 4 48 ++ (leN 4 0 ++ (leN 4 l.length ++ tableBytes (8 + l.length * 8) l)))) =
        (headBytes dt ++ leN 4 48 ++ leN 4 0) ++ (leN 4 l.length ++ tableBytes (8 + l.length * 8) l) := by simp
    have e1 : ∀ r : Bytes, ((headBytes dt ++ leN 4 48) ++ r).take 48 = headBytes dt ++ leN 4 48 :=
      fun r => List.take_left' (by simp [headBytes_length])
    have e2 : ∀ r : Bytes, ((headBytes dt ++ leN 4 48 ++ leN 4 0) ++ r).drop (48 + 4) = r :=
      fun r => List.drop_left' (by simp [headBytes_length])
    have e3 := e1 (leN 4 0 ++ (leN 4 l.length ++ tableBytes (8 + l.length * 8) l))
    have e4 := e2 (leN 4 l.length ++ tableBytes (8 + l.length * 8) l)
    rw [← ht] at e3
    rw [← hd] at e4
    rw [e3, e4]
    simp
  rw [hb3] at h3
  have m3 := setValueAt32_mem e3
  obtain ⟨s4, e4, h4, m4⟩ := plain_run (l.flatMap fun i => valOps i.val)
    (fun op hop => by
      obtain ⟨i, _, hi⟩ := List.mem_flatMap.mp hop
      exact valOps_plain _ op hi) h3 (l.flatMap fun i => valBytes i.val)
    (by simp [valBytes, List.flatMap_assoc])
    (by simp only [List.length_append, headBytes_length, leN_length, hT, hV]; omega)
  have hlast : headBytes dt ++ (leN 4 48 ++ (leN 4 (endOffset (8 + l.length * 8) l) ++ (leN 4 l.length ++
      tableBytes (8 + l.length * 8) l))) ++ (l.flatMap fun i => valBytes i.val) =
      headBytes dt ++ (leN 4 48 ++ sectionBytes l) := by simp [sectionBytes]
  rw [hlast] at h4
  refine ⟨s4, h4, ?_, ?_⟩
  · have hp : (prepare summarySize).mem.length = 4096 := by
      unfold prepare
      rw [if_neg (by decide)]
      exact List.length_replicate
    simp only [List.length_append, headBytes_length, leN_length, List.length_nil, hT, hV] at m1 m2 m4
    unfold need
    omega
  have hsz4 : s4.dataSize = need l := by
    rw [h4.size]
    simp only [List.length_append, headBytes_length, leN_length, sectionBytes_length, need]
    omega
  unfold build
  simp only [inflate, Option.bind_some, e1, sizeOf, Option.map_some, hsz, e2, e3, e4, hsz4]

end Xls.Hpsf
