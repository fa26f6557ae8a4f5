import Verif.Base.Bytes
/-
The output file: `CBinFile`, binfile.cpp.

Simplifications: the stream is unbuffered, i.e. a write either fits on the medium or stores the part
that fits and puts the stream into its failed state at once; the failed state is permanent
(`std::ofstream` keeps its error bits, nobody calls `clear()`).
-/
namespace Xls.Ole

/-- An open output file: what has been stored, how many more bytes the medium takes, and whether the
    stream has failed. -/
structure Sink where
  out : Bytes
  room : Nat
  bad : Bool
deriving Repr, DecidableEq

/-- `m_File.write`/`m_File.put`. -/
def Sink.put (s : Sink) (bs : Bytes) : Sink :=
  if s.bad then s
  else if bs.length ≤ s.room then { s with out := s.out ++ bs, room := s.room - bs.length }
  else { out := s.out ++ bs.take s.room, room := 0, bad := true }

/-- A write function: new state and returned error code. -/
abbrev W := Sink → Sink × Int

/-- `CBinFile::write_service`, binfile.cpp 180-191 (the file is open).  −1 is `FILE_ERROR`
    (systype.h 79). -/
def writeService (bs : Bytes) : W := fun s =>
  let s' := if bs.length > 0 then s.put bs else s
  (s', if s'.bad then -1 else 0)

/-- `if (errcode != NO_ERRORS) return errcode;` between two writes. -/
def andThen (a b : W) : W := fun s =>
  match a s with
  | (s', e) => if e ≠ 0 then (s', e) else b s'

/-- `CBinFile::WriteByte`, binfile.cpp 98-105. -/
def writeByte (b : UInt8) : W := writeService [b]

/-- `CBinFile::WriteUnsigned16`, binfile.cpp 107-116. -/
def writeU16 (v : Nat) : W := andThen (writeByte (byteK 0 v)) (writeByte (byteK 1 v))

/-- `CBinFile::WriteUnsigned32`, binfile.cpp 118-131. -/
def writeU32 (v : Nat) : W :=
  andThen (writeByte (byteK 0 v)) (andThen (writeByte (byteK 1 v))
    (andThen (writeByte (byteK 2 v)) (writeByte (byteK 3 v))))

/-- `CBinFile::WriteSigned16`, binfile.cpp 133-142: the bytes of `(unsigned32_t)data`. -/
def writeS16 (v : Int) : W :=
  andThen (writeByte (byteK 0 (u32OfInt v))) (writeByte (byteK 1 (u32OfInt v)))

/-- `CBinFile::WriteSigned32`, binfile.cpp 144-157. -/
def writeS32 (v : Int) : W :=
  andThen (writeByte (byteK 0 (u32OfInt v))) (andThen (writeByte (byteK 1 (u32OfInt v)))
    (andThen (writeByte (byteK 2 (u32OfInt v))) (writeByte (byteK 3 (u32OfInt v)))))

/-- `CBinFile::WriteByteArray`, binfile.cpp 159-166. -/
def writeByteArray (bs : Bytes) : W := writeService bs

/-- `CBinFile::SerializeFixedArray`, binfile.cpp 168-178. -/
def serializeFixed (b : UInt8) : Nat → W
  | 0 => fun s => (s, 0)
  | n + 1 => andThen (writeByte b) (serializeFixed b n)

/-- A sequence of writes whose error codes are not looked at; the function returns `NO_ERRORS`. -/
def ignoring : List W → W
  | [] => fun s => (s, 0)
  | w :: r => fun s => ignoring r (w s).1

/-! ### What a write function puts into the file -/

theorem Sink.put_nil (s : Sink) : s.put [] = s := by
  unfold Sink.put
  split
  · rfl
  · simp

theorem Sink.put_put (s : Sink) (a b : Bytes) : (s.put a).put b = s.put (a ++ b) := by
  obtain ⟨out, room, bad⟩ := s
  unfold Sink.put
  cases bad with
  | true => simp
  | false =>
    by_cases ha : a.length ≤ room
    · by_cases hb : b.length ≤ room - a.length
      · have : a.length + b.length ≤ room := by omega
        simp [ha, hb, this]; omega
      · have : ¬ a.length + b.length ≤ room := by omega
        simp [ha, hb, this, List.take_append, List.take_of_length_le ha]
    · have : ¬ a.length + b.length ≤ room := by omega
      have h2 : room - a.length = 0 := by omega
      simp [ha, this, List.take_append, h2]

/-- `w` stores exactly `bs` (as far as the medium takes it), whatever the state it starts in. -/
def Emits (w : W) (bs : Bytes) : Prop := ∀ s, (w s).1 = s.put bs

/-- `w` reports an error exactly if the stream is bad afterwards. -/
def Honest (w : W) : Prop := ∀ s, ((w s).2 = 0 ∨ (w s).2 = -1) ∧ ((w s).2 = 0 ↔ (w s).1.bad = false)

theorem writeService_emits (bs : Bytes) : Emits (writeService bs) bs := by
  intro s
  simp only [writeService]
  split
  · rfl
  · rename_i h
    have : bs = [] := List.length_eq_zero_iff.mp (by omega)
    simp [this, Sink.put_nil]

theorem writeService_honest (bs : Bytes) : Honest (writeService bs) := by
  intro s
  simp only [writeService]
  split <;> simp_all

theorem put_bad {s : Sink} (h : s.bad = true) (bs : Bytes) : s.put bs = s := by simp [Sink.put, h]

theorem andThen_emits {a b : W} {x y : Bytes} (ha : Emits a x) (hb : Emits b y) (hh : Honest a) :
    Emits (andThen a b) (x ++ y) := by
  intro s
  have h1 := ha s
  have h2 := hh s
  have hb' := hb (s.put x)
  simp only [andThen]
  by_cases h : (a s).2 = 0
  · rw [if_neg (by simpa using h), h1, hb', Sink.put_put]
  · rw [if_pos h]
    show (a s).1 = _
    have hbad : (a s).1.bad = true := by
      cases hc : (a s).1.bad with
      | true => rfl
      | false => exact absurd (h2.2.mpr hc) h
    rw [h1] at hbad ⊢
    rw [← Sink.put_put, put_bad hbad]

theorem andThen_honest {a b : W} (ha : Honest a) (hb : Honest b) : Honest (andThen a b) := by
  intro s
  simp only [andThen]
  by_cases h : (a s).2 = 0
  · rw [if_neg (by simpa using h)]; exact hb (a s).1
  · rw [if_pos h]; exact ha s

theorem writeByte_emits (b : UInt8) : Emits (writeByte b) [b] := writeService_emits _
theorem writeByte_honest (b : UInt8) : Honest (writeByte b) := writeService_honest _

theorem writeU16_emits (v : Nat) : Emits (writeU16 v) (leN 2 v) := by
  rw [leN_two]
  exact andThen_emits (writeByte_emits _) (writeByte_emits _) (writeByte_honest _)

theorem writeU32_emits (v : Nat) : Emits (writeU32 v) (leN 4 v) := by
  rw [leN_four]
  exact andThen_emits (writeByte_emits _) (andThen_emits (writeByte_emits _)
    (andThen_emits (writeByte_emits _) (writeByte_emits _) (writeByte_honest _))
    (writeByte_honest _)) (writeByte_honest _)

theorem writeS16_emits (v : Int) : Emits (writeS16 v) (leN 2 (u32OfInt v)) := by
  rw [leN_two]
  exact andThen_emits (writeByte_emits _) (writeByte_emits _) (writeByte_honest _)

theorem writeS32_emits (v : Int) : Emits (writeS32 v) (leN 4 (u32OfInt v)) := writeU32_emits _

theorem serializeFixed_emits (b : UInt8) (n : Nat) :
    Emits (serializeFixed b n) (List.replicate n b) := by
  induction n with
  | zero => intro s; simp [serializeFixed, Sink.put_nil]
  | succ n ih =>
    rw [List.replicate_succ]
    exact andThen_emits (writeByte_emits b) ih (writeByte_honest b)

theorem ignoring_nil : Emits (ignoring []) [] := fun s => (Sink.put_nil s).symm

theorem ignoring_cons {w : W} {r : List W} {x y : Bytes} (hw : Emits w x) (hr : Emits (ignoring r) y) :
    Emits (ignoring (w :: r)) (x ++ y) := by
  intro s
  show (ignoring r (w s).1).1 = _
  rw [hr, hw, Sink.put_put]

theorem ignoring_code (l : List W) (s : Sink) : (ignoring l s).2 = 0 := by
  induction l generalizing s with
  | nil => rfl
  | cons w r ih => exact ih _

theorem ignoring_map {α : Type} (l : List α) (f : α → W) (g : α → Bytes) (h : ∀ a, Emits (f a) (g a)) :
    Emits (ignoring (l.map f)) (l.flatMap g) := by
  induction l with
  | nil => exact ignoring_nil
  | cons a r ih => exact ignoring_cons (h a) ih

/-- With enough room everything arrives. -/
theorem Sink.put_good (s : Sink) (bs : Bytes) (hb : s.bad = false) (hr : bs.length ≤ s.room) :
    s.put bs = { s with out := s.out ++ bs, room := s.room - bs.length } := by
  simp [Sink.put, hb, hr]

end Xls.Ole
