import Verif.Base.Bytes
/-
Reader-side rules for a BIFF8 stream, written from the file format: a stream is a sequence of records,
each a 16-bit type, a 16-bit payload length and the payload.
-/
namespace Xls.Biff

/-- A record: type and payload. -/
abbrev Rec := Nat × Bytes

/-- Cut a byte string into records; `fuel` bounds their number. -/
def recordsF : Nat → Bytes → Option (List Rec)
  | _, [] => some []
  | fuel + 1, a :: b :: c :: d :: r =>
    if ofLE [c, d] ≤ r.length then
      (recordsF fuel (r.drop (ofLE [c, d]))).map ((ofLE [a, b], r.take (ofLE [c, d])) :: ·)
    else none
  | _, _ => none

/-- The records of a stream; every byte must belong to a record. -/
def records (bs : Bytes) : Option (List Rec) := recordsF bs.length bs

/-- The bytes of a record. -/
def enc (r : Rec) : Bytes := leN 2 r.1 ++ leN 2 r.2.length ++ r.2

theorem recordsF_mono (f g : Nat) (bs : Bytes) (hf : bs.length ≤ f) (hg : bs.length ≤ g) :
    recordsF f bs = recordsF g bs := by
  induction f generalizing g bs with
  | zero =>
    have : bs = [] := List.length_eq_zero_iff.mp (by omega)
    subst this
    cases g <;> rfl
  | succ f ih =>
    cases g with
    | zero =>
      have : bs = [] := List.length_eq_zero_iff.mp (by omega)
      subst this
      rfl
    | succ g =>
      match bs with
      | [] => rfl
      | [_] => rfl
      | [_, _] => rfl
      | [_, _, _] => rfl
      | a :: b :: c :: d :: r =>
        simp only [recordsF]
        simp only [List.length_cons] at hf hg
        rw [ih g (r.drop (ofLE [c, d])) (by simp; omega) (by simp; omega)]

/-- A type and payload that fit their fields. -/
def Fits (r : Rec) : Prop := r.1 < 65536 ∧ r.2.length < 65536

theorem records_enc (r : Rec) (h : Fits r) (bs : Bytes) :
    records (enc r ++ bs) = (records bs).map (r :: ·) := by
  obtain ⟨t, p⟩ := r
  obtain ⟨h1, h2⟩ := h
  have e1 : ofLE [byteK 0 t, byteK 1 t] = t := by
    have := ofLE_leN 2 t
    rw [leN_two] at this
    rw [this]; exact Nat.mod_eq_of_lt h1
  have e2 : ofLE [byteK 0 p.length, byteK 1 p.length] = p.length := by
    have := ofLE_leN 2 p.length
    rw [leN_two] at this
    rw [this]; exact Nat.mod_eq_of_lt h2
  have he : enc (t, p) ++ bs =
      byteK 0 t :: byteK 1 t :: byteK 0 p.length :: byteK 1 p.length :: (p ++ bs) := by
    simp [enc, leN_two]
  unfold records
  rw [he]
  simp only [List.length_cons, recordsF, e1, e2]
  rw [if_pos (by simp), List.drop_left, List.take_left]
  rw [recordsF_mono _ bs.length bs (by simp; omega) (by omega)]

theorem records_encs (rs : List Rec) (h : ∀ r ∈ rs, Fits r) (bs : Bytes) :
    records (rs.flatMap enc ++ bs) = (records bs).map (rs ++ ·) := by
  induction rs with
  | nil => cases h : records bs <;> simp [h]
  | cons r t ih =>
    rw [List.flatMap_cons, List.append_assoc, records_enc r (h r (by simp)),
      ih (fun x hx => h x (by simp [hx]))]
    cases records bs <;> simp

/-- A concatenation of encoded records parses into exactly these records. -/
theorem records_all (rs : List Rec) (h : ∀ r ∈ rs, Fits r) : records (rs.flatMap enc) = some rs := by
  have := records_encs rs h []
  simpa [records, recordsF] using this

end Xls.Biff
