import Verif.Unit.Props
import Verif.Biff.Stream
/-
`CRecord` (record.h/.cpp) at the level of record contents.

A record is built by appends and in-range patches, which C02 and C03 show to act on the contents as the
list operations used here; `record_built` below makes the step from the buffer model to these lists.
-/
namespace Xls.Biff
open Xls.Unit

/-- `SetValueAt16` on the contents (unit.cpp 220-228) for an index inside the record; `none` otherwise
    (nothing is claimed about such a patch here, see C03). -/
def setAt16 (bs : Bytes) (v i : Nat) : Option Bytes :=
  if i + 2 ≤ bs.length then some (bs.take i ++ leN 2 v ++ bs.drop (i + 2)) else none

/-- `SetValueAt32` likewise (unit.cpp 230-240). -/
def setAt32 (bs : Bytes) (v i : Nat) : Option Bytes :=
  if i + 4 ≤ bs.length then some (bs.take i ++ leN 4 v ++ bs.drop (i + 4)) else none

theorem setAt16_store {s : Store} {bs bs' : Bytes} {v i : Nat} (h : Holds s bs) (hs : setAt16 bs v i = some bs')
    (h32 : i + 1 < 2 ^ 32) : ∃ s', setValueAt16 (some s) v i = some (some s', 0) ∧ Holds s' bs' := by
  unfold setAt16 at hs
  split at hs
  · rename_i hi
    obtain ⟨s', e, h'⟩ := c03_setValueAt16 h v i hi h32
    simp only [Option.some.injEq] at hs
    exact ⟨s', e, hs ▸ h'⟩
  · simp at hs

/-- The usual life of a record: the constructor's 4 zero bytes (record.cpp 43-51), `SetRecordType`
    (57-60), appends, and `SetRecordLength(GetDataSize() - RECORD_HEADER_SIZE)` (71-74, 101-107). -/
def buildRecord (typ : Nat) (ops : List Op) : Option CUnit :=
  (addDataArray none [0, 0, 0, 0]).bind fun u =>
  (setValueAt16 u typ 0).bind fun (u, _) =>
  (runOps u ops).bind fun u =>
  u.bind fun s =>
  (setValueAt16 (some s) ((s.dataSize - 4) % 65536) 2).map fun (u, _) => u

/-- A record built this way contains its type, its length (modulo 2^16) and its payload. -/
theorem record_built (typ : Nat) (ops : List Op) (h29 : 4 + (ops.flatMap Op.bytes).length < 2 ^ 29) :
    ∃ s, buildRecord typ ops = some (some s) ∧ Holds s (enc (typ, ops.flatMap Op.bytes)) := by
  generalize hP : ops.flatMap Op.bytes = P at h29
  obtain ⟨s0, e0, h0⟩ := addRoomed_holds (new := [0, 0, 0, 0]) (prepare_holds 4) (Nat.le_refl _) (by decide)
  obtain ⟨s1, e1, h1⟩ := c03_setValueAt16 h0 typ 0 (by simp) (by decide)
  have hc : List.take 0 (([] : Bytes) ++ [0, 0, 0, 0]) ++ leN 2 typ ++ List.drop (0 + 2) (([] : Bytes) ++ [0, 0, 0, 0]) =
      leN 2 typ ++ [0, 0] := by simp
  rw [hc] at h1
  obtain ⟨s2, e2, h2⟩ := runOps_holds ops h1 (by rw [hP]; simp; omega)
  rw [hP] at h2
  have hds := h2.size
  have hdl : s2.dataSize = 4 + P.length := by rw [hds]; simp; omega
  obtain ⟨s3, e3, h3⟩ := c03_setValueAt16 h2 ((s2.dataSize - 4) % 65536) 2 (by simp; omega) (by decide)
  refine ⟨s3, ?_, ?_⟩
  · have e0' : addDataArray none [0, 0, 0, 0] = some (some s0) := e0
    simp only [buildRecord, e0', Option.bind_some, e1, e2, e3, Option.map_some]
  · have hmod : leN 2 ((s2.dataSize - 4) % 65536) = leN 2 P.length := by
      rw [hdl, show (65536 : Nat) = 256 ^ 2 from rfl, leN_mod, Nat.add_sub_cancel_left]
    rw [hmod] at h3
    simpa [enc, leN_two] using h3

-- a BLANK-like record
example : ∃ s, buildRecord 0x201 [.u16 1, .u16 2, .u16 15] = some (some s) ∧
    Holds s [1, 2, 6, 0, 1, 0, 2, 0, 15, 0] := record_built 0x201 [.u16 1, .u16 2, .u16 15] (by decide)

end Xls.Biff
