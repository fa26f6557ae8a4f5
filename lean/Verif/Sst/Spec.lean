import Verif.Unit.Spec
import Verif.Biff.Stream
/-
Reader-side rules for the shared string table, from the file format: an SST record (0xFC) starts with two
32-bit counts and continues in CONTINUE records (0x3C).  This reader is strict: a string must not cross a
record boundary.
-/
namespace Xls.Sst
open Xls.Biff

/-- Strings until the end of the bytes. -/
def readAll : Nat → Bytes → Option (List (List UInt16))
  | _, [] => some []
  | 0, _ => none
  | f + 1, bs => (Spec.readStr2 bs).bind fun (s, r) => (readAll f r).map (s :: ·)

/-- Total count, unique count and strings. -/
def readSST (rs : List Rec) : Option (Nat × Nat × List (List UInt16)) :=
  match rs with
  | (t, p) :: rest =>
    if t = 0xFC ∧ rest.all (fun r => r.1 == 0x3C) then
      (takeLE 4 p).bind fun (total, p1) =>
      (takeLE 4 p1).bind fun (unique, p2) =>
      ((p2 :: rest.map Prod.snd).mapM (fun q => readAll q.length q)).map fun ss => (total, unique, ss.flatten)
    else none
  | [] => none

end Xls.Sst
