import Verif.Biff.Stream
import Verif.Unit.Spec
/-
Reader-side rules for the workbook stream, from the file format: a sequence of substreams, each from a BOF record to
an EOF record; the first holds the globals, with one BOUNDSHEET record for each of the others.
-/
namespace Xls.Save
open Xls.Biff

/-- The records up to and including the next EOF, and the rest; a BOF record must not come before. -/
def toEof : List Rec → Option (List Rec × List Rec)
  | [] => none
  | r :: rest =>
    if r.1 = 0x0A then some ([r], rest)
    else if r.1 = 0x809 then none
    else (toEof rest).map fun x => (r :: x.1, x.2)

/-- Cut records into substreams; `fuel` bounds their number. -/
def substreamsF : Nat → List Rec → Option (List (List Rec))
  | _, [] => some []
  | 0, _ :: _ => none
  | fuel + 1, r :: rest =>
    if r.1 = 0x809 then
      match toEof rest with
      | none => none
      | some x => (substreamsF fuel x.2).map ((r :: x.1) :: ·)
    else none

/-- The substreams; every record must belong to one. -/
def substreams (rs : List Rec) : Option (List (List Rec)) := substreamsF rs.length rs

/-- The kind of a substream: the second field of its BOF record. -/
def kind : List Rec → Option Nat
  | r :: _ => if r.1 = 0x809 then rdLE 2 r.2 2 else none
  | [] => none

/-- A BOUNDSHEET record: stream position, flags, name. -/
structure SheetEntry where
  pos : Nat
  flags : Nat
  name : List UInt16
deriving Repr, DecidableEq

def readBound (p : Bytes) : Option SheetEntry :=
  match takeLE 4 p with
  | none => none
  | some (pos, p1) =>
    match takeLE 2 p1 with
    | none => none
    | some (fl, p2) =>
      match Spec.readStr1 p2 with
      | some (s, []) => some ⟨pos, fl, s⟩
      | _ => none

/-- The sheet table of the globals. -/
def sheetTable (globals : List Rec) : Option (List SheetEntry) :=
  ((globals.filter fun r => r.1 == 0x85).map (·.2)).mapM readBound

end Xls.Save
