/-
How many allocation-table sectors a container needs: `COleDoc::GetBATCount`, oledoc.cpp 355-432.
Simplification: `size_t` is `Nat` (no wrap-around at 2^64).
-/
namespace Xls.Ole

/-- `BAT_ENTRIES_PER_BLOCK`, oledoc.h 102: `BIG_BLOCK_SIZE/4` with `BIG_BLOCK_SIZE` 0x200 (unit.h 49). -/
def perBat : Nat := 128
/-- `BAT_BLOCKS_PER_MSAT_BLOCK`, oledoc.h 104. -/
def perMsat : Nat := 127
/-- `HEADER_SAT_SIZE`, oledoc.h 105. -/
def headerSat : Nat := 109

/-- The variables of the loop in oledoc.cpp 383-404. -/
structure BatSt where
  num : Nat
  needed : Nat
  msat : Nat
  entries : Nat
  cap : Nat
deriving Repr, DecidableEq

/-- Before the loop, oledoc.cpp 373-380. -/
def batInit (d : Nat) : BatSt :=
  { num := 1, needed := d / perBat + d / perBat / perBat, msat := 0, entries := 0, cap := 0 }

/-- The loop condition, oledoc.cpp 383. -/
def batGoOn (s : BatSt) : Bool := s.num > s.cap || s.num != s.needed

/-- One pass of the loop body, oledoc.cpp 384-398; `d` is `data_bat_entries`. -/
def batStep (d : Nat) (s : BatSt) : BatSt :=
  let num := s.needed
  let msat :=
    if num > headerSat then
      let m := (num - headerSat) / perMsat
      if (num - headerSat) % perMsat ≠ 0 then m + 1 else m
    else s.msat
  let entries := msat + d + num + 1
  let needed := entries / perBat
  { num := num
    msat := msat
    entries := entries
    needed := if entries % perBat ≠ 0 then needed + 1 else needed
    cap := headerSat + perMsat * msat }

/-- The `while`; `none` when `fuel` passes were not enough. -/
def batLoop (d : Nat) : Nat → BatSt → Option BatSt
  | 0, s => if batGoOn s then none else some s
  | f + 1, s => if batGoOn s then batLoop d f (batStep d s) else some s

/-- `struct blocks`, oledoc.h 117-128, without the two debug counters. -/
structure Blocks where
  batEntries : Nat
  batCount : Nat
  msatCount : Nat
  headerBatCount : Nat
  extraBatCount : Nat
  headerFill : Nat
  extraFill : Nat
deriving Repr, DecidableEq

/-- After the loop, oledoc.cpp 406-422 (`bks` was zeroed at 363). -/
def batFinish (s : BatSt) : Blocks :=
  if s.num > headerSat then
    let extra := s.num - headerSat
    { batEntries := s.entries, batCount := s.num, msatCount := s.msat
      headerBatCount := headerSat, extraBatCount := extra, headerFill := 0
      extraFill := if extra % perMsat ≠ 0 then perMsat - extra % perMsat else 0 }
  else
    { batEntries := s.entries, batCount := s.num, msatCount := 0
      headerBatCount := s.num, extraBatCount := 0
      headerFill := headerSat - s.num, extraFill := 0 }

/-- `GetBATCount` for `d` data sectors.  `none` would mean that the loop is still running after
    `d + 4` passes; `c08_terminates` shows this never happens. -/
def getBATCount (d : Nat) : Option Blocks := (batLoop d (d + 4) (batInit d)).map batFinish

end Xls.Ole
