import Verif.Cells.Model
/-
The row-block part of a sheet: `worksheet::RowBlocksDump` (sheetrec.cpp), which hands out ROW, cell and
DBCELL records one by one, with its member variables as a state machine.

An iterator into the ordered set of cells is the list of the elements from there to the end; `end()` is
the empty list; dereferencing it is undefined behaviour.  `size c` is the size of the record that
`c->GetData()` makes, header included.
-/
namespace Xls.Rows
open Xls.Cells Xls.Biff

variable {α : Type}

/-- `rowheight_t`, row.h 60-103: row, height, and the index of its format if it has one. -/
structure RowHeight where
  row : Nat
  height : Nat
  xf : Option Nat
deriving Repr, DecidableEq

/-- The records handed out. -/
inductive Ev (α : Type) where
  | row (num first last : Nat) (ht : Option RowHeight)
  | cell (c : Cell α)
  | dbcell (start : Nat) (offs : List Nat)
deriving Repr

/-- `m_DumpRBState`, sheetrec.h 126-136. -/
inductive Phase | init | firstRow | rows | firstCell | cells | dbcell | finish
deriving Repr, DecidableEq

/-- The member variables used by `RowBlocksDump`, sheetrec.h 231-256. -/
structure St (α : Type) where
  phase : Phase
  cur : List (Cell α)
  start : List (Cell α)
  hts : List RowHeight
  rowCounter : Nat
  cellCounter : Nat
  dbOff : Nat
  firstRowOff : Nat
  offs : List Nat

/-- The outcome of one pass of the `do … while(repeat)` loop. -/
inductive Pass (α : Type) where
  | ub
  | again (s : St α)
  | ret (r : Option (Ev α)) (s : St α)

/-- `MAX_ROWBLOCK_SIZE`, sheetrec.cpp 56. -/
def maxRows : Nat := 16

/-- Which row the next ROW record is for, sheetrec.cpp 603-609. -/
def rowNum (c : Cell α) : List RowHeight → Nat
  | [] => c.row
  | h :: _ => if c.row > h.row then h.row else c.row

/-- First and last column of the row's cells, sheetrec.cpp 600-602 and 613-632. -/
def colBounds (here : List (Cell α)) : Nat × Nat :=
  let b := here.foldl (fun (f, l) c => (if c.col < f then c.col else f, if c.col > l then c.col else l)) (2 ^ 32 - 1, 0)
  if b.2 < b.1 then (1, 0) else b

/-- The height setting used for row `n`, and the settings left, sheetrec.cpp 636-655. -/
def takeHeight (n : Nat) : List RowHeight → Option RowHeight × List RowHeight
  | [] => (none, [])
  | h :: r => if h.row = n then (some h, r) else (none, h :: r)

/-- One pass of the loop of `RowBlocksDump`, sheetrec.cpp 565-748.  `heights` is the set of row heights. -/
def pass (size : Cell α → Nat) (heights : List RowHeight) (offset : Nat) (s : St α) : Pass α :=
  match s.phase with
  | .init => .again { s with phase := .firstRow, rowCounter := 0, hts := heights }
  | .firstRow =>
    if s.cur ≠ [] then
      .again { s with phase := .rows, start := s.cur, cellCounter := 0, dbOff := 0, firstRowOff := offset, offs := [] }
    else .again { s with phase := .finish }
  | .rows =>
    match s.cur with
    | [] => .ub
    | c :: r =>
      let n := rowNum c s.hts
      let here := (c :: r).takeWhile (fun x => x.row == n)
      let rest := (c :: r).dropWhile (fun x => x.row == n)
      let cc := (s.cellCounter + here.length) % 2 ^ 32
      let (ht, hts) := takeHeight n s.hts
      let b := colBounds here
      let s1 := { s with cur := rest, hts := hts, dbOff := s.dbOff + 20, cellCounter := cc }
      .ret (some (.row n b.1 b.2 ht))
        (if s.rowCounter + 1 ≥ maxRows ∨ rest = [] then
          { s1 with
            cellCounter := if rest.length = 1 then (cc + 1) % 2 ^ 32 else cc
            rowCounter := 0
            phase := .firstCell }
         else { s1 with rowCounter := s.rowCounter + 1 })
  | .firstCell =>
    match s.start with
    | [] => .ub
    | c :: r =>
      let cc := (s.cellCounter + (2 ^ 32 - 1)) % 2 ^ 32
      let s1 := { s with dbOff := s.dbOff + size c, offs := s.offs ++ [offset - s.firstRowOff], cellCounter := cc }
      .ret (some (.cell c)) (if cc = 0 then { s1 with phase := .dbcell } else { s1 with start := r, phase := .cells })
  | .cells =>
    if s.cellCounter = 0 then .again { s with phase := .dbcell }
    else
      match s.start with
      | [] => .ub
      | c :: r =>
        .ret (some (.cell c))
          { s with dbOff := s.dbOff + size c, offs := s.offs ++ [size c], cellCounter := s.cellCounter - 1, start := r }
  | .dbcell =>
    .ret (some (.dbcell s.dbOff s.offs)) { s with phase := if s.cur.length = 1 then .finish else .firstRow }
  | .finish => .ret none { s with phase := .init }

/-- Size of a record, header included: ROW_RECORD_SIZE (row.h 54), the cell, the DBCELL record of
    row.cpp 113-134. -/
def Ev.size (size : Cell α → Nat) : Ev α → Nat
  | .row .. => 20
  | .cell c => size c
  | .dbcell _ offs => 8 + 2 * offs.length

/-- How the emission ends. -/
inductive Outcome (α : Type) where
  | done (evs : List (Ev α)) (s : St α)
  | ub
  | fuelOut

/-- Put a record in front. -/
def Outcome.push (e : Ev α) : Outcome α → Outcome α
  | .done evs s => .done (e :: evs) s
  | .ub => .ub
  | .fuelOut => .fuelOut

/-- Call `RowBlocksDump` until it returns NULL (sheetrec.cpp 350-374, 226-557); the stream position advances
    by the size of each record. -/
def run (size : Cell α → Nat) (heights : List RowHeight) : Nat → Nat → St α → Outcome α
  | 0, _, _ => .fuelOut
  | fuel + 1, offset, s =>
    match pass size heights offset s with
    | .ub => .ub
    | .again s' => run size heights fuel offset s'
    | .ret (some e) s' => (run size heights fuel (offset + e.size size) s').push e
    | .ret none s' => .done [] s'

/-- The state in which the sheet enters the row blocks: `m_CurrentCell` was set by SHEET_INIT
    (sheetrec.cpp 239), the other members hold what an earlier save left. -/
def enter (cells : List (Cell α)) (old : St α) : St α := { old with phase := .init, cur := cells }

/-- The payload of a ROW record, row.cpp 67-102; XF_PROP_XF_DEFAULT_CELL is 15, ROW_DFLT_HEIGHT 0x108. -/
def rowPayload (num first last : Nat) (ht : Option RowHeight) : Bytes :=
  let h := match ht with | some h => h.height | none => 0x108
  let xf := match ht with | some h => h.xf | none => none
  leN 2 num ++ leN 2 first ++ leN 2 ((last + 1) % 2 ^ 32) ++ leN 2 h ++ leN 2 0 ++ leN 2 0 ++
    leN 2 (if h = 0x108 then 0x80 else 0x80 + 0x40) ++
    leN 2 (match xf with | some x => x | none => 15)

/-- The payload of a DBCELL record, row.cpp 113-134. -/
def dbcellPayload (start : Nat) (offs : List Nat) : Bytes := leN 4 start ++ offs.flatMap (leN 2)

/-- The bytes of a record; RECTYPE_ROW is 0x208, RECTYPE_DBCELL 0xD7. -/
def Ev.bytes (data : Cell α → Bytes) : Ev α → Bytes
  | .row n f l h => enc (0x208, rowPayload n f l h)
  | .cell c => data c
  | .dbcell s o => enc (0xD7, dbcellPayload s o)

end Xls.Rows
