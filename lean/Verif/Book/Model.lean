import Verif.Biff.Record
/-
The workbook stream: `workbook::DumpData` (workbook.cpp) with its CONTINUE handling, and the loop in
`workbook::Dump` that collects the records.

The sources of records are parameters: `gnext` is one pass of the loop in
`CGlobalRecords::DumpData`, `snext` one pass of the loop in `worksheet::DumpData`, which has the stream position
as arguments.

Simplifications: `size_t` is `Nat`; the memory of a clipped record keeps its contents until its CONTINUE
records are made (true while the store vector is not reallocated in between; see DESIGN.md, finding t).
-/
namespace Xls.Book
open Xls.Biff

/-- A record unit handed to the workbook: its contents (4-byte header included), `AlreadyContinued()`, the
    number of the sheet if it is that sheet's BOUNDSHEET record, `m_Backpatching_Level`.  record.h 52-79, unit.h. -/
structure U where
  data : Bytes
  cont : Bool := false
  tag : Option Nat := none
  level : Nat := 0
deriving Repr, DecidableEq

/-- `MAX_RECORD_SIZE`, rectypes.h 49. -/
def maxRec : Nat := 8224

/-- `GetRecordDataSize`, record.cpp 103-108. -/
def U.paySize (u : U) : Nat := u.data.length - 4

/-- The condition in workbook.cpp 470-471. -/
def U.oversize (u : U) : Bool := !u.cont && decide (u.paySize > maxRec)

/-- `CDataStorage::Clip`, datast.cpp 199-213: the length field is set to MAX_RECORD_SIZE and the data size to
    that plus the header. -/
def clip (u : U) : U := { u with data := (u.data.take 2 ++ leN 2 maxRec ++ u.data.drop 4).take (maxRec + 4) }

/-- `CContinue`, continue.cpp 45-54, of `size` bytes from position `idx*MAX_RECORD_SIZE` of the payload;
    RECTYPE_CONTINUE is 0x3C. -/
def continueRec (u : U) (idx size : Nat) : U :=
  { data := enc (0x3C, ((u.data.drop 4).drop (idx * maxRec)).take size), level := u.level }

/-- `m_DumpState`, workbook.h 50-57 and 115. -/
inductive Phase | init | globals | sheets | finish | cont
deriving Repr, DecidableEq

/-- What one pass of a source's own `do … while(repeat)` loop gives: undefined behaviour, another pass, a
    record, or the end. -/
inductive Src (σ : Type) where
  | ub
  | again (s : σ)
  | unit (u : U) (s : σ)
  | fin (s : σ)

/-- The members of `workbook` used by `DumpData`, workbook.h 117-129, and the positions given to the
    BOUNDSHEET records so far. -/
structure St (γ σ : Type) where
  phase : Phase
  prev : Phase
  g : γ
  sheets : List σ
  cur : Nat
  offset : Nat
  writeLen : Nat
  data : Option U
  contIdx : Nat
  realSize : Nat
  bpos : List (Nat × Nat)

/-- The outcome of one pass of the `do … while(repeat)` loop. -/
inductive Pass (γ σ : Type) where
  | ub
  | again (s : St γ σ)
  | ret (u : Option U) (s : St γ σ)

variable {γ σ : Type}

/-- A record came from a source, workbook.cpp 467-482: hand it out, or go to the CONTINUE state if it is too
    large. -/
def handle (u : U) (s : St γ σ) : Pass γ σ :=
  if u.oversize then .again { s with data := some u, prev := s.phase, phase := .cont, contIdx := 0 }
  else .ret (some u) { s with data := some u }

/-- One pass of the loop in `workbook::DumpData`, workbook.cpp 342-483. -/
def pass (gnext : γ → Src γ) (snext : σ → Nat → Nat → Src σ) (s : St γ σ) : Pass γ σ :=
  match s.phase with
  | .init => .again { s with writeLen := 0, cur := 0, offset := 0, prev := .init, phase := .globals }
  | .globals =>
    match gnext s.g with
    | .ub => .ub
    | .again g => .again { s with g := g }
    | .fin g => .again { s with g := g, data := none, offset := s.writeLen, writeLen := 0, prev := .globals, phase := .sheets }
    | .unit u g => handle u { s with g := g, writeLen := s.writeLen + u.data.length }
  | .sheets =>
    match s.sheets[s.cur]? with
    | none => .ub
    | some sh =>
      match snext sh s.offset s.writeLen with
      | .ub => .ub
      | .again sh' => .again { s with sheets := s.sheets.set s.cur sh' }
      | .fin sh' =>
        let s1 := { s with sheets := s.sheets.set s.cur sh', data := none, bpos := s.bpos ++ [(s.cur, s.offset)] }
        if s.cur + 1 < s.sheets.length % 65536 then
          .again { s1 with offset := s.offset + s.writeLen, writeLen := 0, cur := s.cur + 1 }
        else .again { s1 with prev := .sheets, phase := .finish }
      | .unit u sh' => handle u { s with sheets := s.sheets.set s.cur sh', writeLen := s.writeLen + u.data.length }
  | .finish => .ret none { s with data := none, prev := .finish, phase := .init }
  | .cont =>
    match s.data with
    | none => .ub
    | some u =>
      if s.contIdx = 0 then .ret (some (clip u)) { s with realSize := u.paySize, contIdx := 1 }
      else if s.realSize / maxRec > s.contIdx then
        .ret (some (continueRec u s.contIdx maxRec))
          { s with contIdx := s.contIdx + 1,
                   writeLen := if s.prev = .sheets then s.writeLen + 4 else s.writeLen }
      else
        let csize := s.realSize - s.contIdx * maxRec
        -- the state is restored first, so that m_PreviousDumpState is never WB_SHEETS in the test that follows
        let s1 := { s with phase := s.prev, prev := .cont, data := none, contIdx := 0 }
        if csize ≠ 0 then .ret (some (continueRec u s.contIdx csize)) s1 else .again s1

/-- How the dump ends. -/
inductive Outcome (γ σ : Type) where
  | done (us : List U) (s : St γ σ)
  | ub
  | fuelOut

def Outcome.push (u : U) : Outcome γ σ → Outcome γ σ
  | .done us s => .done (u :: us) s
  | .ub => .ub
  | .fuelOut => .fuelOut

/-- The loop of `workbook::Dump`, workbook.cpp 302-313. -/
def run (gnext : γ → Src γ) (snext : σ → Nat → Nat → Src σ) : Nat → St γ σ → Outcome γ σ
  | 0, _ => .fuelOut
  | fuel + 1, s =>
    match pass gnext snext s with
    | .ub => .ub
    | .again s' => run gnext snext fuel s'
    | .ret (some u) s' => (run gnext snext fuel s').push u
    | .ret none s' => .done [] s'

/-- `boundsheet_t::SetSheetStreamPosition` on the unit kept in the store: recdef.cpp 98-101, 411-414;
    BSHEET_OFFSET_POSITION is 4. -/
def patch (bpos : List (Nat × Nat)) (u : U) : Option Bytes :=
  match u.tag with
  | none => some u.data
  | some i =>
    match bpos.find? (fun p => p.1 == i) with
    | none => some u.data
    | some p => setAt32 u.data (p.2 % 2 ^ 32) 4

/-- The bytes of the stream after the dump: the units in order, with the BOUNDSHEET positions patched in. -/
def stream (us : List U) (bpos : List (Nat × Nat)) : Option Bytes :=
  (us.mapM (patch bpos)).map List.flatten

end Xls.Book
