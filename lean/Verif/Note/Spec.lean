import Verif.Biff.Stream
import Verif.Unit.Spec
/-
How a reader sees comments: the office-drawing tree in the MSODRAWING records, and the text in the TXO, CONTINUE
and NOTE records.  Written from the file format.
-/
namespace Xls.Spec
open Xls.Biff

/-- An element of an office drawing: an atom with its data or a container with elements inside. -/
inductive Node where
  | atom (ver inst typ : Nat) (data : Bytes)
  | cont (inst typ : Nat) (children : List Node)

/-- Cut a byte string into drawing elements.  Header: 4 bits version, 12 bits instance, 16 bits type, 32 bits
    length of what follows; version 15 is a container.  `fuel` bounds the depth and the number. -/
def nodesF : Nat → Bytes → Option (List Node)
  | _, [] => some []
  | 0, _ => none
  | fuel + 1, bs =>
    match takeLE 2 bs with
    | none => none
    | some (vi, r1) => match takeLE 2 r1 with
      | none => none
      | some (typ, r2) => match takeLE 4 r2 with
        | none => none
        | some (len, r3) => match takeN len r3 with
          | none => none
          | some (body, rest) => match nodesF fuel rest with
            | none => none
            | some ns =>
              if vi % 16 = 15 then (nodesF fuel body).map fun cs => .cont (vi / 16) typ cs :: ns
              else some (.atom (vi % 16) (vi / 16) typ body :: ns)

/-- The elements of a byte string; every byte must belong to one. -/
def nodes (bs : Bytes) : Option (List Node) := nodesF bs.length bs

/-- The drawing of a sheet is spread over its MSODRAWING records (0xEC). -/
def drawingBytes (rs : List Rec) : Bytes := (rs.filter fun r => r.1 == 0xEC).flatMap (·.2)

/-- The shape identifier of a shape container (0xF004): the first 32 bits of its only FSP atom (0xF00A). -/
def shapeId : Node → Option Nat
  | .cont _ 0xF004 cs =>
    match cs.filterMap (fun c => match c with | .atom _ _ 0xF00A d => some d | _ => none) with
    | [d] => if d.length = 8 then rdLE 4 d 0 else none
    | _ => none
  | _ => none

/-- Read a sheet's drawing: a drawing container (0xF002) with the drawing's data (0xF008: number of shapes,
    last shape identifier) and the group container (0xF003) of the shapes. -/
structure Drawing where
  count : Nat
  last : Nat
  ids : List Nat
deriving Repr, DecidableEq

def readDrawing (bs : Bytes) : Option Drawing :=
  match nodes bs with
  | some [.cont _ 0xF002 [.atom _ _ 0xF008 d, .cont _ 0xF003 shapes]] =>
    match rdLE 4 d 0, rdLE 4 d 4, shapes.mapM shapeId with
    | some c, some l, some ids => if d.length = 8 then some ⟨c, l, ids⟩ else none
    | _, _, _ => none
  | _ => none

/-- Read the text of a comment from the records after its drawing: OBJ (0x5D) with the object's number, MSODRAWING, TXO (0x1B6)
    with the number of characters and of bytes of formatting, CONTINUE with the characters, CONTINUE with the
    formatting runs (8 bytes each: first character, font, unused; the last one ends the text). -/
structure Shown where
  object : Nat
  text : List UInt16
  runs : List (Nat × Nat)
deriving Repr, DecidableEq

def readRuns : Nat → Bytes → Option (List (Nat × Nat))
  | 0, [] => some []
  | 0, _ => none
  | n + 1, bs =>
    match takeLE 2 bs with
    | none => none
    | some (p, r1) => match takeLE 2 r1 with
      | none => none
      | some (f, r2) => match takeLE 4 r2 with
        | none => none
        | some (_, r3) => (readRuns n r3).map ((p, f) :: ·)

def readComment (rs : List Rec) : Option Shown :=
  match rs with
  | [(0xEC, _), (0x5D, obj), (0xEC, _), (0x1B6, txo), (0x3C, chars), (0x3C, runs)] =>
    match rdLE 2 obj 6, rdLE 2 txo 10, rdLE 2 txo 12 with
    | some id, some cch, some cb =>
      match readFlagged cch chars with
      | some (t, []) => if txo.length = 18 ∧ runs.length = cb then
          (readRuns (cb / 8) runs).map fun l => ⟨id, t, l⟩ else none
      | _ => none
    | _, _, _ => none
  | _ => none

/-- The shape identifiers of a sheet, from the bytes of its drawing records. -/
def sheetIds (bs : Bytes) : Option (List Nat) := ((records bs).bind fun rs => readDrawing (drawingBytes rs)).map (·.ids)

/-- A NOTE record: row, column, flags, object number, author, one unused byte. -/
structure NoteRead where
  row : Nat
  col : Nat
  object : Nat
  author : List UInt16
deriving Repr, DecidableEq

def readNote (bs : Bytes) : Option NoteRead :=
  match takeLE 2 bs with
  | none => none
  | some (r, b1) => match takeLE 2 b1 with
    | none => none
    | some (c, b2) => match takeLE 2 b2 with
      | none => none
      | some (_, b3) => match takeLE 2 b3 with
        | none => none
        | some (o, b4) => match readStr2 b4 with
          | some (a, [_]) => some ⟨r, c, o, a⟩
          | _ => none

/-! ### Boxes of comments -/

/-- Where a shape lies ([MS-XLS] 2.5.193 OfficeArtClientAnchorSheet): flags; column of the left side and how far into it (in 1024ths); row of the upper side
    and how far (in 256ths); the same for the right and the lower side. -/
structure Place where
  flags : UInt16
  left : UInt16
  leftPart : UInt16
  top : UInt16
  topPart : UInt16
  right : UInt16
  rightPart : UInt16
  bottom : UInt16
  bottomPart : UInt16
deriving Repr, DecidableEq

/-- So many numbers of 16 bits, and nothing else. -/
def words : Nat → Bytes → Option (List UInt16)
  | 0, [] => some []
  | 0, _ => none
  | n + 1, bs =>
    match takeLE 2 bs with
    | none => none
    | some (w, r) => (words n r).map (UInt16.ofNat w :: ·)

def readPlace (bs : Bytes) : Option Place :=
  match words 9 bs with
  | some [f, a, b, c, d, e, g, h, i] => some ⟨f, a, b, c, d, e, g, h, i⟩
  | _ => none

/-- The properties of a shape ([MS-ODRAW] 2.3.7): identifier and value; what follows them belongs to long values. -/
def readProps : Nat → Bytes → Option (List (Nat × Nat))
  | 0, _ => some []
  | n + 1, bs =>
    match takeLE 2 bs with
    | none => none
    | some (k, r1) => match takeLE 4 r1 with
      | none => none
      | some (v, r2) => (readProps n r2).map ((k, v) :: ·)

/-- The box of an object: the colour that fills it (property 0x0181; white if it is not given; [MS-ODRAW] 2.2.2: red, green and blue from the
    lowest byte up, the highest byte zero; the highest byte 8 for a colour of the system) and its place. -/
structure Box where
  fill : Nat
  place : Place
deriving Repr, DecidableEq

/-- The atoms of a type in a container: instance and data. -/
def atoms (t : Nat) (cs : List Node) : List (Nat × Bytes) :=
  cs.filterMap fun c => match c with | .atom _ i u d => if u = t then some (i, d) else none | _ => none

/-- The box of a shape that belongs to an object, that is, has client data (0xF011); it has one anchor (0xF010) and one table of properties
    (0xF00B). -/
def boxOf : Node → Option (Option Box)
  | .cont _ _ cs =>
    match atoms 0xF011 cs with
    | [] => some none
    | [_] =>
      match atoms 0xF010 cs, atoms 0xF00B cs with
      | [a], [p] => (readPlace a.2).bind fun q => (readProps p.1 p.2).map fun l => some ⟨(l.lookup 0x0181).getD 0xFFFFFF, q⟩
      | _, _ => none
    | _ => none
  | _ => none

/-- The boxes of a sheet's drawing. -/
def readBoxes (bs : Bytes) : Option (List Box) :=
  match nodes bs with
  | some [.cont _ 0xF002 [.atom _ _ 0xF008 _, .cont _ 0xF003 shapes]] => (shapes.mapM boxOf).map fun l => l.filterMap id
  | _ => none

/-- The workbook's drawing group: the largest identifier in use, the number of shapes, the number of drawings,
    and for each drawing its number and its number of shapes. -/
structure Group where
  maxId : Nat
  shapes : Nat
  drawings : Nat
  clusters : List (Nat × Nat)
deriving Repr, DecidableEq

def readClusters : Nat → Bytes → Option (List (Nat × Nat))
  | 0, [] => some []
  | 0, _ => none
  | n + 1, bs =>
    match takeLE 4 bs with
    | none => none
    | some (a, r1) => match takeLE 4 r1 with
      | none => none
      | some (b, r2) => (readClusters n r2).map ((a, b) :: ·)

/-- A group container (0xF000) whose first element (0xF006) has: largest identifier, number of clusters plus one,
    number of shapes, number of drawings, the clusters. -/
def readGroup (bs : Bytes) : Option Group :=
  match nodes bs with
  | some [.cont _ 0xF000 (.atom _ _ 0xF006 d :: _)] =>
    match takeLE 4 d with
    | none => none
    | some (m, d1) => match takeLE 4 d1 with
      | none => none
      | some (n, d2) => match takeLE 4 d2 with
        | none => none
        | some (s, d3) => match takeLE 4 d3 with
          | none => none
          | some (g, d4) => (readClusters (n - 1) d4).map fun cl => ⟨m, s, g, cl⟩
  | _ => none

end Xls.Spec
