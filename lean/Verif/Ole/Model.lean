import Verif.Ole.Sink
import Verif.Ole.Sizing
/-
The OLE2 compound file writer: `COleFileSystem` (olefs.cpp), `COleProp` (oleprop.cpp) and `COleDoc`
(oledoc.cpp).

Simplifications: `size_t` is `Nat`; the four time stamp fields, which are always 0 (systype.h
184-187), and the colour, which is always black, are written as constants; `m_nProperty_Count` and
`bat_index` (`signed32_t`) are unbounded, the theorems assume fewer than 2^31 sectors.
-/
namespace Xls.Ole

/-! ### Path splitting -/

/-- `isws` with the separator string `"/"`, stringtok.h 93-97: `strchr` also finds the terminating
    NUL, so a NUL character is a separator, too. -/
def isSep (c : UInt8) : Bool := c == 0x2F || c == 0

/-- `stringtok`, stringtok.h 108-132.  `fuel` bounds the number of passes of the outer loop; every
    pass consumes at least one character, so `s.length` passes always suffice. -/
def stringtokAux : Nat → Bytes → List Bytes
  | 0, _ => []
  | f + 1, s =>
    match s.dropWhile isSep with
    | [] => []
    | c :: r =>
      -- `j = i+1; while (j < S && !isws(s[j])) ++j;` then `i = j+1`
      (c :: r.takeWhile (fun x => !isSep x)) ::
        stringtokAux f ((r.dropWhile (fun x => !isSep x)).drop 1)

def stringtok (s : Bytes) : List Bytes := stringtokAux s.length s

/-! ### The directory tree -/

/-- `COleProp`, oleprop.h 57-87, without the child list. -/
structure Entry where
  index : Nat
  name : Bytes
  typ : UInt8
  prev : Int
  next : Int
  child : Int
  start : Int
  size : Nat
  data : Option (List Bytes)
deriving Repr, DecidableEq

inductive Node where
  | mk (e : Entry) (kids : List Node)

def Node.e : Node → Entry | .mk e _ => e
def Node.kids : Node → List Node | .mk _ k => k

/-- `COleFileSystem`, olefs.h 74-77. -/
structure Fs where
  root : Node
  count : Nat

/-- `COleFileSystem` constructor, olefs.cpp 48-65. -/
def Fs.init : Fs :=
  { root := .mk { index := 0
                  name := [0x52, 0x6F, 0x6F, 0x74, 0x20, 0x45, 0x6E, 0x74, 0x72, 0x79]
                  typ := 5, prev := -1, next := -1, child := -1, start := -2, size := 0
                  data := none } []
    count := 0 }

/-- Result of `AddNode`: undefined behaviour, an error code, or the changed subtree. -/
inductive AddRes where
  | ub
  | err (code : Int)
  | ok (n : Node)

/-- A fresh `COleProp(index, name)`, oleprop.cpp 66-87, with the links set in olefs.cpp 233-251. -/
def freshEntry (idx : Nat) (name : Bytes) (prev : Int) : Entry :=
  { index := idx, name := name, typ := 0, prev := prev, next := -1, child := -1, start := 0,
    size := 0, data := none }

/-- `(*lastnode)->SetNextIndex(idx)`. -/
def setLastNext (kids : List Node) (idx : Nat) : List Node :=
  match kids.reverse with
  | [] => []
  | .mk e k :: r => (Node.mk { e with next := idx } k :: r).reverse

/-- Linking a new node below `base`, olefs.cpp 230-255; `idx` is `++m_nProperty_Count`. -/
def linkNew (e : Entry) (kids : List Node) (idx : Nat) (name : Bytes) : Node :=
  match kids with
  | [] => .mk { e with child := idx } [.mk (freshEntry idx name (-1)) []]
  | [k] => .mk { e with child := idx } [k, .mk (freshEntry idx name k.e.index) []]
  | k => .mk e (setLastNext k idx ++ [.mk (freshEntry idx name (-1)) []])

/-- `AddNode`, olefs.cpp 200-261.  Comparing with the first path element when there is none left is
    undefined behaviour (207).  −1 is `FS_INVALID_PATH`, −2 `FS_NODE_ALREADY_EXISTS`, −3
    `FS_NODE_NOT_A_DIRECTORY` (olefs.h 39-42). -/
def addNode (idx : Nat) : List Bytes → Node → AddRes
  | [], .mk _ kids => if kids.isEmpty then .err (-2) else .ub
  | p :: rest, .mk e kids =>
    match kids.findIdx? (fun k => k.e.name == p) with
    | some i =>
      match kids[i]? with
      | some k =>
        match addNode idx rest k with
        | .ok k' => .ok (.mk e (kids.set i k'))
        | r => r
      | none => .ub
    | none =>
      if rest.isEmpty then
        if e.typ = 1 ∨ e.typ = 5 then .ok (linkNew e kids idx p) else .err (-3)
      else .err (-1)

/-- The node `GetNode` finds, olefs.cpp 71-109, changed by `f`.  (`SearchNode` is only called here
    for a path along which `AddNode` has just succeeded, so its search never fails.) -/
def updNode (f : Entry → Entry) : List Bytes → Node → Node
  | [], n => n
  | p :: rest, .mk e kids =>
    match kids.findIdx? (fun k => k.e.name == p) with
    | some i =>
      match kids[i]? with
      | some k =>
        if rest.isEmpty then .mk e (kids.set i (.mk (f k.e) k.kids))
        else .mk e (kids.set i (updNode f rest k))
      | none => .mk e kids
    | none => .mk e kids

/-- Number of zero bytes appended to a stream of `n` bytes, olefs.cpp 167-176. -/
def trailSize (n : Nat) : Nat :=
  let t := if n % 512 ≠ 0 then 512 - n % 512 else 0
  if t + n < 0x1000 then 0x1000 - n else t

/-- The size recorded for the stream, olefs.cpp 170-176. -/
def nodeSize (n : Nat) : Nat :=
  let t := if n % 512 ≠ 0 then 512 - n % 512 else 0
  if t + n < 0x1000 then 0x1000 else n + t

/-- `CDataStorage::GetDataSize`: the accumulated sizes of the units. -/
def dataSize (units : List Bytes) : Nat := (units.map List.length).sum

/-- The trailing unit appended to the stream, olefs.cpp 178-181. -/
def padUnits (units : List Bytes) : List Bytes :=
  units ++ [List.replicate (trailSize (dataSize units)) 0]

inductive FsRes where
  | ub
  | err (code : Int)
  | ok (fs : Fs)

/-- `AddFile`, olefs.cpp 145-191. -/
def addFile (fs : Fs) (path : Bytes) (units : List Bytes) : FsRes :=
  match addNode (fs.count + 1) (stringtok path) fs.root with
  | .ub => .ub
  | .err c => .err c
  | .ok root =>
    .ok { root := updNode (fun e => { e with
                    typ := 2, child := -1, size := nodeSize (dataSize units)
                    data := some (padUnits units) }) (stringtok path) root
          count := fs.count + 1 }

/-- `AddDirectory`, olefs.cpp 111-139. -/
def addDirectory (fs : Fs) (path : Bytes) : FsRes :=
  match addNode (fs.count + 1) (stringtok path) fs.root with
  | .ub => .ub
  | .err c => .err c
  | .ok root =>
    .ok { root := updNode (fun e => { e with
                    typ := 1, child := -1, size := 0, data := none }) (stringtok path) root
          count := fs.count + 1 }

mutual
/-- `GetAllNodesList`, olefs.cpp 269-280. -/
def allNodes : Node → List Entry
  | .mk _ kids => allNodesL kids
/-- The loop over the children in `GetAllNodesList`. -/
def allNodesL : List Node → List Entry
  | [] => []
  | k :: r => allNodes k ++ [k.e] ++ allNodesL r
end

/-- `GetAllNodes`, olefs.cpp 263-291: sorted by index. -/
def getAllNodes (fs : Fs) : List Entry :=
  (allNodes fs.root).mergeSort (fun a b => a.index ≤ b.index)

/-- `GetTotalDataSize`, olefs.cpp 293-305 (the data pointer of a file is never NULL). -/
def totalDataSize (nodes : List Entry) : Nat :=
  (nodes.map fun e => if e.typ = 2 then dataSize (e.data.getD []) else 0).sum

/-! ### Writing -/

/-- `OLE_FILETYPE`, oledoc.cpp 47. -/
def oleMagic : Bytes := [0xd0, 0xcf, 0x11, 0xe0, 0xa1, 0xb1, 0x1a, 0xe1]

/-- The entries beyond the header table, oledoc.cpp 170-180: `n` entries are left, `i` is the loop
    counter, `sid` and `mid` are `sectorID` and `msatID`. -/
def extraBats (extra : Nat) : Nat → Nat → Nat → Nat → List W
  | 0, _, _, _ => []
  | n + 1, i, sid, mid =>
    writeU32 sid ::
      (if i % perMsat = 0 then
        (if i = extra then writeS32 (-2) :: extraBats extra n (i + 1) (sid + 1) mid
         else writeU32 mid :: extraBats extra n (i + 1) (sid + 1) (mid + 1))
       else extraBats extra n (i + 1) (sid + 1) mid)

/-- `DumpHeader`, oledoc.cpp 65-195. -/
def dumpHeader (b : Blocks) (total : Nat) : W :=
  let blocks := total / 512
  ignoring <|
    [writeByteArray oleMagic,
     writeS32 0, writeS32 0, writeS32 0, writeS32 0,
     writeS16 0x3e, writeS16 3, writeS16 (-2), writeS16 9,
     writeS32 6, writeS32 0, writeS32 0,
     writeU32 b.batCount,
     writeU32 (b.msatCount + blocks + b.batCount),
     writeS32 0, writeS32 0x1000,
     writeS32 (-2), writeS32 0,
     writeS32 (if b.msatCount ≠ 0 then 0 else -2),
     writeU32 b.msatCount] ++
    (List.range b.headerBatCount).map (fun i => writeU32 (b.msatCount + blocks + i)) ++
    List.replicate b.headerFill (writeS32 (-1)) ++
    extraBats b.extraBatCount b.extraBatCount 1 (b.msatCount + blocks + b.headerBatCount) 1 ++
    (if b.extraFill ≠ 0 then List.replicate b.extraFill (writeS32 (-1)) ++ [writeS32 (-2)] else [])

/-- The inner loop of `DumpData`, oledoc.cpp 205-215; `e` is `errcode` so far. -/
def dumpUnits : List Bytes → Int → W
  | [], e => fun s => (s, e)
  | u :: r, _ => fun s =>
    match writeByteArray u s with
    | (s', e) => if e ≠ 0 then (s', e) else dumpUnits r e s'

/-- `DumpData`, oledoc.cpp 197-220. -/
def dumpDataFrom : List Entry → Int → W
  | [], e => fun s => (s, e)
  | n :: r, e => fun s =>
    if n.typ = 2 then
      match dumpUnits (n.data.getD []) e s with
      | (s', e') => dumpDataFrom r e' s'
    else dumpDataFrom r e s

def dumpData (nodes : List Entry) : W := dumpDataFrom nodes 0

/-- The chain of one stream, oledoc.cpp 249-264: `data_size/512 - 1` successors and the end mark. -/
def chainWrites (batIndex sectors : Nat) : List W :=
  (List.range (sectors - 1)).map (fun i => writeS32 ((batIndex + i + 1 : Nat) : Int)) ++ [writeS32 (-2)]

/-- The loop over the nodes, oledoc.cpp 242-265: the writes, the nodes with their start blocks and the
    final `bat_index`.  A node without data (a directory) is dereferenced as a NULL pointer, and a
    stream of fewer than 512 bytes would make `chain_len` wrap: `none`. -/
def depotNodes : List Entry → Nat → Option (List W × List Entry × Nat)
  | [], i => some ([], [], i)
  | e :: r, i =>
    match e.data with
    | none => none
    | some us =>
      if dataSize us / 512 = 0 then none
      else
        match depotNodes r (i + dataSize us / 512) with
        | none => none
        | some (ws, es, j) =>
          some (chainWrites i (dataSize us / 512) ++ ws, { e with start := (i : Int) } :: es, j)

/-- `to_fill_size`, oledoc.cpp 288-289.  (The product is computed modulo 2^32, a multiple of 512.) -/
def fillSize (numIndexes : Nat) : Nat := (512 - (4 * numIndexes % 2 ^ 32) % 512) % 512

/-- `DumpDepots`, oledoc.cpp 222-307. -/
def dumpDepots (b : Blocks) (nodes : List Entry) : Option (W × List Entry) :=
  match depotNodes nodes b.msatCount with
  | none => none
  | some (ws, es, j) =>
    some (ignoring (List.replicate b.msatCount (writeS32 (-4)) ++ ws ++
        List.replicate b.batCount (writeS32 (-3)) ++ [writeS32 (-2)] ++
        [serializeFixed 0xff (fillSize (j + b.batCount + 1))]), es)

/-- `GetUnicodeName`, oledoc.cpp 439-457: the name up to a NUL (`strlen`), at most 32 characters, two
    bytes each, and a terminator. -/
def unicodeName (name : Bytes) : Bytes :=
  ((name.takeWhile (· != 0)).take 32).flatMap (fun c => [c, 0]) ++ [0, 0]

/-- `DumpNode`, oledoc.cpp 459-522.  A name field longer than 64 bytes makes the padding length wrap:
    `none`. -/
def dumpNode (e : Entry) : Option (List W) :=
  let nm := unicodeName e.name
  if nm.length > 0x40 then none
  else some
    [writeByteArray nm, serializeFixed 0 (0x40 - nm.length),
     writeS16 nm.length, writeByte e.typ, writeByte 1,
     writeS32 e.prev, writeS32 e.next, writeS32 e.child,
     serializeFixed 0 (0x64 - 0x50),
     writeS32 0, writeS32 0, writeS32 0, writeS32 0,
     writeS32 e.start,
     writeS32 (if e.typ = 2 then (e.size : Int) else 0),
     writeS32 0]

/-- `DumpFileSystem`, oledoc.cpp 309-328. -/
def dumpFileSystem (root : Entry) (nodes : List Entry) : Option W :=
  ((root :: nodes).mapM dumpNode).map fun ws => ignoring ws.flatten

/-- `errcode |= …` on two's complement integers; only 0 and −1 occur. -/
def orCode (a b : Int) : Int := if a = 0 then b else if b = 0 then a else -1

/-- `DumpOleFile`, oledoc.cpp 330-353. -/
def dumpOleFile (fs : Fs) : Option W :=
  let nodes := getAllNodes fs
  let total := totalDataSize nodes
  (getBATCount (total / 512)).bind fun b =>
  (dumpDepots b nodes).bind fun (depots, nodes') =>
  (dumpFileSystem fs.root.e nodes').map fun dir => fun s0 =>
    let (s1, e1) := dumpHeader b total s0
    let (s2, e2) := dumpData nodes s1
    let (s3, e3) := depots s2
    let (s4, e4) := dir s3
    (s4, orCode (orCode (orCode e1 e2) e3) e4)

/-- The end of `workbook::Dump`, workbook.cpp 297-333: the result of `DumpOleFile` is returned,
    `Close()` never reports anything (binfile.cpp 61-68).  `openOk` tells whether the file could be
    opened; if not, nothing is written. -/
def saveFile (fs : Fs) (openOk : Bool) (room : Nat) : Option (Sink × Int) :=
  if openOk then (dumpOleFile fs).map fun w => w { out := [], room := room, bad := false }
  else some ({ out := [], room := room, bad := true }, -1)

end Xls.Ole
