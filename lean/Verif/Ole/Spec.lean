import Verif.Base.Bytes
/-
A strict reader for version 3 compound files (512-byte sectors), written from the published format,
independently of the writer.  Every deviation makes it fail.
-/
namespace Xls.Cfb

/-- Sector number `i`; the header occupies the first 512 bytes. -/
def sector (f : Bytes) (i : Nat) : Option Bytes :=
  let s := (f.drop (512 * (i + 1))).take 512
  if s.length = 512 then some s else none

def freeSect : Nat := 0xFFFFFFFF
def endOfChain : Nat := 0xFFFFFFFE
def fatSect : Nat := 0xFFFFFFFD
def difSect : Nat := 0xFFFFFFFC

/-- A byte string as little-endian 32-bit words. -/
def words : Bytes → List Nat
  | a :: b :: c :: d :: r => ofLE [a, b, c, d] :: words r
  | _ => []

/-- The chain of DIFAT sectors: `n` sectors starting at `id`, each listing 127 ids and the next
    DIFAT sector; the chain must end after exactly `n` sectors. -/
def difat (f : Bytes) : Nat → Nat → Option (List Nat)
  | 0, id => if id = endOfChain then some [] else none
  | n + 1, id =>
    (sector f id).bind fun s =>
    ((words s)[127]?).bind fun next =>
    (difat f n next).map fun r => (words s).take 127 ++ r

/-- The sector ids of the chain of extra allocation lists (DIFAT). -/
def difatIds (f : Bytes) : Nat → Nat → Option (List Nat)
  | 0, id => if id = endOfChain then some [] else none
  | n + 1, id =>
    (sector f id).bind fun s =>
    ((words s)[127]?).bind fun next =>
    (difatIds f n next).map (id :: ·)

/-- The DIFAT sectors according to the header. -/
def difatList (f : Bytes) : Option (List Nat) :=
  (rdLE 4 f 0x44).bind fun dif => (rdLE 4 f 0x48).bind fun ndif => difatIds f ndif dif

/-- Ids of the FAT sectors: 109 in the header, the rest in the DIFAT chain.  The unused slots must be
    marked free. -/
def fatIds (f : Bytes) : Option (List Nat) :=
  (rdLE 4 f 0x2c).bind fun count =>
  (rdLE 4 f 0x44).bind fun dif =>
  (rdLE 4 f 0x48).bind fun ndif =>
  (difat f ndif dif).bind fun extra =>
    let ids := words ((f.drop 0x4c).take 436) ++ extra
    if count ≤ ids.length ∧ (ids.drop count).all (· == freeSect) then some (ids.take count) else none

/-- The file allocation table. -/
def fat (f : Bytes) : Option (List Nat) :=
  (fatIds f).bind fun ids => (ids.mapM (sector f)).map fun ss => ss.flatMap words

/-- The sectors of a chain; `fuel` bounds its length (a longer chain is cyclic). -/
def chain (fat : List Nat) : Nat → Nat → Option (List Nat)
  | 0, _ => none
  | fuel + 1, s =>
    if s = endOfChain then some []
    else (fat[s]?).bind fun next => (chain fat fuel next).map (s :: ·)

/-- All bytes of the sectors of a chain. -/
def chainBytes (f : Bytes) (fat : List Nat) (start : Nat) : Option Bytes :=
  (chain fat (fat.length + 1) start).bind fun ss => (ss.mapM (sector f)).map List.flatten

/-- A directory entry. -/
structure DirEnt where
  name : List Nat
  typ : Nat
  left : Nat
  right : Nat
  child : Nat
  start : Nat
  size : Nat
deriving Repr, DecidableEq

/-- A byte string as little-endian 16-bit units. -/
def units16 : Bytes → List Nat
  | a :: b :: r => ofLE [a, b] :: units16 r
  | _ => []

/-- One 128-byte directory entry.  The name field holds the name and a terminating 0 unit; its size
    in bytes, terminator included, is at 0x40. -/
def dirEnt (e : Bytes) : Option DirEnt :=
  (rdLE 2 e 0x40).bind fun nlen =>
  if nlen % 2 = 0 ∧ 2 ≤ nlen ∧ nlen ≤ 64 ∧ (units16 (e.take 64)).drop (nlen / 2 - 1) =
      List.replicate (33 - nlen / 2) 0 then
    (rdLE 1 e 0x42).bind fun typ =>
    (rdLE 4 e 0x44).bind fun l =>
    (rdLE 4 e 0x48).bind fun r =>
    (rdLE 4 e 0x4c).bind fun c =>
    (rdLE 4 e 0x74).bind fun st =>
    (rdLE 4 e 0x78).map fun sz =>
      { name := (units16 (e.take 64)).take (nlen / 2 - 1), typ := typ, left := l, right := r
        child := c, start := st, size := sz }
  else none

/-- Consecutive 128-byte entries. -/
def entries : Nat → Bytes → Option (List DirEnt)
  | 0, bs => if bs.isEmpty then some [] else none
  | n + 1, bs =>
    (dirEnt (bs.take 128)).bind fun e => (entries n (bs.drop 128)).map (e :: ·)

/-- The directory. -/
def directory (f : Bytes) (fat : List Nat) : Option (List DirEnt) :=
  (rdLE 4 f 0x30).bind fun st =>
  (chainBytes f fat st).bind fun bs => entries (bs.length / 128) bs

def upper (c : Nat) : Nat := if 0x61 ≤ c ∧ c ≤ 0x7A then c - 0x20 else c

/-- The order of names in a directory: shorter first, then unit by unit in upper case. -/
def nameLt (a b : List Nat) : Bool :=
  a.length < b.length || (a.length == b.length && List.lex (a.map upper) (b.map upper))

/-- Binary search for `name` in the tree of siblings whose root is entry `id`. -/
def find (es : List DirEnt) (name : List Nat) : Nat → Nat → Option DirEnt
  | 0, _ => none
  | fuel + 1, id =>
    if id = freeSect then none
    else (es[id]?).bind fun e =>
      if nameLt name e.name then find es name fuel e.left
      else if nameLt e.name name then find es name fuel e.right
      else some e

/-- In-order traversal of the sibling tree below entry `id`: the visited entry numbers. -/
def inorder (es : List DirEnt) : Nat → Nat → Option (List Nat)
  | 0, _ => none
  | fuel + 1, id =>
    if id = freeSect then some []
    else (es[id]?).bind fun e =>
      (inorder es fuel e.left).bind fun l =>
      (inorder es fuel e.right).map fun r => l ++ [id] ++ r

/-- The directory region as it lies in the file: everything from the first directory sector to the end
    of the file, cut into entries.  (A conforming reader follows the sector chain instead, see
    `directory`.) -/
def rawDirectory (f : Bytes) : Option (List DirEnt) :=
  (rdLE 4 f 0x30).bind fun st =>
    let bs := f.drop (512 * (st + 1))
    entries (bs.length / 128) bs

/-- The header fields that identify a version 3 compound file with 512-byte sectors. -/
def headerOk (f : Bytes) : Bool :=
  f.take 8 == [0xd0, 0xcf, 0x11, 0xe0, 0xa1, 0xb1, 0x1a, 0xe1] &&
  rdLE 2 f 0x1a == some 3 && rdLE 2 f 0x1c == some 0xFFFE && rdLE 2 f 0x1e == some 9 &&
  rdLE 2 f 0x20 == some 6 && rdLE 4 f 0x38 == some 0x1000

/-- The contents of the stream `name` in the root storage.  Streams of at least 4096 bytes live in
    ordinary sectors; smaller ones would be in the mini stream, which this reader does not support. -/
def readStream (f : Bytes) (name : List Nat) : Option Bytes :=
  if headerOk f then
    (fat f).bind fun t =>
    (directory f t).bind fun es =>
    (es[0]?).bind fun root =>
    if root.typ = 5 then
      (find es name es.length root.child).bind fun e =>
      if e.typ = 2 ∧ 0x1000 ≤ e.size then
        (chainBytes f t e.start).bind fun bs =>
          if e.size ≤ bs.length then some (bs.take e.size) else none
      else none
    else none
  else none

end Xls.Cfb
