import Verif.Ole.Model
/-
The file system inside a compound file, used with any paths: directories below directories, names
that exist already, parents that are missing or are files (olefs.cpp).  `addFile`, `addDirectory`,
`addNode` and `getAllNodes` are those of `Verif/Ole/Model.lean`; this file adds the look-up and
programs of calls.
-/
namespace Xls.Dir
open Xls.Ole

/-- `SearchNode`, olefs.cpp 87-109.  The outer loop runs over all remaining path components, the inner
    one over the children; the first component that names a child decides, but it is always the
    *front* of the path that is removed (95-96).  The result is the node `node_level` points to when 0
    is returned; `none` is the result `FS_INVALID_PATH`. -/
def searchNode : List Bytes → Node → Option Node
  | [], _ => none
  | p :: rest, .mk _ kids =>
    match (p :: rest).findSome? (fun nm => kids.find? (fun k => k.e.name == nm)) with
    | none => none
    | some k => if rest.isEmpty then some k else searchNode rest k

/-- `GetNode`, olefs.cpp 71-85. -/
def getNode (fs : Fs) (path : Bytes) : Option Entry :=
  (searchNode (stringtok path) fs.root).map Node.e

/-- A call of the file system. -/
inductive Op where
  | dir (path : Bytes)
  | file (path : Bytes) (units : List Bytes)
deriving DecidableEq

/-- `AddDirectory` or `AddFile`, olefs.cpp 111-191. -/
def call (fs : Fs) : Op → FsRes
  | .dir p => addDirectory fs p
  | .file p us => addFile fs p us

/-- A program: the calls one after the other, whatever they return, olefs.cpp 111-191.  The codes
    returned and the file system afterwards; `none` when a call has undefined behaviour. -/
def runFrom : Fs → List Op → Option (List Int × Fs)
  | fs, [] => some ([], fs)
  | fs, o :: r =>
    match call fs o with
    | .ub => none
    | .err c => (runFrom fs r).map fun x => (c :: x.1, x.2)
    | .ok fs' => (runFrom fs' r).map fun x => (0 :: x.1, x.2)

/-- A program starting with a new file system, olefs.cpp 48-65. -/
def run (os : List Op) : Option (List Int × Fs) := runFrom Fs.init os

/-- `GetNumDataFiles`, olefs.cpp 307-321. -/
def numDataFiles (fs : Fs) : Nat := ((getAllNodes fs).filter fun e => e.typ == 2).length

end Xls.Dir
