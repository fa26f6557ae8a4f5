import Verif.Life.Model
import Verif.Live.Props
import Verif.Again.Shapes
/-
What calls, properties and saves in any order ask for.
-/
namespace Xls.Life
open Xls.Biff Xls.Whole
open Xls.Desk (names Remarks ArrangedFrom)
open Xls.Live (plain Kept)

/-- The calls, without properties and saves. -/
def calls (evs : List Event) : List Live.Call :=
  evs.filterMap fun
    | .call c => some c
    | _ => none

/-- The names of the sheets in the order in which they are made. -/
def sheetNames (p : List Live.Call) : List (List UInt16) :=
  p.filterMap fun
    | .other (.desk (.sheet n)) => some n
    | _ => none

/-- For each save that can write: the calls and the properties before it. -/
def saves (before : List Live.Call) (props : List (Nat × Bytes)) : List Event → List (List Live.Call × List (Nat × Bytes))
  | [] => []
  | .call c :: r => saves (before ++ [c]) props r
  | .property k t :: r => saves before (props ++ [(k, t)]) r
  | .save opens _ :: r => if opens = true ∧ sheetNames before ≠ [] then (before, props) :: saves before props r else saves before props r

/-- The frame of C68: all calls but those on cells, and the places of cells. -/
abbrev frame (p : List Live.Call) : List Desk.Call := (plain p).flatMap Area.frame

/-- The calls before a save are within the conditions of C70, and the properties fit. -/
structure Within (p0 : Prog.State) (time : Nat) (pkg : Bytes) (c : List Live.Call × List (Nat × Bytes)) : Prop where
  fine : Area.Fine (Desk.start p0) Prog.nothing (plain c.1)
  modest : Prog.Modest (Area.asked (Desk.start p0) Prog.nothing (plain c.1))
  formats : ∀ s, Live.steps ⟨Desk.start p0, []⟩ c.1 = some s → s.desk.prog.look.styles.xfs.length ≤ 65536
  room : ∀ r0 r, Hpsf.Props.init time pkg = some r0 → r0.run c.2 = some r → Hpsf.need r.summary ≤ 4096 ∧ Hpsf.need r.doc ≤ 4096

/-- What a reader of a file finds: the workbook as these calls ask for it, with shapes counted from `first` on, the properties, and the times: both that of
    the creation and that of the last save are the time at which the workbook was made, in 100 ns since 1601. -/
def Readable (ar : Nat → Option Nat) (p0 : Prog.State) (time : Nat) (pkg : Bytes) (first : Nat → Nat) (c : List Live.Call × List (Nat × Bytes)) (f : Bytes) : Prop :=
  ∃ w ws wd S T, Cfb.readStream f (Ole.nameUnits Ole.workbookNames[0]) = some w ∧
    Kept ar c.1 (sheetNames c.1) w ∧ Prog.Found ar (Area.asked (Desk.start p0) Prog.nothing (plain c.1)) (sheetNames c.1) w ∧ ArrangedFrom first (frame c.1) w ∧
    Cfb.readStream f (Ole.nameUnits Ole.workbookNames[1]) = some ws ∧ Spec.PropSet.read ws = some (Spec.PropSet.fmtidSummary, S) ∧
    Cfb.readStream f (Ole.nameUnits Ole.workbookNames[2]) = some wd ∧ Spec.PropSet.read wd = some (Spec.PropSet.fmtidDocSummary, T) ∧
    (∀ kind d id, Spec.PropSet.place kind = some (d, id) → Spec.PropSet.valueOf id (if d then T else S) = (Hpsf.expected pkg c.2 kind).map .lpstr) ∧
    Spec.PropSet.valueOf 12 S = some (.filetime ((time + 11644473600) * 10000000)) ∧
    Spec.PropSet.valueOf 13 S = some (.filetime ((time + 11644473600) * 10000000))

/-- What is claimed of one save: `first` and `next` are the numbers up to which shapes were counted before and after. -/
structure Saved (ar : Nat → Option Nat) (cs : WCell → Nat) (p0 : Prog.State) (time : Nat) (pkg : Bytes) (c : List Live.Call × List (Nat × Bytes)) (o : Output)
    (first next : Nat → Nat) : Prop where
  /-- shapes are counted on -/
  counts : ∀ i, ∃ n, Remarks i (frame c.1) n ∧ next i = if n = 0 then first i else (first i + n + 1) % 2 ^ 32
  /-- without earlier shapes, earlier saves leave no trace in the workbook stream -/
  fresh : (∀ i, first i = 0) → ∃ s fuel, Live.steps ⟨Desk.start p0, []⟩ c.1 = some s ∧ Live.units cs fuel s = some o.wb
  /-- the file is complete and everything is found in it -/
  file : Ole.dataSize o.wb + 8192 < 2 ^ 31 - 12288 →
    ∃ f, Ole.CompleteFile (Ole.workbookFiles o.wb [o.summary] [o.doc]) f ∧ Readable ar p0 time pkg first c f

end Xls.Life
