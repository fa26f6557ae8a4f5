import Verif.Free.Run
import Verif.Life.Props
import Verif.Mirror.Props
/-
What is claimed of the whole life of a workbook whose formats and fonts are shared, changed in use and taken again at will.
-/
namespace Xls.Free
open Xls.Biff Xls.Whole
open Xls.Desk (Remarks ArrangedBy StylesNamed)
open Xls.Live (plain Kept)
open Xls.Life (Output sheetNames frame Opens)
open Xls.Mirror (Echoed)

/-- The calls before a save hand over existing objects, the texts and the numbers of calls, formats and fonts are within the limits of the file, and the
    properties fit. -/
structure Within (p0 : Prog.State) (time : Nat) (pkg : Bytes) (c : List Live.Call × List (Nat × Bytes)) : Prop where
  can : AllCan (Desk.start p0) Prog.nothing (plain c.1)
  modest : Prog.Modest (Area.asked (Desk.start p0) Prog.nothing (plain c.1))
  numbers : ∀ s, Live.steps ⟨Desk.start p0, []⟩ c.1 = some s → s.desk.prog.look.styles.xfs.length ≤ 65536 ∧ s.desk.prog.look.styles.fonts.length ≤ 65535
  room : ∀ r0 r, Hpsf.Props.init time pkg = some r0 → r0.run c.2 = some r → Hpsf.need r.summary ≤ 4096 ∧ Hpsf.need r.doc ≤ 4096

/-- The list of styles is that of the built-in ones, whose formats are there; if `spared`, they are the formats that belong to these styles, and the format of
    cells without one takes everything from the normal style. -/
def StylesListed (spared : Prop) (xfs : List Bytes) (l : List (Nat × Nat × Nat)) : Prop :=
  l = [(16, 3, 255), (17, 6, 255), (18, 4, 255), (19, 7, 255), (0, 0, 255), (20, 5, 255)] ∧ 21 ≤ xfs.length ∧ (spared → StylesNamed xfs l)

/-- What a reader finds in the workbook stream: the formulas in their final form, all fonts, formats and cells as their getters answer after these calls, and
    all parts arranged as asked, with shapes counted from `first` on; the built-in styles are as they should be unless setters are called on their formats. -/
def Tells (ar : Nat → Option Nat) (p0 : Prog.State) (first : Nat → Nat) (p : List Live.Call) (w : Bytes) : Prop :=
  Kept ar p (sheetNames p) w ∧ ArrangedBy (StylesListed (∀ c ∈ plain p, Spares c)) first (frame p) w ∧
    ∃ s, Live.steps ⟨Desk.start p0, []⟩ p = some s ∧
      Echoed ar s.desk.prog.look.styles (Area.asked (Desk.start p0) Prog.nothing (plain p)).look.codes
        (Area.asked (Desk.start p0) Prog.nothing (plain p)).look.writes (Area.asked (Desk.start p0) Prog.nothing (plain p)).acts (sheetNames p) w

/-- What is claimed of one save: `first` and `next` are the numbers up to which shapes were counted before and after. -/
structure Saved (ar : Nat → Option Nat) (cs : WCell → Nat) (p0 : Prog.State) (time : Nat) (pkg : Bytes) (c : List Live.Call × List (Nat × Bytes)) (o : Output)
    (first next : Nat → Nat) : Prop where
  /-- shapes are counted on -/
  counts : ∀ i, ∃ n, Remarks i (frame c.1) n ∧ next i = if n = 0 then first i else (first i + n + 1) % 2 ^ 32
  /-- without earlier shapes, earlier saves leave no trace in the workbook stream -/
  fresh : (∀ i, first i = 0) → ∃ s fuel, Live.steps ⟨Desk.start p0, []⟩ c.1 = some s ∧ Live.units cs fuel s = some o.wb
  /-- the file is complete, and the workbook, the properties and the times are found in it -/
  file : Ole.dataSize o.wb + 8192 < 2 ^ 31 - 12288 →
    ∃ f, Ole.CompleteFile (Ole.workbookFiles o.wb [o.summary] [o.doc]) f ∧ Opens time pkg c.2 (Tells ar p0 first c.1) f

end Xls.Free
