import Verif.Desk.Model
import Verif.Palette.Spec
import Verif.Note.Group
import Verif.Page.Spec
import Verif.Save.File
import Verif.Cells.Props
/-
What a program asks for of the workbook as a whole, and how a reader finds it.  The readers are written from the file format.
-/
namespace Xls.Desk
open Xls.Biff Xls.Save
open Xls.Page (Act latest)

/-! ### Reading -/

/-- A 16-bit number with sign. -/
def signed (n : Nat) : Int := if n < 32768 then n else (n : Int) - 65536

/-- The window of a workbook: position and size in twips (twentieths of a point); the parts it has; the active sheet, the first tab, the number of
    selected sheets, and the share of the tab bar in thousandths. -/
structure Window where
  x : Int
  y : Int
  width : Int
  height : Int
  hidden : Bool
  iconic : Bool
  hscroll : Bool
  vscroll : Bool
  tabs : Bool
  active : Nat
  first : Nat
  selected : Nat
  tabRatio : Nat
deriving Repr, DecidableEq

/-- WINDOW1 ([MS-XLS] 2.4.345). -/
def readWindow1 (p : Bytes) : Option Window :=
  (takeLE 2 p).bind fun (x, p) => (takeLE 2 p).bind fun (y, p) => (takeLE 2 p).bind fun (w, p) => (takeLE 2 p).bind fun (h, p) =>
  (takeLE 2 p).bind fun (f, p) => (takeLE 2 p).bind fun (a, p) => (takeLE 2 p).bind fun (t, p) => (takeLE 2 p).bind fun (n, p) =>
  (takeLE 2 p).bind fun (r, p) =>
    if p = [] then
      some ⟨signed x, signed y, signed w, signed h, f % 2 == 1, f / 2 % 2 == 1, f / 2 ^ 3 % 2 == 1, f / 2 ^ 4 % 2 == 1, f / 2 ^ 5 % 2 == 1, a, t, n, r⟩
    else none

/-- STYLE (2.4.269) of a built-in style: XF number, type ([MS-XLS] 2.4.269: 0 normal, 3 comma, 4 currency, 5 percent, 6 comma without decimals, 7 currency
    without decimals), level. -/
def readStyle (p : Bytes) : Option (Nat × Nat × Nat) :=
  (takeLE 2 p).bind fun (i, p) => (takeLE 1 p).bind fun (t, p) => (takeLE 1 p).bind fun (l, p) =>
    if p = [] ∧ i / 2 ^ 15 = 1 then some (i % 2 ^ 12, t, l) else none

/-- The number format that belongs to a built-in style ([MS-XLS] 2.5.165 for the numbers: 0 General, 9 0%, 41-44 with and without currency sign and decimals). -/
def formatOf : Nat → Option Nat
  | 0 => some 0
  | 3 => some 43
  | 4 => some 44
  | 5 => some 9
  | 6 => some 41
  | 7 => some 42
  | _ => none

/-- What belongs to a workbook as a whole: the code page of texts, where dates begin, the window, the colours, the built-in styles, and what is
    said of the drawings on all sheets. -/
structure Desk where
  codepage : Nat
  date1904 : Bool
  window : Window
  colors : List (Nat × Nat × Nat)
  styles : List (Nat × Nat × Nat)
  group : Option Spec.Group

/-- The payload of a record that must be there once. -/
def single (t : Nat) (G : List Rec) : Option Bytes :=
  match Look.ofType t G with
  | [p] => some p
  | _ => none

/-- The MSODRAWINGGROUP record (0xEB), if there is one. -/
def groupOf (G : List Rec) : Option (Option Spec.Group) :=
  match Look.ofType 0xEB G with
  | [] => some none
  | [p] => (Spec.readGroup p).map some
  | _ => none

/-- A number of two bytes. -/
def word (p : Bytes) : Option Nat := (takeLE 2 p).bind fun (n, p) => if p = [] then some n else none

def openDesk (w : Bytes) : Option Desk :=
  (readSub w).bind fun G =>
  ((single 0x42 G).bind word).bind fun codepage => ((single 0x22 G).bind word).bind fun date =>
  ((single 0x3D G).bind readWindow1).bind fun window => ((single 0x92 G).bind Palette.readPalette).bind fun colors =>
  ((Look.ofType 0x293 G).mapM readStyle).bind fun styles => (groupOf G).map fun group =>
    ⟨codepage, date == 1, window, colors, styles, group⟩

/-- The used range of each sheet: first row, last row + 1, first column, last column + 1 (DIMENSION, [MS-XLS] 2.4.90). -/
def openDims (w : Bytes) : Option (List (List UInt16 × (Nat × Nat × Nat × Nat))) :=
  (openBook w).bind fun l => l.mapM fun p => ((Page.once 0x200 (Page.logical p.2)).bind Cells.readDimension).map (p.1, ·)

/-- The drawing of a sheet: what its MSODRAWING records (0xEC) hold together, if there are any. -/
def drawingOf (L : List (Nat × List Bytes)) : Option (Option Spec.Drawing) :=
  if Page.ofType 0xEC L = [] then some none else (Spec.readDrawing (Page.ofType 0xEC L).flatten).map some

/-- The drawing of each sheet. -/
def openDrawings (w : Bytes) : Option (List (List UInt16 × Option Spec.Drawing)) :=
  (openBook w).bind fun l => l.mapM fun p => (drawingOf (Page.logical p.2)).map (p.1, ·)

/-! ### What the calls ask for -/

def Call.name : Call → Option (List UInt16)
  | .sheet n => some n
  | _ => none

def Call.active : Call → Option Nat
  | .makeActive i => some i
  | _ => none

def Call.at : Call → Option (Nat × Nat)
  | .position h v => some (h.toNat, v.toNat)
  | _ => none

def Call.extent : Call → Option (Nat × Nat)
  | .size w h => some (w.toNat, h.toNat)
  | _ => none

def Call.tab : Call → Option Nat
  | .firstTab v => some v.toNat
  | _ => none

def Call.ratio : Call → Option Nat
  | .tabBarWidth v => some v.toNat
  | _ => none

def Call.colour : Call → Option Palette.Call
  | .color k => some k
  | _ => none

def Call.inner : Call → Option Prog.Call
  | .on c => some c
  | _ => none

/-- A cell or comment put on sheet `i`: row and column. -/
def Call.spot (i : Nat) : Call → Option (Nat × Nat)
  | .on (.look (.put j row col _ _)) => if j = i then some (row, col) else none
  | .on (.page j (.comment r c _ _)) => if j = i then some (r.toNat, c.toNat) else none
  | _ => none

/-- A comment put on sheet `i`. -/
def Call.isRemark (i : Nat) : Call → Bool
  | .on (.page j (.comment ..)) => j == i
  | _ => false

/-- The names of the sheets, in the order in which they were made. -/
def names (calls : List Call) : List (List UInt16) := calls.filterMap Call.name

/-- Each call on a sheet comes after the sheet was made; `n` sheets are there already. -/
def Possible : Nat → List Call → Prop
  | _, [] => True
  | n, .sheet _ :: r => Possible (n + 1) r
  | n, c :: r => (∀ i, target c = some i → i < n) ∧ Possible n r

/-- The window is where and as large as last asked: 0, 0 and 715, 484 points at the beginning. -/
def Placed (calls : List Call) (W : Window) : Prop :=
  (W.x, W.y) = (20 * (((latest Call.at calls).getD (0, 0)).1 : Int), 20 * (((latest Call.at calls).getD (0, 0)).2 : Int)) ∧
  (W.width, W.height) = (20 * (((latest Call.extent calls).getD (715, 484)).1 : Int), 20 * (((latest Call.extent calls).getD (715, 484)).2 : Int))

/-- Position and size in points are at most 1638: twentieths of a point in 16 bits with sign. -/
def InView (calls : List Call) : Prop :=
  ((latest Call.at calls).getD (0, 0)).1 ≤ 1638 ∧ ((latest Call.at calls).getD (0, 0)).2 ≤ 1638 ∧
  ((latest Call.extent calls).getD (715, 484)).1 ≤ 1638 ∧ ((latest Call.extent calls).getD (715, 484)).2 ≤ 1638

/-- The rest of the window: it can be seen, with scroll bars and tabs; the sheet last made active, the first at the beginning; it alone is selected; the
    first tab; the tab bar, limited to 1000. -/
structure WindowAsked (calls : List Call) (W : Window) : Prop where
  shown : W.hidden = false ∧ W.iconic = false ∧ W.hscroll = true ∧ W.vscroll = true ∧ W.tabs = true
  active : W.active = (latest Call.active calls).getD 0
  first : W.first = (latest Call.tab calls).getD 0
  selected : W.selected = 1
  tabRatio : W.tabRatio = min 1000 ((latest Call.ratio calls).getD 500)

/-- What is said of the drawings: nothing when no sheet has comments; otherwise how many sheets have a drawing and how many shapes are in each (one more than
    comments), and, when no sheet has more than 999, the largest identifier: sheet `i` (from 0) with `c` comments has those from
    `(i + 1) * 1000 + 24` on. -/
def GroupSaid (counts : List Nat) : Option Spec.Group → Prop
  | none => ∀ c ∈ counts, c = 0
  | some g => (∃ c ∈ counts, c ≠ 0) ∧ Note.Describes counts g ∧ ((∀ c ∈ counts, c ≤ 999) →
      (∃ i c, counts[i]? = some c ∧ c ≠ 0 ∧ g.maxId = (i + 1) * 1000 + 24 + c) ∧
      ∀ i c j, counts[i]? = some c → c ≠ 0 → j ≤ c → (i + 1) * 1000 + 24 + j ≤ g.maxId)

/-- The drawing of sheet `i` (from 0) with `n` comments: none without comments; otherwise a shape for each and one for the group, numbered from
    `(i + 1) * 1000 + 24 + first` on. -/
def Drawn (i first n : Nat) : Option Spec.Drawing → Prop
  | none => n = 0
  | some d => n ≠ 0 ∧ d.count = n + 1 ∧ d.ids = (List.range (n + 1)).map (fun j => ((i + 1) * 1000 + 24 + first + j) % 2 ^ 32) ∧ d.ids.getLast? = some d.last

/-- A comment put on sheet `i`: where. -/
def remarkAt (i : Nat) : Call → Option (Nat × Nat)
  | .on (.page j (.comment r c _ _)) => if j = i then some (r.toNat, c.toNat) else none
  | _ => none

/-- So many places of sheet `i` have a comment. -/
def Remarks (i : Nat) (calls : List Call) (n : Nat) : Prop :=
  ∃ l : List (Nat × Nat), l.Nodup ∧ (∀ p, p ∈ l ↔ p ∈ calls.filterMap (remarkAt i)) ∧ l.length = n

/-- The smallest range that holds all these places. -/
structure Bounds (ps : List (Nat × Nat)) (d : Nat × Nat × Nat × Nat) : Prop where
  holds : ∀ p ∈ ps, d.1 ≤ p.1 ∧ p.1 < d.2.1 ∧ d.2.2.1 ≤ p.2 ∧ p.2 < d.2.2.2
  top : ∃ p ∈ ps, p.1 = d.1
  bottom : ∃ p ∈ ps, p.1 + 1 = d.2.1
  left : ∃ p ∈ ps, p.2 = d.2.2.1
  right : ∃ p ∈ ps, p.2 + 1 = d.2.2.2

end Xls.Desk
