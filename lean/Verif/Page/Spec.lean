import Verif.Sheet.LinkProps
import Verif.Note.Spec
/-
How a reader gets from the records of a sheet's substream what belongs to the sheet besides its cells: default sizes, column widths, merged
rectangles, frozen panes, hyperlinks, data validations and comments.  Written from the file format.
-/
namespace Xls.Page
open Xls.Biff Xls.Sheet

/-- Put every CONTINUE record (0x3C) to the record it continues ([MS-XLS] 2.4.58); first the continuations without such a record. -/
def pieces : List Rec → List Bytes × List (Nat × List Bytes)
  | [] => ([], [])
  | (t, p) :: r => if t = 0x3C then (p :: (pieces r).1, (pieces r).2) else ([], (t, p :: (pieces r).1) :: (pieces r).2)

def logical (R : List Rec) : List (Nat × List Bytes) := (pieces R).2

/-- The payloads of the records of a type. -/
def ofType (t : Nat) (L : List (Nat × List Bytes)) : List Bytes := (L.filter fun r => r.1 == t).map fun r => r.2.flatten

/-- The payload of a record that must be there once. -/
def once (t : Nat) (L : List (Nat × List Bytes)) : Option Bytes :=
  match ofType t L with
  | [p] => some p
  | _ => none

/-- DEFAULTROWHEIGHT ([MS-XLS] 2.4.87): height in twips, and bit 1 of the flags: rows are hidden unless said otherwise. -/
def readDefRow (p : Bytes) : Option (Nat × Bool) :=
  (takeLE 2 p).bind fun (f, p) => (takeLE 2 p).bind fun (h, p) => if p = [] then some (h, f / 2 % 2 == 1) else none

/-- DEFCOLWIDTH (2.4.89). -/
def readDefCol (p : Bytes) : Option Nat := (takeLE 2 p).bind fun (w, p) => if p = [] then some w else none

/-- WINDOW2 (2.4.346): bit 3 of the flags: panes are frozen; bit 9: the sheet's tab is selected; bit 10: the sheet is displayed. -/
def readWindow (p : Bytes) : Option (Bool × Bool × Bool) :=
  if p.length = 18 then (rdLE 2 p 0).map fun f => (f / 2 ^ 3 % 2 == 1, f / 2 ^ 9 % 2 == 1, f / 2 ^ 10 % 2 == 1) else none

/-- How a sheet is looked at: formulas instead of their values, grid lines, row and column headings, zeros, right to left, outline symbols, preview of page
    breaks; the first row and column shown, the colour of the grid lines (64: the system's), and the zoom in both views (0: as usual). -/
structure View where
  formulas : Bool
  grid : Bool
  headings : Bool
  zeros : Bool
  rightToLeft : Bool
  outline : Bool
  preview : Bool
  topRow : Nat
  leftCol : Nat
  gridColor : Nat
  zoomPreview : Nat
  zoom : Nat
deriving Repr, DecidableEq

/-- WINDOW2 (2.4.346). -/
def readView (p : Bytes) : Option View :=
  if p.length = 18 then
    (rdLE 2 p 0).bind fun f => (rdLE 2 p 2).bind fun t => (rdLE 2 p 4).bind fun l => (rdLE 2 p 6).bind fun c => (rdLE 2 p 10).bind fun zp => (rdLE 2 p 12).map fun z =>
      ⟨f.testBit 0, f.testBit 1, f.testBit 2, f.testBit 4, f.testBit 6, f.testBit 7, f.testBit 11, t, l, c, zp, z⟩
  else none

/-- Frozen panes: so many rows at the top and columns at the left stay; the first row below and column right of them; the active pane
    (0 bottom right, 1 top right, 2 bottom left, 3 top left). -/
structure Frozen where
  rows : Nat
  cols : Nat
  topRow : Nat
  leftCol : Nat
  active : Nat
deriving Repr, DecidableEq

/-- PANE (2.4.189) of a sheet whose panes are frozen. -/
def readPane (p : Bytes) : Option Frozen :=
  (takeLE 2 p).bind fun (x, p) => (takeLE 2 p).bind fun (y, p) => (takeLE 2 p).bind fun (t, p) => (takeLE 2 p).bind fun (l, p) =>
    (takeLE 2 p).bind fun (a, p) => if p = [] then some ⟨y, x, t, l, a⟩ else none

/-- No PANE record or one, if the panes are frozen. -/
def paneOf (frozen : Bool) : List Bytes → Option (Option Frozen)
  | [] => some none
  | [p] => if frozen then (readPane p).map some else none
  | _ => none

/-- A comment. -/
structure Comment where
  row : Nat
  col : Nat
  author : List UInt16
  shown : List UInt16
deriving Repr, DecidableEq

/-- The texts of the comment boxes by object number: each OBJ record (0x5D) with the TXO record (0x1B6) after it. -/
def boxes : List (Nat × List Bytes) → Option (List (Nat × List UInt16))
  | [] => some []
  | [_] => none
  | (t, o) :: (u, x) :: rest =>
    match o, x with
    | [obj], [txo, chars, runs] =>
      (Spec.readComment [(0xEC, []), (t, obj), (0xEC, []), (u, txo), (0x3C, chars), (0x3C, runs)]).bind fun s =>
        (boxes rest).map ((s.object, s.text) :: ·)
    | _, _ => none

/-- The comments: the NOTE records (0x1C), each with the text of the object it names. -/
def comments (L : List (Nat × List Bytes)) : Option (List Comment) :=
  (boxes (L.filter fun r => r.1 == 0x5D || r.1 == 0x1B6)).bind fun b => (ofType 0x1C L).mapM fun p =>
    (Spec.readNote p).bind fun n => (b.lookup n.object).map fun t => ⟨n.row, n.col, n.author, t⟩

/-- How the text of a comment is set: where in the box across (1 left, 2 centred, 3 right) and down (1 top, 2 centred, 3 bottom), how it is turned
    (0: not at all), and from which character on in which font; the last entry ends the text. -/
structure Lettering where
  across : Nat
  down : Nat
  turned : Nat
  runs : List (Nat × Nat)
deriving Repr, DecidableEq

/-- The same by object number: TXO (2.4.329) begins with the flags and the rotation. -/
def letterings : List (Nat × List Bytes) → Option (List (Nat × Lettering))
  | [] => some []
  | [_] => none
  | (t, o) :: (u, x) :: rest =>
    match o, x with
    | [obj], [txo, chars, runs] =>
      (Spec.readComment [(0xEC, []), (t, obj), (0xEC, []), (u, txo), (0x3C, chars), (0x3C, runs)]).bind fun s =>
        (rdLE 2 txo 0).bind fun f => (rdLE 2 txo 2).bind fun r => (letterings rest).map ((s.object, ⟨f / 2 % 8, f / 16 % 8, r, s.runs⟩) :: ·)
    | _, _ => none

/-- How the text of the comment on a cell is set. -/
structure Lettered where
  row : Nat
  col : Nat
  how : Lettering
deriving Repr, DecidableEq

/-- The NOTE records, each with the setting of the object it names. -/
def lettered (L : List (Nat × List Bytes)) : Option (List Lettered) :=
  (letterings (L.filter fun r => r.1 == 0x5D || r.1 == 0x1B6)).bind fun b => (ofType 0x1C L).mapM fun p =>
    (Spec.readNote p).bind fun n => (b.lookup n.object).map fun t => ⟨n.row, n.col, t⟩

/-- The box of the comment on a cell. -/
structure Boxed where
  row : Nat
  col : Nat
  box : Spec.Box
deriving Repr, DecidableEq

/-- The boxes of the comments: the drawing (in the MSODRAWING records, 0xEC) has a box for each object, in the order of the OBJ records (0x5D); each NOTE
    record (0x1C) names its object. -/
def boxed (L : List (Nat × List Bytes)) : Option (List Boxed) :=
  (if ofType 0xEC L = [] then some [] else Spec.readBoxes (ofType 0xEC L).flatten).bind fun b =>
  ((ofType 0x5D L).mapM fun p => rdLE 2 p 6).bind fun o =>
    if b.length = o.length then (ofType 0x1C L).mapM fun p => (Spec.readNote p).bind fun n => ((o.zip b).lookup n.object).map fun x => ⟨n.row, n.col, x⟩
    else none

/-- What belongs to a sheet besides its cells and the heights of its rows. -/
structure Page where
  rowHeight : Nat
  rowsHidden : Bool
  colWidth : Nat
  columns : List (Nat × Nat × Nat × Nat)
  merged : List Rect
  selected : Bool
  displayed : Bool
  pane : Option Frozen
  links : List Link
  validations : List DVRead
  comments : List Comment
  boxes : List Boxed
  view : View
  letters : List Lettered

/-- Reading it.  The DVAL record (0x1B2) must be there exactly if there are validations, and give their number. -/
def readPage (R : List Rec) : Option Page :=
  (once 0x225 (logical R)).bind fun p => (readDefRow p).bind fun (rowHeight, rowsHidden) =>
  (once 0x55 (logical R)).bind fun p => (readDefCol p).bind fun colWidth =>
  ((ofType 0x7D (logical R)).mapM readColInfo).bind fun columns =>
  ((ofType 0xE5 (logical R)).mapM readMerged).bind fun merged =>
  (once 0x23E (logical R)).bind fun p => (readWindow p).bind fun (frozen, selected, displayed) => (readView p).bind fun view =>
  (paneOf frozen (ofType 0x41 (logical R))).bind fun pane =>
  ((ofType 0x1B8 (logical R)).mapM readLink).bind fun links =>
  ((ofType 0x1BE (logical R)).mapM readDV).bind fun validations =>
  (comments (logical R)).bind fun comments =>
  (boxed (logical R)).bind fun boxes =>
  (lettered (logical R)).bind fun letters =>
    if (ofType 0x1B2 (logical R)).map (fun p => rdLE 4 p 14) = if validations = [] then [] else [some validations.length] then
      some ⟨rowHeight, rowsHidden, colWidth, columns, merged.flatten, selected, displayed, pane, links, validations, comments, boxes, view, letters⟩
    else none

/-! ### What the calls ask for -/

/-- What a program can do to a comment that it has put on a cell: `SetFillColor` and `SetNoteRect`. -/
inductive Edit where
  | fill (red green blue : UInt8)
  | place (p : Spec.Place)

/-- The calls on a sheet that do not concern cells: those of `Sheet.Call`, the default row height with `hidden`, `SplitWindow`, `note`, and calls on the comment
    that a cell now has (nothing happens when it has none; no program can make such a call). -/
inductive Act where
  | call (c : Call)
  | defRow (height : UInt16) (hidden : Bool)
  | split (rows cols : UInt16)
  | comment (row col : UInt32) (author text : List UInt16)
  | box (row col : UInt32) (e : Edit)

/-- The last answer that a list of calls gives. -/
def latest {β γ : Type} (f : β → Option γ) : List β → Option γ
  | [] => none
  | a :: r => (latest f r).or (f a)

def Act.rowHeight : Act → Option (Nat × Bool)
  | .call (.defRowHeight h) => some (h.toNat, false)
  | .defRow h b => some (h.toNat, b)
  | _ => none

def Act.colWidth : Act → Option Nat
  | .call (.defColWidth w) => some w.toNat
  | _ => none

def Act.column (col : Nat) : Act → Option (Nat × Option Nat)
  | .call (.colwidth c w x) => if c.toNat = col then some (w.toNat, x) else none
  | _ => none

def Act.merge : Act → Option Rect
  | .call (.merge r1 c1 r2 c2) => some ⟨r1.toNat, r2.toNat, c1.toNat, c2.toNat⟩
  | _ => none

def Act.link : Act → Option Link
  | .call (.hyperLink r c u m) => some ⟨r.toNat, c.toNat, u, m⟩
  | _ => none

def Act.validation : Act → Option DVRead
  | .call (.validate v) => some ⟨v.options, v.promptTitle, v.errorTitle, v.promptText, v.errorText, condTokens v.cond1, condTokens v.cond2, [v.rect]⟩
  | _ => none

def Act.freeze : Act → Option (Nat × Nat)
  | .split r c => some (r.toNat, c.toNat)
  | _ => none

/-- The characters of a text in ASCII. -/
def ascii (s : List Char) : List UInt16 := s.map fun c => .ofNat c.toNat

/-- The author shown: a name of 1 to 54 characters is shown as given; instead of any other there is a message. -/
def signed (a : List UInt16) : List UInt16 :=
  if 1 ≤ a.length ∧ a.length ≤ 54 then a else ascii "Author Must Be 1 to 54chars long".toList

/-- The text shown: likewise, of 1 to 2048 characters. -/
def worded (t : List UInt16) : List UInt16 :=
  if 1 ≤ t.length ∧ t.length ≤ 2048 then t else ascii "Text Must Be 1 to 2048chars long".toList


def Act.remark (row col : Nat) : Act → Option (List UInt16 × List UInt16)
  | .comment r c a t => if r.toNat = row ∧ c.toNat = col then some (signed a, worded t) else none
  | _ => none

/-- How many lines to leave for the line breaks: one for each, and one more for each that follows another. -/
def breaks (t : List UInt16) : Nat := t.count 10 + (t.zip t.tail).count (10, 10)

/-- How many rows high the box of a comment would be with two columns: one for the author and one more, and one for each 22 characters or two line breaks. -/
def need (a t : List UInt16) : Nat := 2 + ((a.length + t.length + 2) / 11 + breaks t + 1) / 2

/-- How often to halve a height to get at most 20. -/
def halvings (n : Nat) : Nat := ((List.range 17).find? fun k => n / 2 ^ k ≤ 20).getD 0

/-- Where the box of a comment is put: from the next column and the cell's row on; each halving of the height doubles the width. -/
def beside (row col : Nat) (a t : List UInt16) : Spec.Place :=
  ⟨3, .ofNat (col + 1), 205, .ofNat row, 39, .ofNat (col + 1 + 2 * 2 ^ halvings (need a t)), 123, .ofNat (row + need a t / 2 ^ halvings (need a t)), 59⟩

/-- The colour of a comment's box: that of tips (the system's colour 80) until another is given. -/
def Act.tint (row col : Nat) : Act → Option Nat
  | .comment r c _ _ => if r.toNat = row ∧ c.toNat = col then some 0x08000050 else none
  | .box r c (.fill red green blue) => if r.toNat = row ∧ c.toNat = col then some (red.toNat + 256 * green.toNat + 65536 * blue.toNat) else none
  | _ => none

/-- The place of a comment's box: beside the cell until another is given. -/
def Act.lie (row col : Nat) : Act → Option Spec.Place
  | .comment r c a t => if r.toNat = row ∧ c.toNat = col then some (beside row col (signed a) (worded t)) else none
  | .box r c (.place p) => if r.toNat = row ∧ c.toNat = col then some p else none
  | _ => none

/-- The panes for `rows` rows and `cols` columns frozen. -/
def panes : Option (Nat × Nat) → Option Frozen
  | none => none
  | some (0, 0) => none
  | some (0, c) => some ⟨0, c, 0, c, 1⟩
  | some (r, 0) => some ⟨r, 0, r, 0, 2⟩
  | some (r, c) => some ⟨r, c, r, c, 0⟩

/-- The page is what the calls asked for: the settings last given (15 points, not hidden, and 10 characters at the beginning); the columns that were
    given a width, in order, with the width and format last given; all rectangles, links and validations in the order of the calls; the panes
    last frozen; in row-major order the comments last put on each cell, shown as author, colon, line feed and text (if these are of the right lengths); and for each of them a box with the
    colour and at the place last given, its text at the left and top, not turned, the author in font 1 and the rest in font 0.  A sheet is looked at from its
    first cell, with grid lines, headings, zeros and outline symbols, and at the usual zoom: no call asks for anything else. -/
structure Asked (acts : List Act) (P : Page) : Prop where
  rowHeight : P.rowHeight = 20 * ((latest Act.rowHeight acts).getD (15, false)).1
  rowsHidden : P.rowsHidden = ((latest Act.rowHeight acts).getD (15, false)).2
  colWidth : P.colWidth = (latest Act.colWidth acts).getD 10
  colOrder : P.columns.Pairwise fun a b => a.1 < b.1
  columns : ∀ f l w x, (f, l, w, x) ∈ P.columns ↔ l = f ∧ ∃ y, latest (Act.column f) acts = some (w, y) ∧ x = y.getD 15
  merged : P.merged = acts.filterMap Act.merge
  pane : P.pane = panes (latest Act.freeze acts)
  links : P.links = acts.filterMap Act.link
  validations : P.validations = acts.filterMap Act.validation
  commentOrder : P.comments.Pairwise fun a b => a.row < b.row ∨ a.row = b.row ∧ a.col < b.col
  comments : ∀ row col a s, ⟨row, col, a, s⟩ ∈ P.comments ↔ ∃ t, latest (Act.remark row col) acts = some (a, t) ∧ s = a ++ [58, 10] ++ t
  boxOrder : P.boxes.map (fun b => (b.row, b.col)) = P.comments.map fun c => (c.row, c.col)
  boxes : ∀ b ∈ P.boxes, latest (Act.tint b.row b.col) acts = some b.box.fill ∧ latest (Act.lie b.row b.col) acts = some b.box.place
  view : P.view = ⟨false, true, true, true, false, true, false, 0, 0, 64, 0, 0⟩
  letters : P.letters = P.comments.map fun c => ⟨c.row, c.col, ⟨1, 1, 0, [(0, 1), (c.author.length + 2, 0), (c.shown.length, 0)]⟩⟩

end Xls.Page
