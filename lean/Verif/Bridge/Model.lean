import Verif.Life.Model
import Verif.Text.Model
/-
The C interface (cbridge.cpp): functions that take C strings and pointers to objects and call the methods of the C++ classes.

* A C string is a pointer into memory: nothing (NULL), or what is stored from there to the end of the array.  Reading beyond the end is undefined.
* Sheets, fonts, formats and formula objects are known by their numbers, as in Verif/Life/Model.lean.  The cells of links, references and validations are known by
  their places (a pointer to a cell that exists is what `xlsWorksheetFindCell` returns for its place); the setters name the number of the cell.
* `xlsWorkbookxFormatFont` is `xlsWorkbookxFormat` followed by `xlsXformatSetFont` (workbook.cpp 210-216).  The format argument of comments is NULL.  The encoding
  that `xlsWorkbookIconvInType` sets is part of `Build` and does not change.
* The functions that only return something are not here; those of the C++ classes are in Verif/Ask/Model.lean.
-/
namespace Xls.Bridge
open Xls.Biff Xls.Whole

/-- A pointer to characters of type `α`. -/
abbrev Ptr (α : Type) := Option (List α)

/-- `std::string str = p` and `ustring str = p`: the characters before the first zero, cbridge.cpp 61, 66 and so on.  `none` is undefined: NULL, or no zero. -/
def cstr {α : Type} [BEq α] [OfNat α 0] : Ptr α → Option (List α)
  | none => none
  | some m => if m.contains 0 then some (m.takeWhile (· != 0)) else none

/-- `for (i = 0; i < count; i++) str += text[i]`, cbridge.cpp 196-211. -/
def chars {α : Type} (count : Nat) : Ptr α → Option (List α)
  | none => if count = 0 then some [] else none
  | some m => if count ≤ m.length then some (m.take count) else none

/-- A text of either kind: of the functions in pairs, the one without and the one with `W` at the end. -/
inductive CText where
  | narrow (p : Ptr UInt8)
  | wide (p : Ptr UInt32)

/-- How texts are converted (Verif/Text/Model.lean). -/
structure Build where
  signed : Bool
  convB : Option (Bytes → Option (List UInt16))
  convW : Option (List UInt32 → Option (List UInt16))

/-- A text argument as the C++ method stores it, globalrec.cpp 751-889. -/
def CText.get (b : Build) : CText → Option (List UInt16)
  | .narrow p => (cstr p).map (Text.char2str16 b.signed b.convB)
  | .wide p => (cstr p).map (Text.wide2str16 b.convW)

/-- `p ? p : ""`, cbridge.cpp 259-262, 277-280, 296-299, 315-318, 326, 333. -/
def CText.getOr (b : Build) : CText → Option (List UInt16)
  | .narrow none => some (Text.char2str16 b.signed b.convB [])
  | .wide none => some (Text.wide2str16 b.convW [])
  | t => t.get b

/-- An array of `count` characters, cbridge.cpp 196-211. -/
def CText.chars (b : Build) (count : Nat) : CText → Option (List UInt16)
  | .narrow p => (Bridge.chars count p).map (Text.char2str16 b.signed b.convB)
  | .wide p => (Bridge.chars count p).map (Text.wide2str16 b.convW)

/-- A cell, by its place. -/
structure Place where
  sheet : Nat
  row : UInt32
  col : UInt32

/-- `xlsFormulaPush…`, cbridge.cpp 170-239. -/
inductive Push
  | boolean (v : Bool)
  | missingArgument
  | error (v : UInt8)
  | numberInt (v : Int32)
  | numberDbl (bits : Nat)
  | numberArray (values : Ptr Nat) (count : Nat)
  | operator (op : Nat)
  | cellReference (c : Place) (opt : Nat)
  | cellAreaReference (ul lr : Place) (opt : Nat)
  | cellReferenceC (c : Place) (opt cls : Nat)
  | cellAreaReferenceC (ul lr : Place) (opt cls : Nat)
  | function (f : Nat)
  | functionV (f n : Nat)
  | functionC (f cls : Nat)
  | functionVC (f n cls : Nat)
  | characterArray (t : CText) (count : Nat)
  | text (t : CText)
  | textArray (ts : Ptr CText) (count : Nat)

/-- The four texts of a validation, cbridge.cpp 249-322. -/
structure Prompts where
  promptTitle : CText
  promptText : CText
  errorTitle : CText
  errorText : CText

/-- The functions of the C interface, cbridge.cpp 57-482. -/
inductive Call
  | workbookSheet (name : CText)
  | workbookFont (name : Ptr UInt8)
  | workbookFormat (name : CText)
  | workbookxFormat
  | workbookProperty (kind : Nat) (s : Ptr UInt8)
  | workbookWindPosition (horz vert : UInt16)
  | workbookWindSize (horz vert : UInt16)
  | workbookFirstTab (tab : UInt16)
  | workbookTabBarWidth (width : UInt16)
  /-- `opens` and `ix` are as in Verif/Life/Model.lean -/
  | workbookDump (filename : Ptr UInt8) (opens : Bool) (ix : Nat → Nat → Nat)
  | makeActive (i : Nat)
  | splitWindow (i : Nat) (row col : UInt16)
  | merge (i : Nat) (firstRow firstCol lastRow lastCol : UInt32)
  | colwidth (i : Nat) (col : UInt32) (width : UInt16) (q : Option Nat)
  | rowheight (i : Nat) (row : UInt32) (height : UInt16) (q : Option Nat)
  /-- `xlsWorksheetRangegroup`, and `xlsRangeCellcolor` on the range -/
  | rangeCellcolor (i : Nat) (row1 col1 row2 col2 : UInt32) (color : Nat)
  | label (i : Nat) (row col : UInt32) (s : CText) (q : Option Nat)
  | blank (i : Nat) (row col : UInt32) (q : Option Nat)
  | numberDbl (i : Nat) (row col : UInt32) (bits : Nat) (q : Option Nat)
  | numberInt (i : Nat) (row col : UInt32) (v : Int32) (q : Option Nat)
  | boolean (i : Nat) (row col : UInt32) (v : Int32) (q : Option Nat)
  | error (i : Nat) (row col : UInt32) (code : Nat) (q : Option Nat)
  | note (i : Nat) (row col : UInt32) (author remark : CText)
  /-- on the comment that the cell now has -/
  | noteSetFillColor (i : Nat) (row col : UInt32) (red green blue : UInt8)
  | formula (i : Nat)
  | push (h : Nat) (p : Push)
  | formulaCell (i : Nat) (row col : UInt32) (h : Nat) (q : Option Nat)
  | formulaCellArray (i : Nat) (row col : UInt32) (h : Nat) (q : Option Nat)
  | validateCell (i : Nat) (c : Place) (options : UInt32) (cond1 cond2 : Option Nat) (t : Prompts)
  | validateCellArea (i : Nat) (ul lr : Place) (options : UInt32) (cond1 cond2 : Option Nat) (t : Prompts)
  | hyperLink (i : Nat) (c : Place) (url mark : CText)
  /-- `xlsCellFont` to `xlsCellBordercolorIdx`; each passes its arguments on -/
  | cell (c : Nat) (o : Xf.Op)
  | cellFontname (c : Nat) (name : Ptr UInt8)
  /-- `xlsCellFontheight` to `xlsCellFontshadow` -/
  | cellFont (c : Nat) (o : Font.FOp)
  | cellSetXF (c q : Nat)
  /-- `xlsXformatSet…` -/
  | xformat (q : Nat) (o : Xf.Op)
  | fontSetName (p : Nat) (name : Ptr UInt8)
  /-- `xlsFontSet…` -/
  | font (p : Nat) (o : Font.FOp)

/-- A pointer to a cell: the cell object of that place, `none` if there is none.  sheetrec.cpp 1035-1050, cbridge.cpp 110-111 -/
def at? (s : Life.State) (p : Place) : Option (Cells.Cell (Nat × Val)) :=
  if p.sheet < s.live.desk.wb.sheets.length then (s.live.desk.prog.look.book.sheets p.sheet).findCell p.row.toNat p.col.toNat else none

/-- `cell.GetWorksheet()->GetIndex()`: the sheet that the cell was added to, sheetrec.cpp 981, cell.h 81. -/
def sheetOf (c : Cells.Cell (Nat × Val)) : Nat := c.val.1

/-- The array of texts: `for (i = 0; i < count; i++) vec.push_back(text[i])`, cbridge.cpp 222-239. -/
def textArray (b : Build) (ts : Ptr CText) (count : Nat) : Option (List (List UInt16)) :=
  (chars count ts).bind fun v => v.mapM (CText.get b)

/-- What a push passes on, cbridge.cpp 170-239; CELLOP_AS_VALUE is 0x40, CELL_DEFAULT 0 (formula_const.h 48-51). -/
def lowerPush (b : Build) (s : Life.State) : Push → Option Formula.Call
  | .boolean v => some (.bool v)
  | .missingArgument => some .missing
  | .error v => some (.err v.toNat)
  | .numberInt v => some (.int v.toInt)
  | .numberDbl v => some (.num v)
  | .numberArray vs n => (chars n vs).map .nums
  | .operator op => some (.op op)
  | .cellReference p opt => (at? s p).map fun c => .ref c.row c.col (some (sheetOf c)) opt 0x40
  | .cellAreaReference p r opt => (at? s p).bind fun c => (at? s r).map fun d => .area c.row c.col (some (sheetOf c)) d.row d.col opt 0x40
  | .cellReferenceC p opt k => (at? s p).map fun c => .ref c.row c.col (some (sheetOf c)) opt k
  | .cellAreaReferenceC p r opt k => (at? s p).bind fun c => (at? s r).map fun d => .area c.row c.col (some (sheetOf c)) d.row d.col opt k
  | .function f => some (.func f 0)
  | .functionV f n => some (.funcN f n 0)
  | .functionC f k => some (.func f k)
  | .functionVC f n k => some (.funcN f n k)
  | .characterArray t n => (t.chars b n).map .text
  | .text t => (t.get b).map .text
  | .textArray ts n => (textArray b ts n).map .texts

/-- A call on a sheet. -/
def page (i : Nat) (a : Page.Act) : Life.Event := .call (.other (.desk (.on (.page i a))))

/-- A cell is written. -/
def put (i : Nat) (row col : UInt32) (v : Val) (q : Option Nat) : Life.Event := .call (.other (.desk (.on (.look (.put i row.toNat col.toNat v q)))))

/-- A call on styles. -/
def style (a : Styles.Action) : Life.Event := .call (.other (.desk (.on (.look (.style a)))))

/-- The validation of a rectangle, cbridge.cpp 249-322 with sheetrec.cpp 1372-1408. -/
def validation (b : Build) (ul lr : Cells.Cell (Nat × Val)) (options : UInt32) (t : Prompts) : Option Sheet.DVal :=
  (t.promptTitle.getOr b).bind fun pt => (t.promptText.getOr b).bind fun px => (t.errorTitle.getOr b).bind fun et => (t.errorText.getOr b).map fun ex =>
    { rect := ⟨ul.row, lr.row, ul.col, lr.col⟩, options := options.toNat, promptTitle := pt, promptText := px, errorTitle := et, errorText := ex
      cond1 := none, cond2 := none }

/-- What a function passes on, in the terms of Verif/Life/Model.lean; `none` if the behaviour is undefined, or if no program can have such a pointer.
    cbridge.cpp 57-482 -/
def lower (b : Build) (s : Life.State) : Call → Option Life.Event
  | .workbookSheet n => (n.get b).map fun n => .call (.other (.desk (.sheet n)))
  | .workbookFont n => ((CText.narrow n).get b).map fun n => style (.newFont n)
  | .workbookFormat n => (n.get b).map fun n => .call (.other (.desk (.on (.look (.format n)))))
  | .workbookxFormat => some (style .newXf)
  | .workbookProperty k t => (cstr t).map (.property k)
  | .workbookWindPosition h v => some (.call (.other (.desk (.position h v))))
  | .workbookWindSize h v => some (.call (.other (.desk (.size h v))))
  | .workbookFirstTab t => some (.call (.other (.desk (.firstTab t))))
  | .workbookTabBarWidth w => some (.call (.other (.desk (.tabBarWidth w))))
  | .workbookDump f opens ix => (cstr f).map fun _ => .save opens ix
  | .makeActive i => some (.call (.other (.desk (.makeActive i))))
  | .splitWindow i r c => some (page i (.split r c))
  | .merge i a b c d => some (page i (.call (.merge a b c d)))
  | .colwidth i c w q => some (page i (.call (.colwidth c w q)))
  | .rowheight i r h q => some (page i (.call (.rowheight r h q)))
  | .rangeCellcolor i r1 c1 r2 c2 color => some (.call (.other (.range i ⟨r1.toNat, c1.toNat, r2.toNat, c2.toNat⟩ (.color color))))
  | .label i r c t q => (t.get b).map fun t => put i r c (.text t) q
  | .blank i r c q => some (put i r c .blank q)
  | .numberDbl i r c v q => some (put i r c (.double v) q)
  | .numberInt i r c v q => some (put i r c (.signed v.toInt) q)
  | .boolean i r c v q => some (put i r c (.bool (!!(v != 0))) q)
  | .error i r c e q => some (put i r c (.error e) q)
  | .note i r c a t => (a.get b).bind fun a => (t.get b).map fun t => page i (.comment r c a t)
  | .noteSetFillColor i r c red green blue => some (page i (.box r c (.fill red green blue)))
  | .formula i => some (.call (.make i))
  | .push h p => (lowerPush b s p).map fun c => .call (.push h c)
  | .formulaCell i r c h q => some (.call (.cell i r.toNat c.toNat false h q))
  | .formulaCellArray i r c h q => some (.call (.cell i r.toNat c.toNat true h q))
  | .validateCell i p o c1 c2 t => (at? s p).bind fun c => (validation b c c o t).map fun v => .call (.validate i v c1 c2)
  | .validateCellArea i p r o c1 c2 t =>
    (at? s p).bind fun c => (at? s r).bind fun d => (validation b c d o t).map fun v => .call (.validate i v c1 c2)
  | .hyperLink i p u m =>
    (at? s p).bind fun c => (u.get b).bind fun u => (m.getOr b).map fun m => page i (.call (.hyperLink (.ofNat c.row) (.ofNat c.col) u m))
  | .cell c o => some (style (.cell c o))
  | .cellFontname c n => ((CText.narrow n).get b).map fun n => style (.cellFont c (.name n))
  | .cellFont c o => some (style (.cellFont c o))
  | .cellSetXF c q => some (style (.setXf c q))
  | .xformat q o => some (style (.xf q o))
  | .fontSetName p n => ((CText.narrow n).get b).map fun n => style (.font p (.name n))
  | .font p o => some (style (.font p o))

/-- A C program, call by call. cbridge.cpp 57-482 -/
def run (b : Build) (cs : WCell → Nat) (fuel : Nat) (s : Life.State) : List Call → Option (List Life.Output × Life.State)
  | [] => some ([], s)
  | c :: r => (lower b s c).bind fun e => (Life.step cs fuel s e).bind fun (o, s) => (run b cs fuel s r).map fun (os, s) => (o.toList ++ os, s)

end Xls.Bridge
