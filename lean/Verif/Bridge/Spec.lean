import Verif.Bridge.Model
import Verif.Text.Spec
import Verif.Life.Spec
/-
What a C program means: its texts are Unicode texts, its cells are places.
-/
namespace Xls.Bridge
open Xls.Biff Xls.Whole
open Xls.Text.Spec

/-- How a program understands its own texts: the text that a pointer stands for, as a C string or as an array of so many characters. -/
abbrev Reading := CText → Option Nat → List Char

/-- The text of a C string of `char`. -/
abbrev Reading.str (m : Reading) (p : Ptr UInt8) : List Char := m (.narrow p) none

/-- The build promises what `iconv` promises, or has none. -/
structure Build.Sound (b : Build) : Prop where
  bytes : ∀ f ∈ b.convB, IconvBytes f
  wide : ∀ f ∈ b.convW, IconvWide f

/-- Texts that the library can store (C56): in `char`, ASCII or, with `iconv`, characters of the basic plane; in wide characters, those of the basic plane. -/
def Storable (b : Build) : CText → List Char → Prop
  | .narrow _, cs => Ascii cs ∨ (b.convB.isSome = true ∧ Basic cs)
  | .wide _, cs => Basic cs

/-- The memory holds the text, and a zero after it; the text has no zero itself. -/
def IsString : CText → List Char → Prop
  | .narrow p, cs => (∀ c ∈ cs, c.val ≠ 0) ∧ ∃ rest, p = some (utf8 cs ++ 0 :: rest)
  | .wide p, cs => (∀ c ∈ cs, c.val ≠ 0) ∧ ∃ rest, p = some (wide cs ++ 0 :: rest)

/-- The memory holds the text as an array of `n` characters; zeros may be among them. -/
def IsArray (n : Nat) : CText → List Char → Prop
  | .narrow p, cs => n = (utf8 cs).length ∧ ∃ rest, p = some (utf8 cs ++ rest)
  | .wide p, cs => n = cs.length ∧ ∃ rest, p = some (wide cs ++ rest)

def CText.null : CText → Prop
  | .narrow p => p = none
  | .wide p => p = none

/-- A C string that can be stored, and the text that it holds. -/
def Good (b : Build) (m : Reading) (t : CText) : Prop := IsString t (m t none) ∧ Storable b t (m t none)

/-- The same, or NULL for the empty text. -/
def GoodOr (b : Build) (m : Reading) (t : CText) : Prop := Good b m t ∨ (t.null ∧ m t none = [])

/-- A C string of bytes that are kept as they are. -/
def Bare (m : Reading) (p : Ptr UInt8) : Prop := IsString (.narrow p) (m.str p)

/-- The texts of a push are there. -/
def Push.Texts (b : Build) (m : Reading) : Push → Prop
  | .characterArray t n => IsArray n t (m t (some n)) ∧ Storable b t (m t (some n))
  | .text t => Good b m t
  | .textArray ts n => ∃ v rest, ts = some (v ++ rest) ∧ n = v.length ∧ ∀ t ∈ v, Good b m t
  | .numberArray vs n => ∃ v rest, vs = some (v ++ rest) ∧ n = v.length
  | _ => True

/-- The texts of a call are there. -/
def Call.Texts (b : Build) (m : Reading) : Call → Prop
  | .workbookSheet n => Good b m n
  | .workbookFont n => Good b m (.narrow n)
  | .workbookFormat n => Good b m n
  | .workbookProperty _ t => Bare m t
  | .workbookDump f _ _ => Bare m f
  | .label _ _ _ t _ => Good b m t
  | .note _ _ _ a t => Good b m a ∧ Good b m t
  | .push _ p => p.Texts b m
  | .validateCell _ _ _ _ _ t => GoodOr b m t.promptTitle ∧ GoodOr b m t.promptText ∧ GoodOr b m t.errorTitle ∧ GoodOr b m t.errorText
  | .validateCellArea _ _ _ _ _ _ t => GoodOr b m t.promptTitle ∧ GoodOr b m t.promptText ∧ GoodOr b m t.errorTitle ∧ GoodOr b m t.errorText
  | .hyperLink _ _ u k => Good b m u ∧ GoodOr b m k
  | .cellFontname _ n => Good b m (.narrow n)
  | .fontSetName _ n => Good b m (.narrow n)
  | _ => True

/-- The call leaves a cell at the place: it writes there, or works on a range that the place is in. -/
def Call.makes (p : Place) : Call → Prop
  | .label i r c _ _ | .blank i r c _ | .numberDbl i r c _ _ | .numberInt i r c _ _ | .boolean i r c _ _ | .error i r c _ _
  | .formulaCell i r c _ _ | .formulaCellArray i r c _ _ => p = ⟨i, r, c⟩
  | .rangeCellcolor i r1 c1 r2 c2 _ => p.sheet = i ∧ r1 ≤ p.row ∧ p.row ≤ r2 ∧ c1 ≤ p.col ∧ p.col ≤ c2
  | _ => False

/-- The cells that a call names. -/
def Call.cells : Call → List Place
  | .push _ (.cellReference p _) | .push _ (.cellReferenceC p _ _) => [p]
  | .push _ (.cellAreaReference p q _) | .push _ (.cellAreaReferenceC p q _ _) => [p, q]
  | .validateCell _ p _ _ _ _ => [p]
  | .validateCellArea _ p q _ _ _ _ => [p, q]
  | .hyperLink _ p _ _ => [p]
  | _ => []

/-- Every cell that is named was made before. -/
def Placed (before : List Call) : List Call → Prop
  | [] => True
  | c :: r => (∀ p ∈ c.cells, ∃ d ∈ before, d.makes p) ∧ Placed (before ++ [c]) r

/-- The text of a pointer, in the file's alphabet. -/
def Reading.says (m : Reading) (t : CText) : List UInt16 := utf16 (m t none)

/-- What a push means; references are to the value of cells. -/
def Push.means (m : Reading) : Push → Formula.Call
  | .boolean v => .bool v
  | .missingArgument => .missing
  | .error v => .err v.toNat
  | .numberInt v => .int v.toInt
  | .numberDbl v => .num v
  | .numberArray vs n => .nums (((vs.getD [])).take n)
  | .operator op => .op op
  | .cellReference p opt => .ref p.row.toNat p.col.toNat (some p.sheet) opt 64
  | .cellAreaReference p r opt => .area p.row.toNat p.col.toNat (some p.sheet) r.row.toNat r.col.toNat opt 64
  | .cellReferenceC p opt k => .ref p.row.toNat p.col.toNat (some p.sheet) opt k
  | .cellAreaReferenceC p r opt k => .area p.row.toNat p.col.toNat (some p.sheet) r.row.toNat r.col.toNat opt k
  | .function f => .func f 0
  | .functionV f n => .funcN f n 0
  | .functionC f k => .func f k
  | .functionVC f n k => .funcN f n k
  | .characterArray t n => .text (utf16 (m t (some n)))
  | .text t => .text (m.says t)
  | .textArray ts n => .texts (((ts.getD []).take n).map m.says)

/-- A rectangle from the first cell to the last, with its options and texts. -/
def rule (m : Reading) (p q : Place) (options : UInt32) (t : Prompts) : Sheet.DVal :=
  ⟨⟨p.row.toNat, q.row.toNat, p.col.toNat, q.col.toNat⟩, options.toNat, m.says t.promptTitle, m.says t.promptText, m.says t.errorTitle, m.says t.errorText, none, none⟩

/-- What a call means. -/
def Call.means (m : Reading) : Call → Life.Event
  | .workbookSheet n => .call (.other (.desk (.sheet (m.says n))))
  | .workbookFont n => .call (.other (.desk (.on (.look (.style (.newFont (utf16 (m.str n))))))))
  | .workbookFormat n => .call (.other (.desk (.on (.look (.format (m.says n))))))
  | .workbookxFormat => .call (.other (.desk (.on (.look (.style .newXf)))))
  | .workbookProperty k t => .property k (utf8 (m.str t))
  | .workbookWindPosition h v => .call (.other (.desk (.position h v)))
  | .workbookWindSize w h => .call (.other (.desk (.size w h)))
  | .workbookFirstTab t => .call (.other (.desk (.firstTab t)))
  | .workbookTabBarWidth w => .call (.other (.desk (.tabBarWidth w)))
  | .workbookDump _ opens ix => .save opens ix
  | .makeActive i => .call (.other (.desk (.makeActive i)))
  | .splitWindow i rows cols => .call (.other (.desk (.on (.page i (.split rows cols)))))
  | .merge i r1 c1 r2 c2 => .call (.other (.desk (.on (.page i (.call (.merge r1 c1 r2 c2))))))
  | .colwidth i c w q => .call (.other (.desk (.on (.page i (.call (.colwidth c w q))))))
  | .rowheight i r h q => .call (.other (.desk (.on (.page i (.call (.rowheight r h q))))))
  | .rangeCellcolor i r1 c1 r2 c2 n => .call (.other (.range i ⟨r1.toNat, c1.toNat, r2.toNat, c2.toNat⟩ (.color n)))
  | .label i r c t q => .call (.other (.desk (.on (.look (.put i r.toNat c.toNat (.text (m.says t)) q)))))
  | .blank i r c q => .call (.other (.desk (.on (.look (.put i r.toNat c.toNat .blank q)))))
  | .numberDbl i r c v q => .call (.other (.desk (.on (.look (.put i r.toNat c.toNat (.double v) q)))))
  | .numberInt i r c v q => .call (.other (.desk (.on (.look (.put i r.toNat c.toNat (.signed v.toInt) q)))))
  | .boolean i r c v q => .call (.other (.desk (.on (.look (.put i r.toNat c.toNat (.bool (decide (v ≠ 0))) q)))))
  | .error i r c e q => .call (.other (.desk (.on (.look (.put i r.toNat c.toNat (.error e) q)))))
  | .note i r c a t => .call (.other (.desk (.on (.page i (.comment r c (m.says a) (m.says t))))))
  | .noteSetFillColor i r c red green blue => .call (.other (.desk (.on (.page i (.box r c (.fill red green blue))))))
  | .formula i => .call (.make i)
  | .push h p => .call (.push h (p.means m))
  | .formulaCell i r c h q => .call (.cell i r.toNat c.toNat false h q)
  | .formulaCellArray i r c h q => .call (.cell i r.toNat c.toNat true h q)
  | .validateCell i p o c1 c2 t => .call (.validate i (rule m p p o t) c1 c2)
  | .validateCellArea i p q o c1 c2 t => .call (.validate i (rule m p q o t) c1 c2)
  | .hyperLink i p u k => .call (.other (.desk (.on (.page i (.call (.hyperLink p.row p.col (m.says u) (m.says k)))))))
  | .cell c o => .call (.other (.desk (.on (.look (.style (.cell c o))))))
  | .cellFontname c n => .call (.other (.desk (.on (.look (.style (.cellFont c (.name (utf16 (m.str n)))))))))
  | .cellFont c o => .call (.other (.desk (.on (.look (.style (.cellFont c o))))))
  | .cellSetXF c q => .call (.other (.desk (.on (.look (.style (.setXf c q))))))
  | .xformat q o => .call (.other (.desk (.on (.look (.style (.xf q o))))))
  | .fontSetName p n => .call (.other (.desk (.on (.look (.style (.font p (.name (utf16 (m.str n)))))))))
  | .font p o => .call (.other (.desk (.on (.look (.style (.font p o))))))

end Xls.Bridge
