import Verif.Mirror.Values
import Verif.Prog.Spec
import Verif.Page.RowProps
/-
C73: what it means that the answers of the objects in memory are those in a file.
-/
namespace Xls.Mirror
open Xls.Whole Xls.Cells Xls.Biff
open Xls.Page (Act latest Written RowsAnyway openPages openRows)

/-- What the getters of a font answer is what its FONT record says. -/
def FontSays (r : Ask.FontReport) (s : Font.Seen) : Prop :=
  r = ⟨s.name, s.height, s.weight, s.underline, s.script, s.color, s.italic, s.strike, s.outline, s.shadow, s.family, s.charset⟩

/-- The FONT record with number `i`; the number 4 is not used ([MS-XLS] 2.5.129 FontIndex). -/
def fontAt (R : Look.Records) (i : Nat) : Option Font.Seen :=
  if i = 4 then none else (R.fonts[if i < 4 then i else i - 1]?).bind Font.readFont

/-- The XF record with number `i`. -/
def formatAt (R : Look.Records) (i : Nat) : Option Xf.Seen := (R.xfs[i]?).bind Xf.readXf

/-- The objects `s` in memory and the records `R` of a file say the same: as many fonts and formats; behind the number (`GetIndex`) of each font and each
    format the record with what its getters answer; behind the font number of each format the record of its font object. -/
structure Mirrors (s : Styles.State) (R : Look.Records) : Prop where
  fontCount : R.fonts.length = s.fonts.length
  xfCount : R.xfs.length = s.xfs.length
  fonts : ∀ e ∈ s.fonts, ∃ y, fontAt R e.index = some y ∧ FontSays (Ask.askFont e.font) y
  formats : ∀ e ∈ s.xfs, ∃ y, formatAt R e.index = some y ∧ Agrees (Ask.askFormat e.xf) y
  fontOf : ∀ e ∈ s.xfs, ∀ p, e.xf.font = some p → ∃ f y z, s.fonts[p]? = some f ∧ formatAt R e.index = some y ∧ y.font = f.index ∧
    fontAt R y.font = some z ∧ FontSays (Ask.askFont f.font) z

/-- The cells read from sheet `i` are those that were written last on each place, each with its content and with the number that its `GetXFIndex` answers. -/
def CellsSay (ar : Nat → Option Nat) (writes : List (Nat × Cell Val)) (s : Styles.State) (i : Nat) (xs : List ReadCell) : Prop :=
  xs.Pairwise (fun a b => a.row < b.row ∨ a.row = b.row ∧ a.col < b.col) ∧
  ∀ row col, match lastWrite writes i row col with
    | none => ∀ x ∈ xs, ¬ (x.row = row ∧ x.col = col)
    | some c => ∃ x ∈ xs, x.row = row ∧ x.col = col ∧ Holds ar i c.val x.content ∧ Styles.xfIndexOf s c.id = some x.xf

/-- The number of the format that a column or row was given last, 15 (the default cell format) without one. -/
def GivenNumber (s : Styles.State) (x : Nat) : Option Nat → Prop
  | none => x = 15
  | some q => ∃ e, s.xfs[q]? = some e ∧ e.index = x

/-- What the reader of a stream finds, compared with what the objects answer at the moment of the save. -/
def Echoed (ar : Nat → Option Nat) (s : Styles.State) (codes : List (List UInt16)) (writes : List (Nat × Cell Val)) (acts : Nat → List Act)
    (names : List (List UInt16)) (w : Bytes) : Prop :=
  ∃ L M R recs, openCells w = some (names.zip L) ∧ openPages w = some (names.zip M) ∧ openRows w = some (names.zip R) ∧
    Look.openStyles w = some recs ∧ L.length = names.length ∧ M.length = names.length ∧ R.length = names.length ∧
    Mirrors s recs ∧ (∀ k code, codes[k]? = some code → NumFmt.lookup recs.formats (164 + k) = some code) ∧
    (∀ (i : Nat) xs, L[i]? = some xs → CellsSay ar writes s i xs) ∧
    (∀ (i : Nat) P, M[i]? = some P → Page.Asked (acts i) P ∧
      ∀ f l w x, (f, l, w, x) ∈ P.columns → ∃ y, latest (Act.column f) (acts i) = some (w, y) ∧ GivenNumber s x y) ∧
    ∀ (i : Nat) rows, R[i]? = some rows → RowsAnyway (Written writes i) (acts i) rows ∧
      ∀ r ∈ rows, ∃ x, r.xf = some x ∧ GivenNumber s x ((latest (Act.height r.row) (acts i)).bind (·.2))

end Xls.Mirror
