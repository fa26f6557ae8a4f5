import Verif.Xf.Model
import Verif.Unit.Props
/-
Number formats: the user formats of a workbook (`format_t`, format.h/.cpp, `CGlobalRecords::AddFormat`) and the FORMAT
records; the predefined ones are in `Xf.formatTable`/`Xf.format2index`.
-/
namespace Xls.NumFmt
open Xls.Biff Xls.Unit

/-- The formats created so far, with the indices `AddFormat` gave them (globalrec.cpp 647-651), and the 16-bit counter. -/
structure Formats where
  list : List (Nat × List UInt16)
  next : Nat
deriving Repr

/-- After the constructor of `CGlobalRecords`: FMT_CODE_FIRST_USER, globalrec.cpp 199 with format.h 86. -/
def empty : Formats := ⟨[], 164⟩

/-- `workbook::format(…)`, workbook.cpp 177-201, with `AddFormat`. -/
def add (f : Formats) (s : List UInt16) : Formats := ⟨f.list ++ [(f.next, s)], (f.next + 1) % 65536⟩

/-- The appends of the `CFormat` constructor, format.cpp 159-170. -/
def recordOps (f : Nat × List UInt16) : List Unit.Op := [.u16 f.1, .str f.2 .len2]

def payload (f : Nat × List UInt16) : Bytes := (recordOps f).flatMap Unit.Op.bytes

/-- `xf_t::GetFormat`, extformat.cpp 717-727: the first predefined format with this index, or FMT_GENERAL. -/
def getFormat (index : Nat) : Nat := ((List.range 36).find? fun n => Xf.format2index n == some index).getD 0

end Xls.NumFmt
