import Verif.Formula.Means
import Verif.Save.Spec
/-
How a reader finds the sheet that a reference in a formula names: [MS-XLS] 2.5.198.85 PtgRef3d and 2.5.198.28 PtgArea3d hold the number of
an entry of the EXTERNSHEET record (2.4.105); the entry holds the number of a SUPBOOK record (2.4.271) and the first and last sheet; if that
record is the workbook's reference to itself, the sheets are those of the sheet table.
-/
namespace Xls.Links
open Xls.Biff Xls.Formula

mutual
/-- The numbers by which the references of a formula name other sheets, from left to right. -/
def refs : Tree → List Nat
  | .ref _ sh _ _ _ _ => sh.toList
  | .area _ sh _ _ _ _ _ _ _ _ => sh.toList
  | .un _ a => refs a
  | .bin _ a b => refs a ++ refs b
  | .call _ _ args => refsAll args
  | _ => []
def refsAll : List Tree → List Nat
  | [] => []
  | a :: r => refs a ++ refsAll r
end

mutual
/-- The sheets other than its own that the formula the caller built refers to, from left to right. -/
def others (own : Nat) : Expr → List Nat
  | .ref _ _ (some j) _ _ => if j = own then [] else [j]
  | .area _ _ (some j) _ _ _ _ => if j = own then [] else [j]
  | .un _ a => others own a
  | .bin _ a b => others own a ++ others own b
  | .func _ _ args => othersAll own args
  | _ => []
def othersAll (own : Nat) : List Expr → List Nat
  | [] => []
  | a :: r => others own a ++ othersAll own r
end

/-- The payload of the first record of a type, with the CONTINUE records after it. -/
def joined (t : Nat) (G : List Rec) : Option Bytes :=
  match G.dropWhile (fun r => r.1 != t) with
  | [] => none
  | r :: rest => some (r.2 ++ (rest.takeWhile (fun r => r.1 == 0x3C)).flatMap (·.2))

/-- A SUPBOOK record that stands for the workbook itself: the number of sheets, then 0x0401. -/
def selfBook (p : Bytes) : Option Nat :=
  (takeLE 2 p).bind fun (n, p) => (takeLE 2 p).bind fun (c, p) => if c = 0x0401 ∧ p = [] then some n else none

/-- One entry of EXTERNSHEET: number of the SUPBOOK record, first sheet, last sheet. -/
def readXti (p : Bytes) : Option ((Nat × Nat × Nat) × Bytes) :=
  (takeLE 2 p).bind fun (b, p) => (takeLE 2 p).bind fun (x, p) => (takeLE 2 p).map fun (y, p) => ((b, x, y), p)

/-- So many entries and nothing else. -/
def readXtis : Nat → Bytes → Option (List (Nat × Nat × Nat))
  | 0, p => if p = [] then some [] else none
  | n + 1, p => (readXti p).bind fun (x, p) => (readXtis n p).map (x :: ·)

def readExtern (p : Bytes) : Option (List (Nat × Nat × Nat)) := (takeLE 2 p).bind fun (n, p) => readXtis n p

/-- The name of the one sheet that entry `k` stands for. -/
def sheetNamed (G : List Rec) (k : Nat) : Option (List UInt16) :=
  (joined 0x17 G).bind fun p => (readExtern p).bind fun es => (es[k]?).bind fun (b, x, y) =>
    (((G.filter (·.1 == 0x1AE)).map (·.2))[b]?).bind fun q => (selfBook q).bind fun n => (Save.sheetTable G).bind fun t =>
      if n = t.length ∧ x = y then (t[x]?).map (·.name) else none

end Xls.Links
