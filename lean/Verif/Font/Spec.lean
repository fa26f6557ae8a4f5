import Verif.Unit.Spec
import Verif.Font.Model
import Verif.Xf.Want
/-
What a FONT record says ([MS-XLS] 2.4.122), and what a history of calls on a font asks for.
-/
namespace Xls.Font
open Xls.Xf (bits)

structure Seen where
  height : Nat
  italic : Bool
  strike : Bool
  outline : Bool
  shadow : Bool
  /-- all other bits of the attribute word -/
  otherAttrs : List Nat
  color : Nat
  weight : Nat
  script : Nat
  underline : Nat
  family : Nat
  charset : Nat
  reserved : Nat
  name : List UInt16
deriving Repr, DecidableEq

def readFont (bs : Bytes) : Option Seen := do
  let (height, bs) ← takeLE 2 bs
  let (a, bs) ← takeLE 2 bs
  let (color, bs) ← takeLE 2 bs
  let (weight, bs) ← takeLE 2 bs
  let (script, bs) ← takeLE 2 bs
  let (underline, bs) ← takeLE 1 bs
  let (family, bs) ← takeLE 1 bs
  let (charset, bs) ← takeLE 1 bs
  let (reserved, bs) ← takeLE 1 bs
  let (name, bs) ← Spec.readStr1 bs
  if bs ≠ [] then none
  else
    some {
      height := height, italic := bits a 1 1 == 1, strike := bits a 3 1 == 1, outline := bits a 4 1 == 1
      shadow := bits a 5 1 == 1, otherAttrs := [bits a 0 1, bits a 2 1, bits a 6 10]
      color := color, weight := weight, script := script, underline := underline, family := family, charset := charset
      reserved := reserved, name := name }

namespace Spec

def last {α : Type} (pick : FOp → Option α) (d : α) (ops : List FOp) : α := ops.foldl (fun a o => (pick o).getD a) d

/-- Weights of BOLDNESS_BOLD, _HALF, _NORMAL, _DOUBLE. -/
def weightOf : Nat → Nat | 0 => 700 | 1 => 550 | 2 => 400 | _ => 800
/-- Underline styles none, single, double, single accounting, double accounting. -/
def underlineOf : Nat → Nat | 0 => 0 | 1 => 1 | 2 => 2 | 3 => 33 | _ => 34

/-- The arguments have the types of the C++ functions; a name must fit the record's 8-bit length. -/
def Valid : FOp → Prop
  | .name s => s.length < 256
  | .height h => h < 65536
  | .bold n => n < 4
  | .underline n => n < 5
  | .script n => n < 3
  | .color n => n < 59
  | .colorIdx c => c < 256
  | .family v => v < 256
  | .charset v => v < 256
  | _ => True

def pickName : FOp → Option (List UInt16) | .name s => some s | _ => none
def pickHeight : FOp → Option Nat | .height s => some s | _ => none
def pickBold : FOp → Option Nat | .bold s => some (weightOf s) | _ => none
def pickUnderline : FOp → Option Nat | .underline s => some (underlineOf s) | _ => none
def pickScript : FOp → Option Nat | .script s => some s | _ => none
def pickColor : FOp → Option Nat | .color s => some (Xf.Spec.colorCode s) | .colorIdx c => some c | _ => none
def pickFamily : FOp → Option Nat | .family s => some s | _ => none
def pickCharset : FOp → Option Nat | .charset s => some s | _ => none
def pickItalic : FOp → Option Bool | .italic b => some b | _ => none
def pickStrike : FOp → Option Bool | .strike b => some b | _ => none
def pickOutline : FOp → Option Bool | .outline b => some b | _ => none
def pickShadow : FOp → Option Bool | .shadow b => some b | _ => none

/-- A new font is 10pt Verdana in the automatic colour. -/
def want (ops : List FOp) : Seen where
  height := last pickHeight 200 ops
  italic := last pickItalic false ops
  strike := last pickStrike false ops
  outline := last pickOutline false ops
  shadow := last pickShadow false ops
  otherAttrs := [0, 0, 0]
  color := last pickColor 0x7fff ops
  weight := last pickBold 400 ops
  script := last pickScript 0 ops
  underline := last pickUnderline 0 ops
  family := last pickFamily 0 ops
  charset := last pickCharset 1 ops
  reserved := 0
  name := last pickName [0x56, 0x65, 0x72, 0x64, 0x61, 0x6e, 0x61] ops

end Spec
end Xls.Font
