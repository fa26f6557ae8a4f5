import Verif.Palette.Model
/-
What a PALETTE record says ([MS-XLS] 2.4.188): a count, then that many colours for the indices from 8 on; what the calls
ask for; and which colours the colour names stand for (the palette of Excel, http://www.mvps.org/dmcritchie/excel/colors.htm,
which colors.h 119 refers to).
-/
namespace Xls.Palette

/-- `n` colours of four bytes, the last one zero. -/
def readColors : Nat → Bytes → Option (List (Nat × Nat × Nat))
  | 0, [] => some []
  | 0, _ :: _ => none
  | n + 1, r :: g :: b :: z :: bs => if z = 0 then (readColors n bs).map ((r.toNat, g.toNat, b.toNat) :: ·) else none
  | _ + 1, _ => none

def readPalette (bs : Bytes) : Option (List (Nat × Nat × Nat)) :=
  (takeLE 2 bs).bind fun (n, bs) => readColors n bs

namespace Spec

/-- The colours that can be changed. -/
def good (k : Call) : Bool := 8 ≤ k.idx.toNat && k.idx.toNat ≤ 63

/-- The colour at index `i`: the one last given for that index. -/
def colorAt (d : Nat × Nat × Nat) (i : Nat) (calls : List Call) : Nat × Nat × Nat :=
  calls.foldl (fun c k => if k.idx.toNat = i then (k.r.toNat, k.g.toNat, k.b.toNat) else c) d

/-- The colour a name stands for, 0xRRGGBB, in the order of `color_name_t` (CLR_BLACK = 1 … CLR_BLUE2 = 56). -/
def named : List Nat :=
  [/- black … gray 80% -/ 0x000000, 0x993300, 0x333300, 0x003300, 0x003366, 0x000080, 0x333399, 0x333333,
   /- dark red … gray 50% -/ 0x800000, 0xff6600, 0x808000, 0x008000, 0x008080, 0x0000ff, 0x666699, 0x808080,
   /- red … gray 40% -/ 0xff0000, 0xff9900, 0x99cc00, 0x339966, 0x33cccc, 0x3366ff, 0x800080, 0x969696,
   /- pink … gray 25% -/ 0xff00ff, 0xffcc00, 0xffff00, 0x00ff00, 0x00ffff, 0x00ccff, 0x993366, 0xc0c0c0,
   /- rose, tan, light yellow … white -/ 0xff99cc, 0xffcc99, 0xffff99, 0xccffcc, 0xccffff, 0x99ccff, 0xcc99ff, 0xffffff,
   /- periwinkle, plum, ivory, light turquoise, dark purple, coral, ocean blue, ice blue -/
   0x9999ff, 0x993366, 0xffffcc, 0xccffff, 0x660066, 0xff8080, 0x0066cc, 0xccccff,
   /- dark blue, pink, yellow, turquoise, violet, dark red, teal, blue -/
   0x000080, 0xff00ff, 0xffff00, 0x00ffff, 0x800080, 0x800000, 0x008080, 0x0000ff]

def rgb (c : Nat × Nat × Nat) : Nat := c.1 * 65536 + c.2.1 * 256 + c.2.2

end Spec
end Xls.Palette
