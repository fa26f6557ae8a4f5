import Verif.Base.Bytes
/-
The table of worksheet functions, formula.cpp 351-837 (`function_properties`), one pair per code from 0 to 484: the operand
class of the result and the set of permitted argument counts as a 32-bit mask (bit n for n arguments; bit 31 is `A_MACRO`;
masks from formula_const.h 153-193).  485 entries; the comments in the source number them consecutively.
-/
namespace Xls.Formula

/-- `function_properties`, formula.cpp 351-837. -/
def funcTable : List (Nat × Nat) := [
  (0x40, 0x7ffffffe), (0x40, 0xc), (0x40, 0x2), (0x40, 0x2), (0x40, 0x7ffffffe), (0x40, 0x7ffffffe),
  (0x40, 0x7ffffffe), (0x40, 0x7ffffffe), (0x40, 0x3), (0x40, 0x3), (0x40, 0x1), (0x40, 0x7ffffffc),
  (0x40, 0x7ffffffe), (0x40, 0x6), (0x40, 0xe), (0x40, 0x2), (0x40, 0x2), (0x40, 0x2),
  (0x40, 0x2), (0x40, 0x1), (0x40, 0x2), (0x40, 0x2), (0x40, 0x2), (0x40, 0x2),
  (0x40, 0x2), (0x40, 0x2), (0x40, 0x2), (0x40, 0x4), (0x40, 0xc), (0x20, 0x1c),
  (0x40, 0x4), (0x40, 0x8), (0x40, 0x2), (0x40, 0x2), (0x40, 0x1), (0x40, 0x1),
  (0x40, 0x7ffffffe), (0x40, 0x7ffffffe), (0x40, 0x2), (0x40, 0x4), (0x40, 0x8), (0x40, 0x8),
  (0x40, 0x8), (0x40, 0x8), (0x40, 0x8), (0x40, 0x8), (0x40, 0x7ffffffe), (0x40, 0x8),
  (0x40, 0x4), (0x60, 0x1e), (0x60, 0x1e), (0x60, 0x1e), (0x60, 0x1e), (0x40, 0x80000002),
  (0x40, 0x80000003), (0x60, 0x0), (0x40, 0x38), (0x40, 0x38), (0x40, 0x38), (0x40, 0x38),
  (0x40, 0x78), (0x40, 0x8), (0x40, 0x6), (0x40, 0x1), (0x40, 0xc), (0x40, 0x8),
  (0x40, 0x8), (0x40, 0x2), (0x40, 0x2), (0x40, 0x2), (0x40, 0x6), (0x40, 0x2),
  (0x40, 0x2), (0x40, 0x2), (0x40, 0x1), (0x40, 0x2), (0x40, 0x2), (0x40, 0x2),
  (0x20, 0x38), (0x40, 0x80000004), (0x40, 0x80000004), (0x40, 0x8000000f), (0x40, 0xc), (0x60, 0x2),
  (0x40, 0x80000007), (0x40, 0x80000001), (0x40, 0x2), (0x40, 0x80000003), (0x40, 0x80000006), (0x40, 0x80000001),
  (0x40, 0x80000002), (0x40, 0x80000007), (0x40, 0x30), (0x40, 0x80000007), (0x40, 0x80000001), (0x40, 0x80000001),
  (0x40, 0x80000003), (0x40, 0x4), (0x40, 0x2), (0x40, 0x2), (0x20, 0x7ffffffc), (0x40, 0x18),
  (0x40, 0x18), (0x40, 0x80000007), (0x40, 0x800000fe), (0x40, 0x2), (0x40, 0x80000002), (0x40, 0x80000006),
  (0x40, 0x80000004), (0x40, 0x6), (0x40, 0x8000001e), (0x40, 0x2), (0x40, 0x2), (0x40, 0x2),
  (0x40, 0x2), (0x40, 0x6), (0x40, 0x6), (0x40, 0x4), (0x40, 0x2), (0x40, 0x10),
  (0x40, 0x18), (0x40, 0x2), (0x40, 0x8000000f), (0x40, 0x80000003), (0x40, 0xc), (0x40, 0x6),
  (0x40, 0x2), (0x40, 0x2), (0x40, 0x2), (0x40, 0x2), (0x40, 0x2), (0x40, 0x2),
  (0x40, 0x80000006), (0x40, 0x80000002), (0x40, 0x80000002), (0x40, 0x80000002), (0x40, 0x80000004), (0x40, 0x80000004),
  (0x40, 0x80000004), (0x40, 0x80000006), (0x40, 0x2), (0x40, 0x2), (0x40, 0x8), (0x40, 0x10),
  (0x40, 0x30), (0x40, 0x8000000e), (0x40, 0x80000006), (0x40, 0x80000006), (0x20, 0x6), (0x40, 0xfffffffe),
  (0x40, 0xfffffffe), (0x40, 0x80000003), (0x40, 0x8000001c), (0x40, 0x80000038), (0x40, 0x80000030), (0x40, 0x80000030),
  (0x40, 0x80000030), (0x40, 0x80000003), (0x40, 0x8000000c), (0x40, 0x80000018), (0x40, 0x8000000e), (0x40, 0x80000002),
  (0x40, 0x2), (0x40, 0x2), (0x60, 0x2), (0x60, 0x4), (0x40, 0x80000007), (0x40, 0x70),
  (0x40, 0x70), (0x40, 0x7ffffffe), (0x40, 0x80000007), (0x60, 0x0), (0x60, 0x0), (0x60, 0x0),
  (0x60, 0x0), (0x40, 0x80000004), (0x40, 0x80000004), (0x40, 0x80000008), (0x40, 0x80000004), (0x40, 0x80000002),
  (0x40, 0x80000003), (0x40, 0x80000003), (0x40, 0x8000001f), (0x40, 0x7ffffffe), (0x40, 0x2), (0x40, 0x80000006),
  (0x40, 0x80000002), (0x40, 0x80000006), (0x40, 0x80000006), (0x40, 0x8), (0x40, 0x2), (0x40, 0x8000000f),
  (0x40, 0x8000001f), (0x40, 0x7ffffffe), (0x40, 0x7ffffffe), (0x40, 0x8), (0x40, 0x8), (0x40, 0x6),
  (0x40, 0x2), (0x40, 0x8), (0x40, 0x80000002), (0x40, 0x80000002), (0x60, 0x0), (0x60, 0x0),
  (0x40, 0x6), (0x40, 0xc), (0x40, 0xc), (0x40, 0x10), (0x40, 0x6), (0x40, 0x6),
  (0x40, 0x8), (0x40, 0x2), (0x40, 0x4), (0x40, 0x4), (0x40, 0x2), (0x40, 0x2),
  (0x40, 0xc), (0x60, 0x0), (0x60, 0x0), (0x40, 0x3c), (0x40, 0xc), (0x40, 0x1),
  (0x40, 0xe0), (0x60, 0x0), (0x60, 0x0), (0x60, 0x0), (0x60, 0x0), (0x40, 0x7ffffffe),
  (0x40, 0x7ffffffe), (0x40, 0x2), (0x40, 0x2), (0x40, 0x2), (0x40, 0x2), (0x40, 0x2),
  (0x40, 0x2), (0x40, 0x8), (0x40, 0xfffffffc), (0x40, 0x80000003), (0x40, 0x80000001), (0x40, 0x80000007),
  (0x40, 0x8000000f), (0x40, 0x8000003c), (0x40, 0x8000001c), (0x40, 0x8000001e), (0x40, 0x2), (0x40, 0x80000001),
  (0x40, 0x8000003e), (0x40, 0x30), (0x40, 0x80000003), (0x60, 0x0), (0x60, 0x0), (0x40, 0x80000003),
  (0x60, 0x4), (0x40, 0x80000007), (0x40, 0x80000002), (0x40, 0x7fffffff), (0x40, 0x80000002), (0x40, 0x80000002),
  (0x40, 0x80000006), (0x40, 0x8000000e), (0x40, 0x8000000e), (0x40, 0x2), (0x40, 0x80000003), (0x40, 0x80000003),
  (0x40, 0x80000007), (0x40, 0x80000008), (0x40, 0x80000008), (0x40, 0x8000000c), (0x40, 0x80000006), (0x40, 0x7ffffffe),
  (0x40, 0x38), (0x40, 0x2), (0x40, 0x38), (0x40, 0x10), (0x40, 0x4), (0x40, 0x4),
  (0x40, 0x4), (0x40, 0x8), (0x40, 0x8), (0x40, 0x2), (0x40, 0x8), (0x40, 0x8),
  (0x40, 0x8), (0x40, 0x2), (0x40, 0x2), (0x40, 0x4), (0x40, 0x10), (0x40, 0x8),
  (0x40, 0x4), (0x40, 0x10), (0x40, 0x8), (0x40, 0x8), (0x40, 0x8), (0x40, 0x10),
  (0x40, 0x2), (0x40, 0x8), (0x40, 0x2), (0x40, 0x8), (0x40, 0x2), (0x40, 0x4),
  (0x40, 0x8), (0x40, 0x8), (0x40, 0x10), (0x40, 0x4), (0x40, 0x4), (0x40, 0x4),
  (0x40, 0x4), (0x40, 0x4), (0x40, 0x4), (0x40, 0x8), (0x40, 0x4), (0x40, 0x4),
  (0x40, 0x4), (0x40, 0x4), (0x40, 0x4), (0x40, 0x4), (0x40, 0x10), (0x40, 0x18),
  (0x40, 0x7ffffffe), (0x40, 0x7ffffffe), (0x40, 0x7ffffffe), (0x40, 0x7ffffffe), (0x40, 0x7ffffffe), (0x40, 0x7ffffffe),
  (0x40, 0xc), (0x40, 0x4), (0x40, 0x4), (0x40, 0x4), (0x40, 0x4), (0x40, 0xc),
  (0x40, 0x7ffffffe), (0x40, 0x4), (0x40, 0x4), (0x60, 0x0), (0x40, 0x80000018), (0x40, 0x80000018),
  (0x40, 0x7ffffffe), (0x40, 0x4), (0x40, 0x800003fc), (0x40, 0x80000006), (0x40, 0x8000000e), (0x40, 0x8000001e),
  (0x40, 0x2), (0x40, 0x2), (0x40, 0x7ffffffc), (0x40, 0xc), (0x40, 0x4), (0x40, 0x2),
  (0x40, 0x80000006), (0x40, 0x80000002), (0x40, 0x10), (0x40, 0x8), (0x40, 0x2), (0x40, 0x4),
  (0x40, 0x6), (0x40, 0x8000001f), (0x40, 0x8000003f), (0x40, 0x80000006), (0x40, 0xfffffffc), (0x40, 0x6),
  (0x40, 0x2), (0x40, 0x7ffffffe), (0x40, 0x7ffffffe), (0x40, 0x7ffffffe), (0x40, 0x7ffffffe), (0x40, 0x7ffffffe),
  (0x40, 0x7ffffffe), (0x40, 0x7ffffffe), (0x40, 0x2), (0x40, 0x2), (0x40, 0x2), (0x40, 0x2),
  (0x40, 0x2), (0x40, 0x2), (0x40, 0x2), (0x40, 0x2), (0x40, 0x2), (0x40, 0x2),
  (0x40, 0x2), (0x40, 0x7ffffff8), (0x40, 0xfffffffe), (0x40, 0x8000000c), (0x40, 0x80000008), (0x40, 0x80000018),
  (0x40, 0x6), (0x40, 0x2), (0x40, 0x6), (0x40, 0x6), (0x40, 0x6), (0x40, 0x6),
  (0x40, 0x6), (0x40, 0x6), (0x40, 0x2), (0x40, 0x2), (0x40, 0x6), (0x40, 0x6),
  (0x40, 0x4), (0x40, 0x4), (0x40, 0x4), (0x40, 0x2), (0x40, 0x2), (0x40, 0x2),
  (0x40, 0x2), (0x40, 0x2), (0x40, 0x2), (0x40, 0x2), (0x40, 0x2), (0x40, 0x2),
  (0x40, 0x2), (0x40, 0x2), (0x40, 0x2), (0x40, 0xc), (0x40, 0x7ffffffe), (0x40, 0x7ffffffe),
  (0x40, 0x10), (0x40, 0x2), (0x40, 0x2), (0x40, 0x4), (0x40, 0x6), (0x40, 0x6),
  (0x40, 0x2), (0x40, 0x2), (0x40, 0x4), (0x40, 0x6), (0x40, 0x2), (0x40, 0x4),
  (0x40, 0x4), (0x40, 0x4), (0x40, 0x4), (0x40, 0xc), (0x40, 0x8), (0x40, 0x60),
  (0x40, 0x60), (0x40, 0x30), (0x40, 0x30), (0x40, 0x30), (0x40, 0x30), (0x40, 0x30),
  (0x40, 0x8), (0x40, 0x8), (0x40, 0x8), (0x40, 0xc0), (0x40, 0xc0), (0x40, 0x4),
  (0x40, 0x4), (0x40, 0x4), (0x40, 0x4), (0x40, 0x40), (0x40, 0x40), (0x40, 0x4),
  (0x40, 0x4), (0x40, 0xc), (0x40, 0x18), (0x40, 0x18), (0x40, 0x18), (0x40, 0x18),
  (0x40, 0x18), (0x40, 0x18), (0x40, 0x60), (0x40, 0x60), (0x40, 0x180), (0x40, 0x180),
  (0x40, 0x300), (0x40, 0x300), (0x40, 0x4), (0x40, 0x6), (0x40, 0xc0), (0x40, 0xc0),
  (0x40, 0x8), (0x40, 0x1c0), (0x40, 0x30), (0x40, 0xc), (0x40, 0xc), (0x40, 0x7ffffffe),
  (0x40, 0x7ffffffe), (0x40, 0x7ffffffe), (0x40, 0x4), (0x40, 0x80000018), (0x40, 0x8000003c), (0x40, 0x2),
  (0x40, 0x4), (0x40, 0x7ffffffc), (0x40, 0x7ffffff8), (0x40, 0xc), (0x40, 0x7ffffff8)]

end Xls.Formula
