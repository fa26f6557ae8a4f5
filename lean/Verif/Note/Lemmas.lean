import Verif.Note.Model
import Verif.Note.Spec
import Verif.Unit.Props
/-
Helper lemmas for comments.
-/
namespace Xls.Note
open Xls.Biff Xls.Unit Xls.Spec

/-! ### The drawing reader -/

/-- The reader finds these elements, whatever fuel beyond the length it gets. -/
def Reads (bs : Bytes) (ns : List Node) : Prop := ∀ fuel, bs.length ≤ fuel → nodesF fuel bs = some ns

theorem Reads.nil : Reads [] [] := by
  intro fuel _
  unfold nodesF
  rfl

theorem nodesF_head (fuel vi t : Nat) (body rest : Bytes) (hv : vi < 65536) (ht : t < 65536) (hb : body.length < 2 ^ 32) :
    nodesF (fuel + 1) (leN 2 vi ++ leN 2 t ++ leN 4 body.length ++ body ++ rest) =
      match nodesF fuel rest with
      | none => none
      | some ns =>
        if vi % 16 = 15 then (nodesF fuel body).map fun cs => .cont (vi / 16) t cs :: ns
        else some (.atom (vi % 16) (vi / 16) t body :: ns) := by
  have hne : leN 2 vi ++ leN 2 t ++ leN 4 body.length ++ body ++ rest ≠ [] := by
    intro h
    have := congrArg List.length h
    simp at this
  rw [nodesF]
  · simp only [List.append_assoc, takeLE_leN_append, Nat.mod_eq_of_lt (show vi < 256 ^ 2 from hv), Nat.mod_eq_of_lt (show t < 256 ^ 2 from ht),
      Nat.mod_eq_of_lt (show body.length < 256 ^ 4 from hb), takeN_append]
    cases nodesF fuel rest <;> rfl
  · exact hne

theorem Reads.atom {vi t : Nat} {body rest : Bytes} {ns : List Node} (hv : vi < 65536) (h15 : vi % 16 ≠ 15) (ht : t < 65536)
    (hb : body.length < 2 ^ 32) (hr : Reads rest ns) :
    Reads (leN 2 vi ++ leN 2 t ++ leN 4 body.length ++ body ++ rest) (.atom (vi % 16) (vi / 16) t body :: ns) := by
  intro fuel hf
  simp only [List.length_append, leN_length] at hf
  obtain ⟨f, rfl⟩ : ∃ f, fuel = f + 1 := ⟨fuel - 1, by omega⟩
  rw [nodesF_head f vi t body rest hv ht hb, hr f (by omega)]
  simp only [if_neg h15]

theorem Reads.cont {vi t : Nat} {body rest : Bytes} {cs ns : List Node} (hv : vi < 65536) (h15 : vi % 16 = 15) (ht : t < 65536)
    (hb : body.length < 2 ^ 32) (hc : Reads body cs) (hr : Reads rest ns) :
    Reads (leN 2 vi ++ leN 2 t ++ leN 4 body.length ++ body ++ rest) (.cont (vi / 16) t cs :: ns) := by
  intro fuel hf
  simp only [List.length_append, leN_length] at hf
  obtain ⟨f, rfl⟩ : ∃ f, fuel = f + 1 := ⟨fuel - 1, by omega⟩
  rw [nodesF_head f vi t body rest hv ht hb, hr f (by omega), hc f (by omega)]
  simp only [if_pos h15, Option.map_some]

theorem Reads.nodes {bs : Bytes} {ns : List Node} (h : Reads bs ns) : nodes bs = some ns := h _ (Nat.le_refl _)

/-! ### One comment -/

/-- The shape of one comment, over both MSODRAWING records. -/
def shapeBytes (sheet spid : Nat) (n : Note) : Bytes := drawingText sheet spid n ++ drawData 0x0 0x0 0xF00D 0 []

/-- What a reader makes of it. -/
def shapeNode (sheet spid : Nat) (n : Note) : Node :=
  .cont 0 0xF004 [.atom 2 0xCA 0xF00A (leN 4 (makeSPID sheet spid) ++ leN 4 0x0A00), .atom 3 8 0xF00B (fopt n),
    .atom 3 1 0xF122 draw102, .atom 0 0 0xF010 (anchorBytes n.anchor), .atom 0 0 0xF011 [], .atom 0 0 0xF00D []]

theorem fopt_length (n : Note) : (fopt n).length = 48 := by
  simp only [fopt, opid, List.length_append, leN_length]

theorem anchorBytes_length (a : Anchor) : (anchorBytes a).length = 18 := by
  simp only [anchorBytes, List.length_append, leN_length]

theorem drawData_eq (v i t l : Nat) (b : Bytes) (hv : v < 16) : drawData v i t l b = leN 2 (16 * i + v) ++ leN 2 t ++ leN 4 l ++ b := by
  have : (v &&& 15) ||| (i <<< 4) = 16 * i + v := by
    rw [show (15 : Nat) = 2 ^ 4 - 1 from rfl, Nat.and_two_pow_sub_one_eq_mod, Nat.mod_eq_of_lt hv, Nat.or_comm,
      Nat.shiftLeft_eq, Nat.mul_comm i, ← Nat.two_pow_add_eq_or_of_lt hv]
  unfold drawData
  rw [this]

theorem shape_reads (sheet spid : Nat) (n : Note) {rest : Bytes} {ns : List Node} (hr : Reads rest ns) :
    Reads (shapeBytes sheet spid n ++ rest) (shapeNode sheet spid n :: ns) := by
  have e0 : Reads ([] : Bytes) [] := .nil
  have e1 := Reads.atom (vi := 16 * 0 + 0) (t := 0xF00D) (body := []) (by decide) (by decide) (by decide) (by decide) e0
  have e2 := Reads.atom (vi := 16 * 0 + 0) (t := 0xF011) (body := []) (by decide) (by decide) (by decide) (by decide) e1
  have e3 := Reads.atom (vi := 16 * 0 + 0) (t := 0xF010) (body := anchorBytes n.anchor)
      (by decide) (by decide) (by decide) (by rw [anchorBytes_length]; decide) e2
  have e4 := Reads.atom (vi := 16 * 1 + 3) (t := 0xF122) (body := draw102) (by decide) (by decide) (by decide)
      (by decide) e3
  have e5 := Reads.atom (vi := 16 * 8 + 3) (t := 0xF00B) (body := fopt n) (by decide) (by decide) (by decide)
      (by rw [fopt_length]; decide) e4
  have e6 := Reads.atom (vi := 16 * 0xCA + 2) (t := 0xF00A) (body := leN 4 (makeSPID sheet spid) ++ leN 4 0x0A00) (by decide) (by decide)
      (by decide) (by simp only [List.length_append, leN_length]; decide) e5
  rw [fopt_length, anchorBytes_length, show draw102.length = 6 from rfl, List.length_nil,
    show (leN 4 (makeSPID sheet spid) ++ leN 4 0x0A00).length = 8 by simp only [List.length_append, leN_length]] at e6
  have e7 := Reads.cont (vi := 16 * 0 + 0xF) (t := 0xF004) (by decide) (by decide) (by decide)
    (by simp only [List.length_append, leN_length, fopt_length, anchorBytes_length, draw102, List.length_cons, List.length_nil]; decide) e6 hr
  unfold shapeBytes drawingText
  rw [drawData_eq 0xF _ _ _ _ (by decide), drawData_eq 2 _ _ _ _ (by decide), drawData_eq 3 8 _ _ _ (by decide),
    drawData_eq 3 1 _ _ _ (by decide), drawData_eq 0 0 0xF010 _ _ (by decide), drawData_eq 0 0 0xF011 _ _ (by decide),
    drawData_eq 0 0 0xF00D _ _ (by decide)]
  simp only [List.append_assoc, List.append_nil, List.length_append, leN_length, fopt_length, anchorBytes_length,
    show draw102.length = 6 from rfl, List.length_nil] at e7 ⊢
  exact e7

/-- The records of the drawing unit of one comment. -/
def unitRecords (sheet count spid idx : Nat) (n : Note) : List Rec :=
  [(0xEC, (if idx = 0 then drawingContainer sheet spid (count % 65536) else []) ++
      drawingText sheet (if idx = 0 then (spid + 1) % 2 ^ 32 else spid) n),
    (0x5D, objData idx), (0xEC, drawData 0x0 0x0 0xF00D 0 []), (0x1B6, txoData n), (0x3C, strBytes n.full .nolen), (0x3C, runData n)]

theorem drawingContainer_length (sheet spid count : Nat) : (drawingContainer sheet spid count).length = 80 := by
  simp only [drawingContainer, drawData, List.length_append, leN_length, List.length_nil, List.length_cons]

theorem drawingText_length (sheet spid : Nat) (n : Note) : (drawingText sheet spid n).length = 128 := by
  simp only [drawingText, drawData, List.length_append, leN_length, List.length_nil, List.length_cons, fopt_length, anchorBytes_length, draw102]

theorem objData_length (i : Nat) : (objData i).length = 26 := by simp only [objData, List.length_append, leN_length]

theorem txoData_length (n : Note) : (txoData n).length = 18 := by
  simp only [txoData, List.length_append, leN_length, List.length_cons, List.length_nil]

theorem runData_length (n : Note) : (runData n).length = 24 := by simp only [runData, List.length_append, leN_length]

theorem textbox_length : (drawData 0x0 0x0 0xF00D 0 []).length = 8 := by
  simp only [drawData, List.length_append, leN_length, List.length_nil]

theorem drawing_enc (sheet count spid idx : Nat) (n : Note) (h : (strBytes n.full .nolen).length < 65536) :
    drawing sheet count spid idx n = (unitRecords sheet count spid idx n).flatMap enc := by
  simp only [drawing, tail, unitRecords, List.flatMap_cons, List.flatMap_nil, enc, Nat.mod_eq_of_lt h, objData_length, txoData_length,
    runData_length, textbox_length, List.append_assoc, List.append_nil]

theorem str_nolen_length (s : List UInt16) : (strBytes s .nolen).length ≤ 2 * s.length + 1 := by
  rw [c04_string_size]
  simp only [unicodeStringLength]
  split <;> omega

theorem drawing_records (sheet count spid idx : Nat) (n : Note) (h : n.full.length < 32767) :
    records (drawing sheet count spid idx n) = some (unitRecords sheet count spid idx n) := by
  have hl := str_nolen_length n.full
  rw [drawing_enc _ _ _ _ _ (by omega)]
  refine records_all _ ?_
  intro r hr
  simp only [unitRecords, List.mem_cons, List.not_mem_nil, or_false] at hr
  rcases hr with rfl | rfl | rfl | rfl | rfl | rfl
  · refine ⟨by show (236 : Nat) < 65536; decide, ?_⟩
    simp only [List.length_append, drawingText_length]
    split
    · rw [drawingContainer_length]; decide
    · decide
  · exact ⟨by show (0x5D : Nat) < 65536; decide, by simp only [objData_length]; decide⟩
  · exact ⟨by show (236 : Nat) < 65536; decide, by simp only [textbox_length]; decide⟩
  · exact ⟨by show (0x1B6 : Nat) < 65536; decide, by simp only [txoData_length]; decide⟩
  · exact ⟨by show (0x3C : Nat) < 65536; decide, by simp only; omega⟩
  · exact ⟨by show (0x3C : Nat) < 65536; decide, by simp only [runData_length]; decide⟩

theorem drawingBytes_append (a b : List Rec) : drawingBytes (a ++ b) = drawingBytes a ++ drawingBytes b := by
  simp [drawingBytes]

theorem unit_drawingBytes (sheet count spid idx : Nat) (n : Note) :
    drawingBytes (unitRecords sheet count spid idx n) =
      (if idx = 0 then drawingContainer sheet spid (count % 65536) else []) ++
        shapeBytes sheet (if idx = 0 then (spid + 1) % 2 ^ 32 else spid) n := by
  simp [drawingBytes, unitRecords, shapeBytes]

/-! ### Identifiers -/

theorem makeSPID_mod (sheet i : Nat) : makeSPID sheet (i % 2 ^ 32) = makeSPID sheet i := by
  unfold makeSPID; omega

end Xls.Note
