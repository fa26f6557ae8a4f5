import Verif.Note.InSheet
/-
The boxes of comments: helper lemmas.
-/
namespace Xls.Note
open Xls.Biff Xls.Unit Xls.Spec

/-- The place that an anchor says. -/
def Anchor.place (a : Anchor) : Place :=
  ⟨.ofNat a.flag, .ofNat a.col1, .ofNat a.dx1, .ofNat a.row1, .ofNat a.dy1, .ofNat a.col2, .ofNat a.dx2, .ofNat a.row2, .ofNat a.dy2⟩

theorem ofNat_mod16 (x : Nat) : UInt16.ofNat (x % 256 ^ 2) = UInt16.ofNat x := by
  apply UInt16.toNat_inj.mp
  simp

theorem words_cons (n x : Nat) (r : Bytes) : words (n + 1) (leN 2 x ++ r) = (words n r).map (UInt16.ofNat x :: ·) := by
  rw [words, takeLE_leN_append]
  simp only [ofNat_mod16]

theorem place_read (a : Anchor) : readPlace (anchorBytes a) = some a.place := by
  have : anchorBytes a = leN 2 a.flag ++ (leN 2 a.col1 ++ (leN 2 a.dx1 ++ (leN 2 a.row1 ++ (leN 2 a.dy1 ++ (leN 2 a.col2 ++ (leN 2 a.dx2 ++
      (leN 2 a.row2 ++ (leN 2 a.dy2 ++ [])))))))) := by simp only [anchorBytes, List.append_assoc, List.append_nil]
  unfold readPlace
  rw [this]
  rw [words_cons 8, words_cons 7, words_cons 6, words_cons 5, words_cons 4, words_cons 3, words_cons 2, words_cons 1, words_cons 0]
  rfl

theorem props_cons (n k v : Nat) (r : Bytes) (hk : k < 65536) (hv : v < 2 ^ 32) :
    readProps (n + 1) (opid k v ++ r) = (readProps n r).map ((k, v) :: ·) := by
  rw [readProps, opid, List.append_assoc, takeLE_leN_append]
  simp only
  rw [takeLE_leN_append, Nat.mod_eq_of_lt (show k < 256 ^ 2 from hk), Nat.mod_eq_of_lt (show v < 256 ^ 4 from hv)]

theorem fopt_read (n : Note) : readProps 8 (fopt n) = some [(0x0085, 1), (0x00BF, 0x000A0008), (0x0158, 0), (0x0181, n.fill.toNat), (0x0183, 0x08000050),
    (0x01BF, 0x00100010), (0x023F, 0x00030003), (0x03BF, 0x00020002)] := by
  have : fopt n = opid 0x0085 1 ++ (opid 0x00BF 0x000A0008 ++ (opid 0x0158 0 ++ (opid 0x0181 n.fill.toNat ++ (opid 0x0183 0x08000050 ++
      (opid 0x01BF 0x00100010 ++ (opid 0x023F 0x00030003 ++ (opid 0x03BF 0x00020002 ++ []))))))) := by simp only [fopt, List.append_assoc, List.append_nil]
  rw [this, props_cons _ _ _ _ (by decide) (by decide), props_cons _ _ _ _ (by decide) (by decide), props_cons _ _ _ _ (by decide) (by decide),
    props_cons _ _ _ _ (by decide) n.fill.toNat_lt, props_cons _ _ _ _ (by decide) (by decide), props_cons _ _ _ _ (by decide) (by decide),
    props_cons _ _ _ _ (by decide) (by decide), props_cons _ _ _ _ (by decide) (by decide)]
  rfl

/-- The box of a comment. -/
def Note.box (n : Note) : Box := ⟨n.fill.toNat, n.anchor.place⟩

theorem shape_box (sheet sp : Nat) (n : Note) : boxOf (shapeNode sheet sp n) = some (some n.box) := by
  have h1 : ∀ t : Nat, atoms t [.atom 2 0xCA 0xF00A (leN 4 (makeSPID sheet sp) ++ leN 4 0x0A00), .atom 3 8 0xF00B (fopt n),
    .atom 3 1 0xF122 draw102, .atom 0 0 0xF010 (anchorBytes n.anchor), .atom 0 0 0xF011 [], .atom 0 0 0xF00D []] =
      [(0xF00A, 0xCA, leN 4 (makeSPID sheet sp) ++ leN 4 0x0A00), (0xF00B, 8, fopt n), (0xF122, 1, draw102), (0xF010, 0, anchorBytes n.anchor),
        (0xF011, 0, []), (0xF00D, 0, [])].filterMap fun p => if p.1 = t then some p.2 else none := by
    intro t
    unfold atoms
    simp only [List.filterMap_cons, List.filterMap_nil]
  unfold shapeNode boxOf
  simp only [h1]
  simp only [List.filterMap_cons, List.filterMap_nil, if_true, show ¬ (0xF00A = 0xF011) by decide, show ¬ (0xF00B = 0xF011) by decide,
    show ¬ (0xF122 = 0xF011) by decide, show ¬ (0xF010 = 0xF011) by decide, show ¬ (0xF00D = 0xF011) by decide,
    show ¬ (0xF00A = 0xF010) by decide, show ¬ (0xF00B = 0xF010) by decide,
    show ¬ (0xF122 = 0xF010) by decide, show ¬ (0xF011 = 0xF010) by decide, show ¬ (0xF00D = 0xF010) by decide,
    show ¬ (0xF00A = 0xF00B) by decide, show ¬ (0xF010 = 0xF00B) by decide,
    show ¬ (0xF122 = 0xF00B) by decide, show ¬ (0xF011 = 0xF00B) by decide, show ¬ (0xF00D = 0xF00B) by decide, if_false]
  rw [place_read, fopt_read, Option.bind_some, Option.map_some]
  rfl

theorem shapeNodes_boxes (sheet : Nat) (l : List Note) : ∀ sp, (shapeNodes sheet sp l).mapM boxOf = some (l.map fun n => some n.box) := by
  induction l with
  | nil => intro sp; rfl
  | cons n r ih =>
    intro sp
    rw [shapeNodes, List.mapM_cons, shape_box, ih]
    rfl

theorem boxes_read (sheet sp : Nat) (l : List Note) (hl : l.length < 65536) :
    readBoxes (drawingContainer sheet sp l.length ++ shapesFrom sheet (sp + 1) l) = some (l.map Note.box) := by
  have e1 := Reads.drawC (t := 0xF003) (i := 0) (by decide) (by decide) (grp_length sheet sp l).symm (by omega) (grp_reads sheet sp l) .nil
  have e2 := Reads.draw (v := 0) (i := 1) (t := 0xF008) (len := 8) (body := leN 4 (l.length + 1) ++ leN 4 (makeSPID sheet (sp + l.length)))
    (by decide) (by decide) (by decide) (by simp only [List.length_append, leN_length]) (by decide) e1
  have e3 := Reads.drawC (t := 0xF002) (i := 0) (len := 72 + 136 * l.length) (by decide) (by decide)
    (by simp only [List.length_append, drawData_length, grp_length, leN_length, List.length_nil]; omega) (by omega) e2 .nil
  have hn := Reads.nodes e3
  have h3 : (Node.cont 0 0xF004 (patriarchNodes sheet sp) :: shapeNodes sheet (sp + 1) l).mapM boxOf = some (none :: l.map fun n => some n.box) := by
    rw [List.mapM_cons, shapeNodes_boxes]
    rfl
  rw [container_bytes sheet sp l hl]
  unfold readBoxes
  rw [hn]
  simp only [h3, Option.map_some, List.filterMap_cons, id_eq, List.filterMap_map]
  congr 1
  rw [show (id ∘ fun n : Note => some n.box) = fun n => some n.box from rfl, List.filterMap_eq_map']

end Xls.Note
