import Verif.Note.Lemmas
import Verif.Sheet.LinkProps
/-
Comments in a saved sheet: helper lemmas.
-/
namespace Xls.Note
open Xls.Biff Xls.Unit Xls.Spec Xls.Sheet Xls.Cells Xls.Rows

variable {α : Type}

/-- A sheet whose comments are made by note.cpp; the cells' records remain parameters. -/
def env (cellData : Cell α → Bytes) (cellSize : Cell α → Nat) : Env α Note :=
  { cellData := cellData, cellSize := cellSize, drawing := drawing, noteData := fun i n => enc (0x1C, notePayload i n) }

theorem env_typed {cellData : Cell α → Bytes} {cellSize : Cell α → Nat}
    (h : ∀ c, (typeOf (cellData c)).bind sectionOf = some 6) : (env cellData cellSize).Typed := by
  refine ⟨h, fun a b c i n => ?_, fun i n => ?_⟩
  · show (typeOf (drawing a b c i n)).bind sectionOf = some 7
    have : ∀ (x : Bytes), typeOf (leN 2 0xEC ++ x) = some 0xEC := by
      intro x
      have := rdLE_at' (i := 0) 2 0xEC [] x rfl
      rwa [List.nil_append] at this
    unfold drawing
    simp only [List.append_assoc]
    rw [this]; rfl
  · show (typeOf (enc (0x1C, _))).bind sectionOf = some 8
    rw [typeOf_enc _ _ (by decide)]; rfl

/-! ### Helper lemmas -/

/-- The records of the drawing units of the comments from number `k` on. -/
def recsFrom (sheet count sp k : Nat) : List Note → List Rec
  | [] => []
  | n :: r => unitRecords sheet count sp k n ++ recsFrom sheet count ((sp + if k = 0 then 2 else 1) % 2 ^ 32) (k + 1) r

/-- The shapes of the comments, the first with number `sp`. -/
def shapesFrom (sheet sp : Nat) : List Note → Bytes
  | [] => []
  | n :: r => shapeBytes sheet sp n ++ shapesFrom sheet (sp + 1) r

theorem shapeBytes_mod (sheet i : Nat) (n : Note) : shapeBytes sheet (i % 2 ^ 32) n = shapeBytes sheet i n := by
  unfold shapeBytes drawingText
  rw [makeSPID_mod]

theorem shapesFrom_mod (sheet : Nat) (l : List Note) : ∀ i, shapesFrom sheet (i % 2 ^ 32) l = shapesFrom sheet i l := by
  induction l with
  | nil => intro i; rfl
  | cons n r ih =>
    intro i
    rw [shapesFrom, shapesFrom, shapeBytes_mod, ← ih (i % 2 ^ 32 + 1), ← ih (i + 1)]
    congr 2
    omega

theorem recsFrom_drawing (sheet count : Nat) (l : List Note) : ∀ sp k, k ≠ 0 →
    drawingBytes (recsFrom sheet count sp k l) = shapesFrom sheet sp l := by
  induction l with
  | nil => intro sp k _; rfl
  | cons n r ih =>
    intro sp k hk
    rw [recsFrom, drawingBytes_append, unit_drawingBytes, if_neg hk, if_neg hk, if_neg hk, ih _ _ (by omega), shapesFrom_mod]
    rfl

theorem drawEvs_recs (cd : Cell α → Bytes) (cs : Cell α → Nat) (D : Data α Note) (l : List Note) : ∀ sp k,
    (∀ n ∈ l, n.full.length < 32767) →
    ((drawEvs sp k l : List (Ev α Note)).map (Ev.bytes (env cd cs) D)).flatten =
      (recsFrom D.index D.notes.length sp k l).flatMap enc := by
  induction l with
  | nil => intro sp k _; rfl
  | cons n r ih =>
    intro sp k h
    have hl := str_nolen_length n.full
    have h0 := h n (by simp)
    have he : Ev.bytes (env cd cs) D (Ev.drawing sp k n) = drawing D.index D.notes.length sp k n := rfl
    rw [drawEvs, List.map_cons, List.flatten_cons, recsFrom, List.flatMap_append, ih _ _ (fun x hx => h x (by simp [hx])), he,
      drawing_enc _ _ _ _ _ (by omega)]

theorem unitRecords_fits (sheet count sp k : Nat) (n : Note) (h0 : n.full.length < 32767) :
    ∀ r ∈ unitRecords sheet count sp k n, Fits r := by
  intro r hr
  have hl := str_nolen_length n.full
  simp only [unitRecords, List.mem_cons, List.not_mem_nil, or_false] at hr
  rcases hr with rfl | rfl | rfl | rfl | rfl | rfl
  · refine ⟨by show (236 : Nat) < 65536; decide, ?_⟩
    simp only [List.length_append, drawingText_length]
    split
    · rw [drawingContainer_length]; decide
    · decide
  · exact ⟨by show (0x5D : Nat) < 65536; decide, by simp only [objData_length]; decide⟩
  · exact ⟨by show (236 : Nat) < 65536; decide, by simp only [textbox_length]; decide⟩
  · exact ⟨by show (0x1B6 : Nat) < 65536; decide, by simp only [txoData_length]; decide⟩
  · exact ⟨by show (0x3C : Nat) < 65536; decide, by simp only; omega⟩
  · exact ⟨by show (0x3C : Nat) < 65536; decide, by simp only [runData_length]; decide⟩

theorem recsFrom_fits (sheet count : Nat) (l : List Note) : ∀ sp k, (∀ n ∈ l, n.full.length < 32767) →
    ∀ r ∈ recsFrom sheet count sp k l, Fits r := by
  induction l with
  | nil => intro sp k _ r hr; simp [recsFrom] at hr
  | cons n t ih =>
    intro sp k h r hr
    rw [recsFrom, List.mem_append] at hr
    rcases hr with hr | hr
    · exact unitRecords_fits _ _ _ _ _ (h n (by simp)) r hr
    · exact ih _ _ (fun x hx => h x (by simp [hx])) r hr

theorem layout_draw (e : Env α Note) (D : Data α Note) (sp pos : Nat) (bs : List (Block α)) :
    ((layout e D sp pos bs).filter fun e => e.sec == 7) = drawEvs sp 0 D.notes := by
  have hd : ((drawEvs sp 0 D.notes : List (Ev α Note)).filter fun e => e.sec == 7) = drawEvs sp 0 D.notes := by
    rw [List.filter_eq_self]
    intro e he
    simp [draw_mem he]
  simp only [layout, List.filter_append, filter_pane (j := 7) (by omega), hd, filter_dv (j := 7) (by omega) (by omega),
    filter_note (j := 7) (by omega)]
  rw [filter_sec_none Ev.colinfo 3 7 (by omega) _ (fun _ => rfl), filter_sec_none Ev.rb 6 7 (by omega) _ (fun _ => rfl),
    filter_sec_none Ev.merged 9 7 (by omega) _ (fun _ => rfl), filter_sec_none Ev.link 12 7 (by omega) _ (fun _ => rfl)]
  simp [Ev.sec]

theorem layout_note (e : Env α Note) (D : Data α Note) (sp pos : Nat) (bs : List (Block α)) :
    ((layout e D sp pos bs).filter fun e => e.sec == 8) = noteEvs 0 D.notes := by
  have hd : ((noteEvs 0 D.notes : List (Ev α Note)).filter fun e => e.sec == 8) = noteEvs 0 D.notes := by
    rw [List.filter_eq_self]
    intro e he
    simp [note_mem he]
  simp only [layout, List.filter_append, filter_pane (j := 8) (by omega), hd, filter_dv (j := 8) (by omega) (by omega),
    filter_draw (j := 8) (by omega)]
  rw [filter_sec_none Ev.colinfo 3 8 (by omega) _ (fun _ => rfl), filter_sec_none Ev.rb 6 8 (by omega) _ (fun _ => rfl),
    filter_sec_none Ev.merged 9 8 (by omega) _ (fun _ => rfl), filter_sec_none Ev.link 12 8 (by omega) _ (fun _ => rfl)]
  simp [Ev.sec]

theorem shapeId_node (sheet spid : Nat) (n : Note) : shapeId (shapeNode sheet spid n) = some (makeSPID sheet spid) := by
  have h : makeSPID sheet spid < 2 ^ 32 := by unfold makeSPID; omega
  have := rdLE_at' (i := 0) 4 (makeSPID sheet spid) [] (leN 4 0x0A00) rfl
  rw [List.nil_append, Nat.mod_eq_of_lt h] at this
  simp only [shapeNode, shapeId, List.filterMap_cons, List.filterMap_nil, List.length_append, leN_length, this]
  rfl

/-- The elements of the shapes. -/
def shapeNodes (sheet sp : Nat) : List Note → List Node
  | [] => []
  | n :: r => shapeNode sheet sp n :: shapeNodes sheet (sp + 1) r

theorem shapes_read (sheet : Nat) (l : List Note) : ∀ sp, Reads (shapesFrom sheet sp l) (shapeNodes sheet sp l) := by
  induction l with
  | nil => intro sp; exact .nil
  | cons n r ih => intro sp; exact shape_reads sheet sp n (ih (sp + 1))

theorem shapesFrom_length (sheet : Nat) (l : List Note) : ∀ sp, (shapesFrom sheet sp l).length = 136 * l.length := by
  induction l with
  | nil => intro sp; rfl
  | cons n r ih =>
    intro sp
    rw [shapesFrom, List.length_append, ih, shapeBytes, List.length_append, drawingText_length, textbox_length, List.length_cons]
    omega

theorem shapeNodes_ids (sheet : Nat) (l : List Note) : ∀ sp,
    (shapeNodes sheet sp l).mapM shapeId = some ((List.range l.length).map fun j => makeSPID sheet (sp + j)) := by
  induction l with
  | nil => intro sp; rfl
  | cons n r ih =>
    intro sp
    rw [shapeNodes, List.mapM_cons, shapeId_node, ih, List.length_cons, List.range_succ_eq_map, List.map_cons, List.map_map]
    simp only [Option.bind_eq_bind, Option.bind_some, Nat.add_zero]
    congr 2
    refine List.map_congr_left fun j _ => ?_
    simp only [Function.comp_apply, Nat.succ_eq_add_one]
    congr 1
    omega

theorem Reads.draw {v i t len : Nat} {body rest : Bytes} {ns : List Node} (hv : v < 15) (hi : i < 4096) (ht : t < 65536)
    (hl : len = body.length) (hb : len < 2 ^ 32) (hr : Reads rest ns) :
    Reads (drawData v i t len [] ++ (body ++ rest)) (.atom v i t body :: ns) := by
  have := Reads.atom (vi := 16 * i + v) (t := t) (body := body) (by omega) (by omega) ht (by omega) hr
  rw [show (16 * i + v) % 16 = v by omega, show (16 * i + v) / 16 = i by omega] at this
  rw [drawData_eq v i t len [] (by omega), hl]
  simp only [List.append_assoc, List.nil_append] at this ⊢
  exact this

theorem Reads.drawC {i t len : Nat} {body rest : Bytes} {cs ns : List Node} (hi : i < 4096) (ht : t < 65536)
    (hl : len = body.length) (hb : len < 2 ^ 32) (hc : Reads body cs) (hr : Reads rest ns) :
    Reads (drawData 0xF i t len [] ++ (body ++ rest)) (.cont i t cs :: ns) := by
  have := Reads.cont (vi := 16 * i + 0xF) (t := t) (body := body) (by omega) (by omega) ht (by omega) hc hr
  rw [show (16 * i + 0xF) / 16 = i by omega] at this
  rw [drawData_eq 0xF i t len [] (by omega), hl]
  simp only [List.append_assoc, List.nil_append] at this ⊢
  exact this

theorem drawData_nil (v i t l : Nat) (b : Bytes) : drawData v i t l b = drawData v i t l [] ++ b := by
  simp [drawData]

theorem drawData_length (v i t l : Nat) (b : Bytes) : (drawData v i t l b).length = 8 + b.length := by
  simp only [drawData, List.length_append, leN_length]

/-- The group's own shape. -/
def patriarch (sheet sp : Nat) : Bytes :=
  drawData 0x1 0x0 0xF009 16 [] ++ ([0, 0, 0, 0, 0, 0, 0, 0, 0, 0, 0, 0, 0, 0, 0, 0] ++
    (drawData 0x2 0x0 0xF00A 8 [] ++ ((leN 4 (makeSPID sheet sp) ++ leN 4 5) ++ [])))

def patriarchNodes (sheet sp : Nat) : List Node :=
  [.atom 1 0 0xF009 [0, 0, 0, 0, 0, 0, 0, 0, 0, 0, 0, 0, 0, 0, 0, 0], .atom 2 0 0xF00A (leN 4 (makeSPID sheet sp) ++ leN 4 5)]

theorem patriarch_length (sheet sp : Nat) : (patriarch sheet sp).length = 40 := by
  simp only [patriarch, List.length_append, drawData_length, leN_length, List.length_nil, List.length_cons]

theorem patriarch_reads (sheet sp : Nat) : Reads (patriarch sheet sp) (patriarchNodes sheet sp) := by
  refine Reads.draw (by decide) (by decide) (by decide) rfl (by decide) ?_
  exact Reads.draw (by decide) (by decide) (by decide) (by simp only [List.length_append, leN_length]) (by decide) .nil

theorem patriarch_id (sheet sp : Nat) : shapeId (.cont 0 0xF004 (patriarchNodes sheet sp)) = some (makeSPID sheet sp) := by
  have h : makeSPID sheet sp < 2 ^ 32 := by unfold makeSPID; omega
  have := rdLE_at' (i := 0) 4 (makeSPID sheet sp) [] (leN 4 5) rfl
  rw [List.nil_append, Nat.mod_eq_of_lt h] at this
  simp only [patriarchNodes, shapeId, List.filterMap_cons, List.filterMap_nil, List.length_append, leN_length, this]
  rfl

/-- The shapes with the group's own. -/
def grp (sheet sp : Nat) (l : List Note) : Bytes :=
  drawData 0xF 0x0 0xF004 40 [] ++ (patriarch sheet sp ++ shapesFrom sheet (sp + 1) l)

theorem grp_length (sheet sp : Nat) (l : List Note) : (grp sheet sp l).length = 48 + 136 * l.length := by
  simp only [grp, List.length_append, drawData_length, patriarch_length, shapesFrom_length, List.length_nil]
  omega

theorem grp_reads (sheet sp : Nat) (l : List Note) :
    Reads (grp sheet sp l) (.cont 0 0xF004 (patriarchNodes sheet sp) :: shapeNodes sheet (sp + 1) l) :=
  Reads.drawC (by decide) (by decide) (patriarch_length sheet sp).symm (by decide) (patriarch_reads sheet sp) (shapes_read sheet l (sp + 1))

theorem container_bytes (sheet sp : Nat) (l : List Note) (hl : l.length < 65536) :
    drawingContainer sheet sp l.length ++ shapesFrom sheet (sp + 1) l =
      drawData 0xF 0 0xF002 (72 + 136 * l.length) [] ++
        ((drawData 0 1 0xF008 8 [] ++ ((leN 4 (l.length + 1) ++ leN 4 (makeSPID sheet (sp + l.length))) ++
          (drawData 0xF 0 0xF003 (48 + 136 * l.length) [] ++ (grp sheet sp l ++ [])))) ++ []) := by
  have a1 : (8 + 16 + (40 + 8) + drawingSize * l.length) % 2 ^ 32 = 72 + 136 * l.length := by unfold drawingSize; omega
  have a2 : (40 + 8 + drawingSize * l.length) % 2 ^ 32 = 48 + 136 * l.length := by unfold drawingSize; omega
  have a3 : (l.length + 1) % 2 ^ 32 = l.length + 1 := by omega
  have a4 : (makeSPID sheet sp + l.length) % 2 ^ 32 = makeSPID sheet (sp + l.length) := by unfold makeSPID; omega
  unfold drawingContainer grp patriarch
  simp only [a1, a2, a3, a4]
  rw [drawData_nil 1 0 0xF009 16 [0, 0, 0, 0, 0, 0, 0, 0, 0, 0, 0, 0, 0, 0, 0, 0]]
  simp only [List.append_assoc, List.append_nil]

theorem container_read (sheet sp : Nat) (l : List Note) (hl : l.length < 65536) :
    readDrawing (drawingContainer sheet sp l.length ++ shapesFrom sheet (sp + 1) l) =
      some ⟨l.length + 1, makeSPID sheet (sp + l.length), (List.range (l.length + 1)).map fun j => makeSPID sheet (sp + j)⟩ := by
  have hm : makeSPID sheet (sp + l.length) < 2 ^ 32 := by unfold makeSPID; omega
  have e1 := Reads.drawC (t := 0xF003) (i := 0) (by decide) (by decide) (grp_length sheet sp l).symm (by omega) (grp_reads sheet sp l) .nil
  have e2 := Reads.draw (v := 0) (i := 1) (t := 0xF008) (len := 8) (body := leN 4 (l.length + 1) ++ leN 4 (makeSPID sheet (sp + l.length)))
    (by decide) (by decide) (by decide) (by simp only [List.length_append, leN_length]) (by decide) e1
  have e3 := Reads.drawC (t := 0xF002) (i := 0) (len := 72 + 136 * l.length) (by decide) (by decide)
    (by simp only [List.length_append, drawData_length, grp_length, leN_length, List.length_nil]; omega) (by omega) e2 .nil
  have hn := Reads.nodes e3
  have h1 := rdLE_at' (i := 0) 4 (l.length + 1) [] (leN 4 (makeSPID sheet (sp + l.length))) rfl
  have h2 := rdLE_at' (i := 4) 4 (makeSPID sheet (sp + l.length)) (leN 4 (l.length + 1)) [] (by simp only [leN_length])
  rw [List.nil_append, Nat.mod_eq_of_lt (by omega)] at h1
  rw [List.append_nil, Nat.mod_eq_of_lt hm] at h2
  have h3 : (Node.cont 0 0xF004 (patriarchNodes sheet sp) :: shapeNodes sheet (sp + 1) l).mapM shapeId =
      some ((List.range (l.length + 1)).map fun j => makeSPID sheet (sp + j)) := by
    rw [List.mapM_cons, patriarch_id, shapeNodes_ids, List.range_succ_eq_map, List.map_cons, List.map_map]
    simp only [Option.bind_eq_bind, Option.bind_some, Nat.add_zero]
    congr 2
    refine List.map_congr_left fun j _ => ?_
    simp only [Function.comp_apply, Nat.succ_eq_add_one]
    congr 1
    omega
  rw [container_bytes sheet sp l hl]
  unfold readDrawing
  rw [hn]
  simp only [h1, h2, h3, List.length_append, leN_length]
  rfl

theorem recsFrom_whole (sheet sp : Nat) (l : List Note) (hn : l ≠ []) (hl : l.length < 65536) :
    drawingBytes (recsFrom sheet l.length sp 0 l) = drawingContainer sheet sp l.length ++ shapesFrom sheet (sp + 1) l := by
  cases l with
  | nil => exact absurd rfl hn
  | cons n r =>
    rw [recsFrom, drawingBytes_append, unit_drawingBytes, if_pos rfl, if_pos rfl, if_pos rfl, recsFrom_drawing _ _ _ _ _ (by omega),
      shapesFrom_mod, shapeBytes_mod, Nat.mod_eq_of_lt hl, shapesFrom, List.append_assoc]

theorem unit_comment (sheet count sp k : Nat) (n : Note) (h : n.full.length < 32767) :
    readComment (unitRecords sheet count sp k n) =
      some ⟨(k + 1) % 65536, n.full, [(0, 1), (n.author.length + 2, 0), (n.full.length, 0)]⟩ := by
  have ha : n.author.length + 2 ≤ n.full.length := by simp only [Note.full, List.length_append, List.length_cons, List.length_nil]; omega
  have h1 : rdLE 2 (objData k) 6 = some ((k + 1) % 65536) := by
    have := rdLE_at' (i := 6) 2 ((k + 1) % 65536) (leN 2 0x15 ++ leN 2 0x12 ++ leN 2 0x19)
      (leN 2 0x6011 ++ leN 4 0 ++ leN 4 0 ++ leN 4 0 ++ leN 4 0) (by simp only [List.length_append, leN_length])
    rw [Nat.mod_eq_of_lt (show (k + 1) % 65536 < 256 ^ 2 by omega)] at this
    unfold objData
    simp only [List.append_assoc] at this ⊢
    exact this
  have h2 : rdLE 2 (txoData n) 10 = some n.full.length := by
    have := rdLE_at' (i := 10) 2 (n.full.length % 65536) (leN 2 0x0212 ++ leN 2 0 ++ [0, 0, 0, 0, 0, 0])
      (leN 2 (8 * 3) ++ [0, 0, 0, 0]) (by simp only [List.length_append, leN_length, List.length_cons, List.length_nil])
    rw [Nat.mod_eq_of_lt (show n.full.length % 65536 < 256 ^ 2 by omega), Nat.mod_eq_of_lt (show n.full.length < 65536 by omega)] at this
    unfold txoData
    rw [Nat.mod_eq_of_lt (show n.full.length < 65536 by omega)]
    simp only [List.append_assoc] at this ⊢
    exact this
  have h3 : rdLE 2 (txoData n) 12 = some 24 := by
    have := rdLE_at' (i := 12) 2 (8 * 3) (leN 2 0x0212 ++ leN 2 0 ++ [0, 0, 0, 0, 0, 0] ++ leN 2 (n.full.length % 65536))
      [0, 0, 0, 0] (by simp only [List.length_append, leN_length, List.length_cons, List.length_nil])
    unfold txoData
    simp only [List.append_assoc] at this ⊢
    exact this
  have h4 := c04_nolen_roundtrip n.full []
  rw [List.append_nil] at h4
  have h5 : readRuns 3 (runData n) = some [(0, 1), (n.author.length + 2, 0), (n.full.length, 0)] := by
    have e : leN 4 0 = leN 4 0 ++ [] := (List.append_nil _).symm
    unfold runData
    rw [Nat.mod_eq_of_lt (show n.full.length < 65536 by omega), Nat.mod_eq_of_lt (show n.author.length + 2 < 65536 by omega)]
    simp only [List.append_assoc]
    rw [show leN 2 0 ++ leN 4 0 = leN 2 0 ++ (leN 4 0 ++ []) by rw [List.append_nil]]
    simp only [readRuns, takeLE_leN_append, Option.map_some]
    rw [Nat.mod_eq_of_lt (show n.full.length < 256 ^ 2 by omega), Nat.mod_eq_of_lt (show n.author.length + 2 < 256 ^ 2 by omega)]
  simp only [readComment, unitRecords, h1, h2, h3, h4, txoData_length, runData_length, and_self, if_true]
  rw [show (24 : Nat) / 8 = 3 from rfl, h5]
  rfl


end Xls.Note
