import Verif.Sheet.Spec
import Verif.Sheet.Lemmas
import Verif.Rows.IndexProps
/-
Helper lemmas: the sections of the canonical layout of a sheet.
-/
namespace Xls.Sheet
open Xls.Cells Xls.Biff Xls.Rows

variable {α ν : Type}

theorem drain_of_trace {σ : Type} {snext : σ → Nat → Nat → Book.Src σ} {off : Nat} {s s' : σ} {wl wl' : Nat}
    {us : List Book.U} (h : Book.STrace snext off s wl us wl' s') :
    ∃ n, ∀ fuel, drain snext (fuel + n) off wl s = .done us s' := by
  induction h with
  | fin h => exact ⟨1, fun fuel => by simp only [drain, h]⟩
  | again h _ ih =>
    obtain ⟨n, hn⟩ := ih
    exact ⟨n + 1, fun fuel => by rw [← Nat.add_assoc, drain]; simp only [h]; exact hn fuel⟩
  | unit h _ ih =>
    obtain ⟨n, hn⟩ := ih
    exact ⟨n + 1, fun fuel => by rw [← Nat.add_assoc, drain]; simp only [h]; rw [hn fuel]; rfl⟩

/-- The section of a record. -/
def Ev.sec : Ev α ν → Nat
  | .bof => 0
  | .index .. => 1
  | .defRowHeight => 2
  | .colinfo _ => 3
  | .defColWidth => 4
  | .dimension => 5
  | .rb _ => 6
  | .drawing .. => 7
  | .note .. => 8
  | .merged _ => 9
  | .window2 => 10
  | .pane => 11
  | .link _ => 12
  | .dvHeader _ => 13
  | .dv _ => 14
  | .eof => 15

theorem typeOf_enc (t : Nat) (p : Bytes) (h : t < 65536) : typeOf (enc (t, p)) = some t := by
  have := rdLE_at 2 t [] (leN 2 p.length ++ p)
  simp only [List.nil_append, List.length_nil] at this
  unfold typeOf enc
  rw [List.append_assoc, this, Nat.mod_eq_of_lt (by omega)]

theorem payloadOf_enc (t : Nat) (p : Bytes) (h : p.length < 65536) : payloadOf (enc (t, p)) = some p := by
  have : rdLE 2 (enc (t, p)) 2 = some p.length := by
    have := rdLE_at' (i := 2) 2 p.length (leN 2 t) p (by simp)
    unfold enc
    rw [List.append_assoc, this, Nat.mod_eq_of_lt (by omega)]
  unfold payloadOf
  rw [this]
  have hl : (enc (t, p)).length = 4 + p.length := by simp [enc]; omega
  have hd : (enc (t, p)).drop 4 = p := by
    unfold enc; rw [List.drop_left' (by simp)]
  simp only [hl, hd, Nat.le_refl, if_true, List.take_length]

theorem sec_unit {env : Env α ν} (ht : env.Typed) (D : Data α ν) (e : Ev α ν) :
    (typeOf (e.unit env D).data).bind sectionOf = some e.sec := by
  cases e with
  | rb e =>
    cases e with
    | row => simp only [Ev.unit, Ev.bytes, Rows.Ev.bytes]; rw [typeOf_enc _ _ (by decide)]; rfl
    | cell c => exact ht.cell c
    | dbcell => simp only [Ev.unit, Ev.bytes, Rows.Ev.bytes]; rw [typeOf_enc _ _ (by decide)]; rfl
  | drawing sp i n => exact ht.drawing _ _ sp i n
  | note i n => exact ht.note i n
  | _ => simp only [Ev.unit, Ev.bytes]; rw [typeOf_enc _ _ (by decide)]; rfl

theorem map_const {β γ : Type} (f : β → γ) (k : γ) (l : List β) (h : ∀ x ∈ l, f x = k) :
    l.map f = List.replicate l.length k := by
  induction l with
  | nil => rfl
  | cons a r ih => simp [List.replicate_succ, h a (by simp), ih (fun x hx => h x (by simp [hx]))]

theorem drawEvs_length (l : List ν) (sp k : Nat) : (drawEvs sp k l : List (Ev α ν)).length = l.length := by
  induction l generalizing sp k with
  | nil => rfl
  | cons a r ih => simp [drawEvs, ih]

theorem noteEvs_length (l : List ν) (k : Nat) : (noteEvs k l : List (Ev α ν)).length = l.length := by
  induction l generalizing k with
  | nil => rfl
  | cons a r ih => simp [noteEvs, ih]

theorem drawEvs_sec (l : List ν) (sp k : Nat) : (drawEvs sp k l : List (Ev α ν)).map Ev.sec = List.replicate l.length 7 := by
  induction l generalizing sp k with
  | nil => rfl
  | cons a r ih => simp [drawEvs, ih, List.replicate_succ, Ev.sec]

theorem noteEvs_sec (l : List ν) (k : Nat) : (noteEvs k l : List (Ev α ν)).map Ev.sec = List.replicate l.length 8 := by
  induction l generalizing k with
  | nil => rfl
  | cons a r ih => simp [noteEvs, ih, List.replicate_succ, Ev.sec]

theorem layout_secs (env : Env α ν) (D : Data α ν) (sp pos : Nat) (bs : List (Block α)) :
    (layout env D sp pos bs).map Ev.sec = (List.range 16).flatMap fun k =>
      List.replicate (expected D (bs.flatMap (Block.evs fun c => (env.cellData c).length)).length k) k := by
  have hdv : (dvEvs D).map Ev.sec =
      List.replicate (if D.dvals.length = 0 then 0 else 1) 13 ++ List.replicate D.dvals.length 14 := by
    unfold dvEvs
    by_cases h : D.dvals = []
    · simp [h]
    · rw [if_neg h, if_neg (by simpa using h), List.map_cons, List.map_map, map_const (Ev.sec ∘ Ev.dv) 14 _ (fun _ _ => rfl)]
      rfl
  have hpane : (if D.rowSplit ≠ 0 ∨ D.colSplit ≠ 0 then [(Ev.pane : Ev α ν)] else []).map Ev.sec =
      List.replicate (if D.rowSplit = 0 ∧ D.colSplit = 0 then 0 else 1) 11 := by
    by_cases h : D.rowSplit = 0 ∧ D.colSplit = 0
    · rw [if_pos h, if_neg (by omega)]; rfl
    · rw [if_neg h, if_pos (by omega)]; rfl
  have hm : ((Book.chunks 1027 D.merged).map (Ev.merged : List Rect → Ev α ν)).map Ev.sec =
      List.replicate ((D.merged.length + 1026) / 1027) 9 := by
    rw [List.map_map, map_const (Ev.sec ∘ Ev.merged) 9 _ (fun _ _ => rfl), Book.chunks_length (by omega)]
  simp only [layout, List.map_append, hdv, hpane, hm, drawEvs_sec, noteEvs_sec, List.map_map]
  rw [map_const (Ev.sec ∘ Ev.colinfo) 3 _ (fun _ _ => rfl), map_const (Ev.sec ∘ Ev.rb) 6 _ (fun _ _ => rfl),
    map_const (Ev.sec ∘ Ev.link) 12 _ (fun _ _ => rfl)]
  simp [List.range, List.range.loop, expected, Ev.sec]

/-- The units of a section, picked from the records. -/
theorem inSection_units {env : Env α ν} (ht : env.Typed) (D : Data α ν) (k : Nat) (evs : List (Ev α ν)) :
    inSection k (evs.map (Ev.unit env D)) = (evs.filter fun e => e.sec == k).map (Ev.bytes env D) := by
  induction evs with
  | nil => rfl
  | cons e r ih =>
    simp only [inSection, List.map_cons, List.filter_cons, sec_unit ht D e] at ih ⊢
    have hk : (some e.sec == some k) = (e.sec == k) := by
      by_cases h : e.sec = k <;> simp [h]
    rw [hk]
    by_cases h : (e.sec == k) = true
    · rw [if_pos h, if_pos h, List.map_cons, List.map_cons, ih]; rfl
    · rw [if_neg h, if_neg h, ih]

theorem filter_sec_none {β : Type} (f : β → Ev α ν) (j k : Nat) (hjk : j ≠ k) (l : List β) (h : ∀ x, (f x).sec = j) :
    ((l.map f).filter fun e => e.sec == k) = [] := by
  rw [List.filter_eq_nil_iff]
  intro e he
  obtain ⟨x, _, rfl⟩ := List.mem_map.mp he
  simp [h x, hjk]

theorem filter_sec_all {β : Type} (f : β → Ev α ν) (k : Nat) (l : List β) (h : ∀ x, (f x).sec = k) :
    ((l.map f).filter fun e => e.sec == k) = l.map f := by
  rw [List.filter_eq_self]
  intro e he
  obtain ⟨x, _, rfl⟩ := List.mem_map.mp he
  simp [h x]

theorem draw_mem {l : List ν} {sp k : Nat} {e : Ev α ν} (h : e ∈ drawEvs sp k l) : e.sec = 7 := by
  have : e.sec ∈ (drawEvs sp k l : List (Ev α ν)).map Ev.sec := List.mem_map_of_mem h
  rw [drawEvs_sec] at this
  exact List.eq_of_mem_replicate this

theorem note_mem {l : List ν} {k : Nat} {e : Ev α ν} (h : e ∈ noteEvs k l) : e.sec = 8 := by
  have : e.sec ∈ (noteEvs k l : List (Ev α ν)).map Ev.sec := List.mem_map_of_mem h
  rw [noteEvs_sec] at this
  exact List.eq_of_mem_replicate this

theorem filter_draw {l : List ν} {sp k j : Nat} (hj : j ≠ 7) :
    ((drawEvs sp k l : List (Ev α ν)).filter fun e => e.sec == j) = [] := by
  rw [List.filter_eq_nil_iff]; intro e he; simp [draw_mem he]; omega

theorem filter_note {l : List ν} {k j : Nat} (hj : j ≠ 8) :
    ((noteEvs k l : List (Ev α ν)).filter fun e => e.sec == j) = [] := by
  rw [List.filter_eq_nil_iff]; intro e he; simp [note_mem he]; omega

theorem filter_dv {D : Data α ν} {j : Nat} (h1 : j ≠ 13) (h2 : j ≠ 14) :
    ((dvEvs D : List (Ev α ν)).filter fun e => e.sec == j) = [] := by
  unfold dvEvs
  split
  · rfl
  · rw [List.filter_cons, if_neg (by simp [Ev.sec]; omega), filter_sec_none _ 14 j (by omega) _ (fun _ => rfl)]

theorem filter_pane {D : Data α ν} {j : Nat} (h1 : j ≠ 11) :
    (((if D.rowSplit ≠ 0 ∨ D.colSplit ≠ 0 then [(Ev.pane : Ev α ν)] else [])).filter fun e => e.sec == j) = [] := by
  split
  · simp [Ev.sec]; omega
  · rfl

theorem layout_cols (env : Env α ν) (D : Data α ν) (sp pos : Nat) (bs : List (Block α)) :
    ((layout env D sp pos bs).filter fun e => e.sec == 3) = D.cols.map .colinfo := by
  simp only [layout, List.filter_append, filter_pane (j := 3) (by omega), filter_dv (j := 3) (by omega) (by omega),
    filter_draw (j := 3) (by omega), filter_note (j := 3) (by omega)]
  rw [filter_sec_all Ev.colinfo 3 _ (fun _ => rfl), filter_sec_none Ev.rb 6 3 (by omega) _ (fun _ => rfl),
    filter_sec_none Ev.merged 9 3 (by omega) _ (fun _ => rfl), filter_sec_none Ev.link 12 3 (by omega) _ (fun _ => rfl)]
  simp [Ev.sec]

theorem layout_rb (env : Env α ν) (D : Data α ν) (sp pos : Nat) (bs : List (Block α)) :
    ((layout env D sp pos bs).filter fun e => e.sec == 6) =
      (bs.flatMap (Block.evs fun c => (env.cellData c).length)).map .rb := by
  simp only [layout, List.filter_append, filter_pane (j := 6) (by omega), filter_dv (j := 6) (by omega) (by omega),
    filter_draw (j := 6) (by omega), filter_note (j := 6) (by omega)]
  rw [filter_sec_none Ev.colinfo 3 6 (by omega) _ (fun _ => rfl), filter_sec_all Ev.rb 6 _ (fun _ => rfl),
    filter_sec_none Ev.merged 9 6 (by omega) _ (fun _ => rfl), filter_sec_none Ev.link 12 6 (by omega) _ (fun _ => rfl)]
  simp [Ev.sec]

theorem layout_merged (env : Env α ν) (D : Data α ν) (sp pos : Nat) (bs : List (Block α)) :
    ((layout env D sp pos bs).filter fun e => e.sec == 9) = (Book.chunks 1027 D.merged).map .merged := by
  simp only [layout, List.filter_append, filter_pane (j := 9) (by omega), filter_dv (j := 9) (by omega) (by omega),
    filter_draw (j := 9) (by omega), filter_note (j := 9) (by omega)]
  rw [filter_sec_none Ev.colinfo 3 9 (by omega) _ (fun _ => rfl), filter_sec_none Ev.rb 6 9 (by omega) _ (fun _ => rfl),
    filter_sec_all Ev.merged 9 _ (fun _ => rfl), filter_sec_none Ev.link 12 9 (by omega) _ (fun _ => rfl)]
  simp [Ev.sec]

theorem layout_links (env : Env α ν) (D : Data α ν) (sp pos : Nat) (bs : List (Block α)) :
    ((layout env D sp pos bs).filter fun e => e.sec == 12) = D.links.map .link := by
  simp only [layout, List.filter_append, filter_pane (j := 12) (by omega), filter_dv (j := 12) (by omega) (by omega),
    filter_draw (j := 12) (by omega), filter_note (j := 12) (by omega)]
  rw [filter_sec_none Ev.colinfo 3 12 (by omega) _ (fun _ => rfl), filter_sec_none Ev.rb 6 12 (by omega) _ (fun _ => rfl),
    filter_sec_none Ev.merged 9 12 (by omega) _ (fun _ => rfl), filter_sec_all Ev.link 12 _ (fun _ => rfl)]
  simp [Ev.sec]

theorem layout_dvs (env : Env α ν) (D : Data α ν) (sp pos : Nat) (bs : List (Block α)) :
    ((layout env D sp pos bs).filter fun e => e.sec == 14) = D.dvals.map .dv := by
  have hdv : ((dvEvs D : List (Ev α ν)).filter fun e => e.sec == 14) = D.dvals.map .dv := by
    unfold dvEvs
    split
    · next h => simp [h]
    · rw [List.filter_cons, if_neg (by simp [Ev.sec]), filter_sec_all _ 14 _ (fun _ => rfl)]
  simp only [layout, List.filter_append, filter_pane (j := 14) (by omega), hdv,
    filter_draw (j := 14) (by omega), filter_note (j := 14) (by omega)]
  rw [filter_sec_none Ev.colinfo 3 14 (by omega) _ (fun _ => rfl), filter_sec_none Ev.rb 6 14 (by omega) _ (fun _ => rfl),
    filter_sec_none Ev.merged 9 14 (by omega) _ (fun _ => rfl), filter_sec_none Ev.link 12 14 (by omega) _ (fun _ => rfl)]
  simp [Ev.sec]

/-- The whole sheet as the workbook pulls it. -/
theorem sheet_drain (env : Env α ν) (D : Data α ν) (off : Nat) (bs : List (Block α)) (s : St α) (hs : Ready D s)
    (hb : blocks D.cells D.heights = some bs) (hlt : D.cells.length < 2 ^ 32) (h16 : D.notes.length ≤ 65535) :
    ∃ n s', (∀ fuel, drain (next env) (fuel + n) off 0 (D, s) =
        .done ((layout env D s.spid off bs).map (Ev.unit env D)) (D, s')) ∧ s'.spid = spidEnd s.spid 0 D.notes ∧ Ready D s' := by
  obtain ⟨pos', s', h, hf, hsp, hr⟩ := sheet_exec env D off bs s hs (fun _ => hb)
    (fun he => by rw [he, blocks] at hb; cases hb; rfl) hlt h16
  obtain ⟨n, hn⟩ := drain_of_trace (h.strace (off := off) (wl := 0) (by omega) hf)
  exact ⟨n, _, hn, hsp, hr⟩

/-- More fuel changes nothing. -/
theorem drain_more {σ : Type} {snext : σ → Nat → Nat → Book.Src σ} (f : Nat) : ∀ {off wl : Nat} {s : σ} (k : Nat),
    drain snext f off wl s ≠ .fuelOut → drain snext (f + k) off wl s = drain snext f off wl s := by
  induction f with
  | zero => intro off wl s k h; exact absurd rfl h
  | succ f ih =>
    intro off wl s k h
    rw [Nat.add_right_comm, drain, drain]
    rw [drain] at h
    cases hn : snext s off wl with
    | ub => rfl
    | fin s' => rfl
    | again s' =>
      rw [hn] at h
      exact ih k h
    | unit u s' =>
      rw [hn] at h
      simp only
      rw [ih k (fun e => h (by simp only [e, Drained.push]))]

/-- A run into undefined behaviour, as the workbook sees it. -/
theorem Exec.drain_ub {env : Env α ν} {D : Data α ν} {p p' : Nat} {s s' : St α} {evs : List (Ev α ν)}
    (h : Exec env D p s evs p' s') {off : Nat} : ∀ {wl : Nat}, p = off + wl → pass env D p' s' = .ub →
    ∃ n, ∀ fuel, drain (next env) (fuel + n) off wl (D, s) = .ub := by
  induction h with
  | refl pos s =>
    intro wl hp hu
    exact ⟨1, fun fuel => by simp only [drain, next, ← hp, hu]⟩
  | again hp _ ih =>
    intro wl he hu
    obtain ⟨n, hn⟩ := ih he hu
    exact ⟨n + 1, fun fuel => by rw [← Nat.add_assoc, drain]; simp only [next, ← he, hp]; exact hn fuel⟩
  | @ret pos s e s1 evs pos' s' hp _ ih =>
    intro wl he hu
    obtain ⟨n, hn⟩ := ih (wl := wl + Book.cost (e.unit env D)) (by omega) hu
    exact ⟨n + 1, fun fuel => by rw [← Nat.add_assoc, drain]; simp only [next, ← he, hp]; rw [hn fuel]; rfl⟩

/-- If the sheet can be pulled to the end, its records are those of the layout. -/
theorem drain_done {env : Env α ν} {D : Data α ν} {off fuel : Nat} {s : St α} {us : List Book.U} {x : Data α ν × St α}
    (hs : Ready D s) (hlt : D.cells.length < 2 ^ 32) (h16 : D.notes.length ≤ 65535)
    (hd : drain (next env) fuel off 0 (D, s) = .done us x) :
    ∃ bs, blocks D.cells D.heights = some bs ∧ us = (layout env D s.spid off bs).map (Ev.unit env D) ∧ x.1 = D ∧
      Ready D x.2 ∧ x.2.spid = spidEnd s.spid 0 D.notes := by
  cases hb : blocks D.cells D.heights with
  | none =>
    obtain ⟨evs, p, s', h1, h2⟩ := sheet_stall env D off s hs hb hlt
    obtain ⟨n, hn⟩ := h1.drain_ub (off := off) (wl := 0) (by omega) h2
    have := drain_more fuel n (by rw [hd]; simp)
    rw [hn fuel, hd] at this
    simp at this
  | some bs =>
    obtain ⟨n, s', h, hsp, hr⟩ := sheet_drain env D off bs s hs hb hlt h16
    have := drain_more fuel n (by rw [hd]; simp)
    rw [h fuel, hd] at this
    simp only [Drained.done.injEq] at this
    obtain ⟨rfl, rfl⟩ := this
    exact ⟨bs, rfl, rfl, rfl, hr, hsp⟩

theorem readRects_payload (l : List Rect) (h : ∀ r ∈ l, r.firstRow < 65536 ∧ r.lastRow < 65536 ∧ r.firstCol < 65536 ∧ r.lastCol < 65536) :
    readRects l.length (l.flatMap fun r => leN 2 r.firstRow ++ leN 2 r.lastRow ++ leN 2 r.firstCol ++ leN 2 r.lastCol) = some l := by
  induction l with
  | nil => rfl
  | cons r t ih =>
    obtain ⟨a, b, c, d⟩ := h r (by simp)
    simp only [List.flatMap_cons, List.length_cons, readRects, List.append_assoc, takeLE_leN_append]
    have ih := ih (fun x hx => h x (by simp [hx]))
    simp only [List.append_assoc] at ih
    rw [ih, Nat.mod_eq_of_lt a, Nat.mod_eq_of_lt b, Nat.mod_eq_of_lt c, Nat.mod_eq_of_lt d]
    rfl

theorem readU32s_payload (l : List Nat) : readU32s l.length (l.flatMap (leN 4)) = some (l.map (· % 2 ^ 32)) := by
  induction l with
  | nil => rfl
  | cons r t ih =>
    simp only [List.flatMap_cons, List.length_cons, readU32s, takeLE_leN_append, ih, List.map_cons, Option.map_some]

theorem flatMap_leN_length (n : Nat) (l : List Nat) : (l.flatMap (leN n)).length = n * l.length := by
  induction l with
  | nil => simp
  | cons a r ih => simp only [List.flatMap_cons, List.length_append, leN_length, List.length_cons, ih, Nat.mul_add]; omega

theorem readIndex_payload (f l : Nat) (offs : List Nat) :
    readIndex (indexPayload f l offs) = some (offs.map (· % 2 ^ 32)) := by
  have hlen : (indexPayload f l offs).length = 12 + 4 * offs.length := by
    simp only [indexPayload, List.length_append, leN_length, flatMap_leN_length]
  unfold readIndex
  rw [if_neg (by omega), hlen, show (12 + 4 * offs.length - 12) / 4 = offs.length by omega]
  rw [← readU32s_payload]
  unfold indexPayload
  rw [List.drop_left' (by simp)]

end Xls.Sheet
