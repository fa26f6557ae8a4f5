import Verif.Save.Spec
import Verif.Book.Inv
import Verif.Globals.Lemmas
import Verif.Note.Props
/-
What the units handed to the workbook become as records.
-/
namespace Xls.Save
open Xls.Biff Xls.Book Xls.Unit

/-! ### Reading back -/

theorem recordsF_some : ∀ (fuel : Nat) (bs : Bytes) (rs : List Rec), recordsF fuel bs = some rs →
    bs = rs.flatMap enc ∧ ∀ r ∈ rs, Fits r := by
  intro fuel
  induction fuel with
  | zero =>
    intro bs rs h
    cases bs with
    | nil => simp [recordsF] at h; subst h; simp
    | cons => simp [recordsF] at h
  | succ f ih =>
    intro bs rs h
    match bs with
    | [] => simp [recordsF] at h; subst h; simp
    | [_] => simp [recordsF] at h
    | [_, _] => simp [recordsF] at h
    | [_, _, _] => simp [recordsF] at h
    | a :: b :: c :: d :: r =>
      simp only [recordsF] at h
      split at h
      · rename_i hl
        obtain ⟨rs', h', rfl⟩ := Option.map_eq_some_iff.mp h
        obtain ⟨e, hf⟩ := ih _ _ h'
        have hcd : ofLE [c, d] < 65536 := by have := ofLE_lt [c, d]; simpa using this
        have hab : ofLE [a, b] < 65536 := by have := ofLE_lt [a, b]; simpa using this
        have hlen : (r.take (ofLE [c, d])).length = ofLE [c, d] := by rw [List.length_take]; omega
        refine ⟨?_, ?_⟩
        · have e1 : leN 2 (ofLE [a, b]) = [a, b] := leN_ofLE [a, b]
          have e2 : leN 2 (ofLE [c, d]) = [c, d] := leN_ofLE [c, d]
          rw [List.flatMap_cons, ← e]
          simp only [enc, hlen, e1, e2]
          simp
        · intro x hx
          rcases List.mem_cons.mp hx with rfl | hx
          · exact ⟨hab, by simp only [hlen]; exact hcd⟩
          · exact hf x hx
      · simp at h

theorem records_some {bs : Bytes} {rs : List Rec} (h : records bs = some rs) : bs = rs.flatMap enc ∧ ∀ r ∈ rs, Fits r :=
  recordsF_some _ _ _ h

/-! ### One unit -/

/-- A record as the file format wants it. -/
def splitRec (t : Nat) (p : Bytes) : List Rec :=
  if p.length ≤ maxRec then [(t, p)] else (t, p.take maxRec) :: (chunks maxRec (p.drop maxRec)).map (fun c => (0x3C, c))

theorem splitRec_written (t : Nat) (p : Bytes) : WrittenAs t p (splitRec t p) := by
  have hm : 0 < maxRec := by decide
  unfold splitRec
  split
  · rename_i h
    exact ⟨p, [], by simp, by simp, h, by simp, by simp, fun h' => absurd h (by simp [maxRec]; omega)⟩
  · rename_i h
    refine ⟨p.take maxRec, chunks maxRec (p.drop maxRec), rfl, ?_, ?_, chunks_mem hm _, ?_, fun _ => ⟨?_, chunks_dropLast hm _⟩⟩
    · rw [chunks_flatten hm, List.take_append_drop]
    · rw [List.length_take]; exact Nat.min_le_left _ _
    · intro h'; exact absurd h' h
    · rw [List.length_take]; exact Nat.min_eq_left (by omega)

theorem splitRec_fits (t : Nat) (p : Bytes) (ht : t < 65536) : ∀ r ∈ splitRec t p, (r.1 = t ∨ r.1 = 0x3C) ∧ r.1 < 65536 ∧ r.2.length ≤ 8224 := by
  have hm : 0 < maxRec := by decide
  intro r hr
  unfold splitRec at hr
  split at hr
  · rename_i h
    rw [List.mem_singleton] at hr
    subst hr
    exact ⟨.inl rfl, ht, h⟩
  · rcases List.mem_cons.mp hr with rfl | hr
    · refine ⟨.inl rfl, ht, ?_⟩
      simp only [List.length_take]
      exact Nat.min_le_left _ _
    · obtain ⟨c, hc, rfl⟩ := List.mem_map.mp hr
      exact ⟨.inr rfl, by simp, (chunks_mem hm _ c hc).2⟩

/-- The records that a unit becomes, when BOUNDSHEET number `i` is given the position `pos i`. -/
inductive Shows (pos : Nat → Option Nat) : U → List Rec → Prop
  | one {u : U} {t : Nat} {p : Bytes} : u.data = enc (t, p) → t < 65536 → u.cont = false → u.tag = none → Shows pos u (splitRec t p)
  | many {u : U} {rs : List Rec} : u.data = rs.flatMap enc → (∀ r ∈ rs, r.1 < 65536 ∧ r.2.length ≤ 8224) →
      (u.cont = true ∨ u.paySize ≤ maxRec) → u.tag = none → Shows pos u rs
  | bound {u : U} {i x : Nat} {q : Bytes} : u.data = enc (0x85, leN 4 0 ++ q) → u.cont = false → u.tag = some i → pos i = some x →
      Shows pos u (splitRec 0x85 (leN 4 x ++ q))

theorem setAt32_enc (t x v : Nat) (q : Bytes) : setAt32 (enc (t, leN 4 x ++ q)) v 4 = some (enc (t, leN 4 v ++ q)) := by
  unfold setAt32 enc
  have hl : (leN 4 x ++ q).length = (leN 4 v ++ q).length := by simp
  rw [if_pos (by simp; omega), List.take_left' (by simp)]
  have : (leN 2 t ++ leN 2 (leN 4 x ++ q).length ++ (leN 4 x ++ q)).drop (4 + 4) = q := by
    rw [← List.append_assoc, List.drop_left' (by simp)]
  simp only [hl] at this ⊢
  rw [this]
  simp

theorem enc_length (t : Nat) (p : Bytes) : (enc (t, p)).length = p.length + 4 := by simp [enc]; omega

theorem mapM_patch_none (bpos : List (Nat × Nat)) (us : List U) (h : ∀ u ∈ us, u.tag = none) : us.mapM (patch bpos) = some (us.map (·.data)) := by
  induction us with
  | nil => rfl
  | cons u r ih =>
    have hu := h u (by simp)
    simp [ih (fun x hx => h x (by simp [hx])), patch, hu]

/-- The position that the dump finally gives to BOUNDSHEET number `i`. -/
def posOf (bpos : List (Nat × Nat)) (i : Nat) : Option Nat := (bpos.find? (fun p => p.1 == i)).map fun p => p.2 % 2 ^ 32

theorem shows_bytes {bpos : List (Nat × Nat)} {u : U} {rs : List Rec} (h : Shows (posOf bpos) u rs) :
    (∃ bss, (pieces u).mapM (patch bpos) = some bss ∧ bss.flatten = rs.flatMap enc) ∧ (∀ r ∈ rs, r.1 < 65536 ∧ r.2.length ≤ 8224) := by
  have hm : 0 < maxRec := by decide
  cases h with
  | @one t p hd ht hc hn =>
    refine ⟨?_, fun r hr => (splitRec_fits t p ht r hr).2⟩
    have hp : u.paySize = p.length := by simp [U.paySize, hd, enc_length]
    by_cases hs : p.length ≤ maxRec
    · rw [pieces_small (.inr (by omega)), mapM_patch_none _ _ (by simpa using hn)]
      exact ⟨_, rfl, by simp [splitRec, hs, hd]⟩
    · have ho : u.oversize = true := by simp [U.oversize, hc]; omega
      have hdrop : u.data.drop 4 = p := by rw [hd]; unfold enc; rw [List.drop_left' (by simp)]
      have htag : ∀ v ∈ pieces u, v.tag = none := by
        intro v hv
        rw [pieces, if_pos ho] at hv
        rcases List.mem_cons.mp hv with rfl | hv
        · exact hn
        · obtain ⟨c, _, rfl⟩ := List.mem_map.mp hv; rfl
      rw [mapM_patch_none _ _ htag]
      refine ⟨_, rfl, ?_⟩
      rw [pieces, if_pos ho, hdrop, splitRec, if_neg hs, List.map_cons, clip_data (t := t) (x := p.length) (p := p) hd (by omega)]
      simp [List.flatMap_def, Function.comp_def, contUnit]
  | many hd hr hc hn =>
    refine ⟨?_, hr⟩
    rw [pieces_small hc, mapM_patch_none _ _ (by simpa using hn)]
    exact ⟨_, rfl, by simp [hd]⟩
  | @bound i x q hd hc hn hx =>
    refine ⟨?_, fun r hr => (splitRec_fits 0x85 _ (by decide) r hr).2⟩
    have hpl : (leN 4 x ++ q).length = (leN 4 0 ++ q).length := by simp
    have hp : u.paySize = (leN 4 0 ++ q).length := by simp [U.paySize, hd, enc_length]
    obtain ⟨y, hy, rfl⟩ := Option.map_eq_some_iff.mp hx
    by_cases hs : (leN 4 0 ++ q).length ≤ maxRec
    · rw [pieces_small (.inr (by omega))]
      refine ⟨[enc (0x85, leN 4 (y.2 % 2 ^ 32) ++ q)], ?_, ?_⟩
      · simp [patch, hn, hy, hd, setAt32_enc]
      · rw [splitRec, if_pos (by rw [hpl]; exact hs)]; simp
    · have ho : u.oversize = true := by simp only [U.oversize, hc, hp]; simp only [Bool.not_false, Bool.true_and, decide_eq_true_eq]; omega
      have hdrop : u.data.drop 4 = leN 4 0 ++ q := by rw [hd]; unfold enc; rw [List.drop_left' (by simp)]
      have htk : ∀ v, (leN 4 v ++ q).take maxRec = leN 4 v ++ q.take (maxRec - 4) := by
        intro v; rw [List.take_append]; simp [List.take_of_length_le, maxRec]
      have hdr : ∀ v, (leN 4 v ++ q).drop maxRec = q.drop (maxRec - 4) := by
        intro v; rw [List.drop_append]; simp [List.drop_eq_nil_of_le, maxRec]
      rw [pieces, if_pos ho, hdrop]
      refine ⟨enc (0x85, leN 4 (y.2 % 2 ^ 32) ++ q.take (maxRec - 4)) ::
        ((chunks maxRec (q.drop (maxRec - 4))).map (contUnit u)).map (·.data), ?_, ?_⟩
      · rw [List.mapM_cons, hdr, mapM_patch_none]
        · have hcl : patch bpos (clip u) = some (enc (0x85, leN 4 (y.2 % 2 ^ 32) ++ q.take (maxRec - 4))) := by
            have : (clip u).tag = some i := hn
            simp only [patch, this, hy]
            rw [clip_data (t := 0x85) (x := (leN 4 0 ++ q).length) (p := leN 4 0 ++ q) hd (by omega), htk, setAt32_enc]
          rw [hcl]
          rfl
        · intro v hv
          obtain ⟨c, _, rfl⟩ := List.mem_map.mp hv; rfl
      · rw [splitRec, if_neg (by rw [hpl]; exact hs), htk, hdr]
        simp [List.flatMap_def, Function.comp_def, contUnit]

/-- The records that a list of units becomes. -/
inductive ShowsL (pos : Nat → Option Nat) : List U → List Rec → Prop
  | nil : ShowsL pos [] []
  | cons {u us rs rs'} : Shows pos u rs → ShowsL pos us rs' → ShowsL pos (u :: us) (rs ++ rs')

theorem ShowsL.append {pos : Nat → Option Nat} {us vs : List U} {rs ss : List Rec} (h : ShowsL pos us rs) (h' : ShowsL pos vs ss) :
    ShowsL pos (us ++ vs) (rs ++ ss) := by
  induction h with
  | nil => exact h'
  | cons a _ ih => rw [List.append_assoc]; exact .cons a ih

theorem mapM_append_some {α β : Type} {f : α → Option β} {l m : List α} {a b : List β} (h1 : l.mapM f = some a) (h2 : m.mapM f = some b) :
    (l ++ m).mapM f = some (a ++ b) := by
  rw [List.mapM_append, h1, h2]; rfl

theorem showsL_bytes {bpos : List (Nat × Nat)} {us : List U} {rs : List Rec} (h : ShowsL (posOf bpos) us rs) :
    (∃ bss, (us.flatMap pieces).mapM (patch bpos) = some bss ∧ bss.flatten = rs.flatMap enc) ∧
      (∀ r ∈ rs, r.1 < 65536 ∧ r.2.length ≤ 8224) := by
  induction h with
  | nil => exact ⟨⟨[], rfl, rfl⟩, by simp⟩
  | cons a _ ih =>
    obtain ⟨⟨b1, e1, f1⟩, g1⟩ := shows_bytes a
    obtain ⟨⟨b2, e2, f2⟩, g2⟩ := ih
    refine ⟨⟨b1 ++ b2, ?_, ?_⟩, ?_⟩
    · rw [List.flatMap_cons]
      exact mapM_append_some e1 e2
    · rw [List.flatten_append, f1, f2, List.flatMap_append]
    · intro r hr
      rcases List.mem_append.mp hr with hr | hr
      · exact g1 r hr
      · exact g2 r hr

theorem showsL_stream {bpos : List (Nat × Nat)} {us : List U} {rs : List Rec} (h : ShowsL (posOf bpos) us rs) :
    stream (us.flatMap pieces) bpos = some (rs.flatMap enc) ∧ records (rs.flatMap enc) = some rs ∧
      ∀ r ∈ rs, r.1 < 65536 ∧ r.2.length ≤ 8224 := by
  obtain ⟨⟨bss, e, f⟩, g⟩ := showsL_bytes h
  refine ⟨by simp [stream, e, f], records_all rs fun r hr => ⟨(g r hr).1, by have := (g r hr).2; omega⟩, g⟩

theorem showsL_map {α : Type} {pos : Nat → Option Nat} (f : α → U) (g : α → List Rec) (l : List α) (h : ∀ x ∈ l, Shows pos (f x) (g x)) :
    ShowsL pos (l.map f) (l.flatMap g) := by
  induction l with
  | nil => exact .nil
  | cons a r ih => exact .cons (h a (by simp)) (ih fun x hx => h x (by simp [hx]))

/-- Every unit becomes some records. -/
theorem showsL_of {pos : Nat → Option Nat} {P : Rec → Prop} (us : List U) (h : ∀ u ∈ us, ∃ rs, Shows pos u rs ∧ ∀ r ∈ rs, P r) :
    ∃ rs, ShowsL pos us rs ∧ ∀ r ∈ rs, P r := by
  induction us with
  | nil => exact ⟨[], .nil, by simp⟩
  | cons u t ih =>
    obtain ⟨a, ha, pa⟩ := h u (by simp)
    obtain ⟨b, hb, pb⟩ := ih fun x hx => h x (by simp [hx])
    refine ⟨a ++ b, .cons ha hb, ?_⟩
    intro r hr
    rcases List.mem_append.mp hr with hr | hr
    · exact pa r hr
    · exact pb r hr

/-! ### Substreams -/

/-- Neither BOF nor EOF. -/
def Inner (r : Rec) : Prop := r.1 ≠ 0x0A ∧ r.1 ≠ 0x809

theorem toEof_inner (mid rest : List Rec) (p : Bytes) (h : ∀ r ∈ mid, Inner r) :
    toEof (mid ++ (0x0A, p) :: rest) = some (mid ++ [(0x0A, p)], rest) := by
  induction mid with
  | nil => simp [toEof]
  | cons r t ih =>
    have hr := h r (by simp)
    simp only [List.cons_append, toEof, if_neg hr.1, if_neg hr.2]
    rw [ih fun x hx => h x (by simp [hx])]
    rfl

/-- One substream with that BOF payload. -/
structure IsSub (bof : Bytes) (rs : List Rec) : Prop where
  parts : ∃ mid, rs = (0x809, bof) :: mid ++ [(0x0A, [])] ∧ ∀ r ∈ mid, Inner r

theorem substreamsF_all (subs : List (List Rec)) (h : ∀ s ∈ subs, ∃ bof, IsSub bof s) :
    ∀ fuel, subs.length ≤ fuel → substreamsF fuel subs.flatten = some subs := by
  induction subs with
  | nil => intro fuel _; cases fuel <;> rfl
  | cons s t ih =>
    intro fuel hf
    obtain ⟨f, rfl⟩ : ∃ f, fuel = f + 1 := ⟨fuel - 1, by simp at hf; omega⟩
    obtain ⟨bof, ⟨mid, rfl, hm⟩⟩ := h s (by simp)
    have e : (((0x809, bof) :: mid ++ [(0x0A, [])]) :: t).flatten = (0x809, bof) :: (mid ++ (0x0A, []) :: t.flatten) := by simp
    rw [e]
    simp only [substreamsF, if_true]
    rw [toEof_inner mid _ [] hm]
    simp only
    rw [ih (fun x hx => h x (by simp [hx])) f (by simp at hf; omega)]
    rfl

theorem substreams_all (subs : List (List Rec)) (h : ∀ s ∈ subs, ∃ bof, IsSub bof s) : substreams subs.flatten = some subs := by
  refine substreamsF_all subs h _ ?_
  induction subs with
  | nil => simp
  | cons s t ih =>
    obtain ⟨bof, ⟨mid, rfl, hm⟩⟩ := h s (by simp)
    have := ih fun x hx => h x (by simp [hx])
    simp only [List.flatten_cons, List.length_append, List.length_cons] at *
    omega

end Xls.Save
