import Verif.Ole.Tree
/-
Helper lemmas: parsing directory entries and searching the directory.
-/
namespace Xls.Ole
open Xls.Cfb

/-- A name a compound file can hold: 1 to 31 characters, none of them NUL. -/
def PlainName (nm : Bytes) : Prop := nm ≠ [] ∧ nm.length ≤ 31 ∧ ∀ c ∈ nm, c ≠ 0

def nameUnits (nm : Bytes) : List Nat := nm.map UInt8.toNat

theorem takeWhile_plain {nm : Bytes} (h : ∀ c ∈ nm, c ≠ 0) : nm.takeWhile (· != 0) = nm := by
  induction nm with
  | nil => rfl
  | cons c r ih =>
    have h0 := h c (by simp)
    simp only [List.takeWhile_cons, bne_iff_ne, ne_eq, h0, not_false_eq_true, if_true]
    rw [ih (fun x hx => h x (by simp [hx]))]

theorem unicodeName_plain {nm : Bytes} (h : PlainName nm) :
    unicodeName nm = nm.flatMap (fun c => [c, 0]) ++ [0, 0] := by
  unfold unicodeName
  rw [takeWhile_plain h.2.2, List.take_of_length_le (by have := h.2.1; omega)]

theorem flatMap2_length (nm : Bytes) : (nm.flatMap (fun c => [c, (0 : UInt8)])).length = 2 * nm.length := by
  induction nm with
  | nil => rfl
  | cons c r ih => simp only [List.flatMap_cons, List.length_append, ih, List.length_cons, List.length_nil]; omega

theorem unicodeName_length {nm : Bytes} (h : PlainName nm) :
    (unicodeName nm).length = 2 * nm.length + 2 := by
  rw [unicodeName_plain h, List.length_append, flatMap2_length]
  rfl

theorem units16_pairs (nm : Bytes) (r : Bytes) :
    units16 (nm.flatMap (fun c => [c, 0]) ++ r) = nm.map UInt8.toNat ++ units16 r := by
  induction nm with
  | nil => rfl
  | cons c t ih =>
    simp only [List.flatMap_cons, List.cons_append, List.nil_append, units16, List.map_cons, ih]
    congr 1

theorem units16_zeros (k : Nat) : units16 (List.replicate (2 * k) 0) = List.replicate k 0 := by
  induction k with
  | zero => rfl
  | succ k ih =>
    rw [show 2 * (k + 1) = 2 * k + 1 + 1 by omega, List.replicate_succ, List.replicate_succ]
    simp only [units16, ih, List.replicate_succ]
    rfl

/-- What a directory entry contains. -/
def toDir (e : Entry) : DirEnt :=
  { name := nameUnits e.name, typ := e.typ.toNat, left := u32OfInt e.prev, right := u32OfInt e.next
    child := u32OfInt e.child, start := u32OfInt e.start
    size := (if e.typ = 2 then e.size else 0) % 2 ^ 32 }

theorem u32_mod (x : Int) : u32OfInt x % 256 ^ 4 = u32OfInt x :=
  Nat.mod_eq_of_lt (by have := u32OfInt_lt x; omega)

theorem dirEnt_nodeBytes (e : Entry) (h : PlainName e.name) (r : Bytes) :
    dirEnt ((nodeBytes e ++ r).take 128) = some (toDir e) := by
  have hl := unicodeName_length h
  have h31 := h.2.1
  rw [List.take_left' (nodeBytes_length e (by omega))]
  have hnb : nodeBytes e = (unicodeName e.name ++ List.replicate (0x40 - (unicodeName e.name).length) 0) ++
      (leN 2 (unicodeName e.name).length ++ ([e.typ] ++ ([1] ++
      (leN 4 (u32OfInt e.prev) ++ (leN 4 (u32OfInt e.next) ++ (leN 4 (u32OfInt e.child) ++
      (List.replicate 20 0 ++ (leN 4 0 ++ (leN 4 0 ++ (leN 4 0 ++ (leN 4 0 ++
      (leN 4 (u32OfInt e.start) ++ (leN 4 (if e.typ = 2 then e.size else 0) ++
      (leN 4 0 ++ [])))))))))))))) := by
    simp only [nodeBytes, List.append_assoc]
  have hP : (unicodeName e.name ++ List.replicate (0x40 - (unicodeName e.name).length) (0 : UInt8)).length = 64 := by
    simp; omega
  generalize hPd : unicodeName e.name ++ List.replicate (0x40 - (unicodeName e.name).length) (0 : UInt8) = P at *
  have hu : units16 P = nameUnits e.name ++ List.replicate (32 - e.name.length) 0 := by
    rw [← hPd, unicodeName_plain h, List.append_assoc, units16_pairs]
    congr 1
    rw [show ([0, 0] : Bytes) = List.replicate 2 0 from rfl, List.replicate_append_replicate]
    have hl2 : (e.name.flatMap (fun c => [c, (0 : UInt8)]) ++ List.replicate 2 0).length = 2 * e.name.length + 2 := by
      rw [List.length_append, flatMap2_length]; rfl
    rw [hl2, show 2 + (64 - (2 * e.name.length + 2)) = 2 * (32 - e.name.length) by omega, units16_zeros]
  have ht : (nodeBytes e).take 64 = P := by rw [hnb]; exact List.take_left' hP
  have r40 : rdLE 2 (nodeBytes e) 0x40 = some (2 * e.name.length + 2) := by
    rw [hnb, rdLE_at' 2 _ _ _ hP, hl]
    rw [Nat.mod_eq_of_lt (by omega)]
  have r42 : rdLE 1 (nodeBytes e) 0x42 = some e.typ.toNat := by
    rw [hnb]
    have : ∀ Q, P ++ (leN 2 (unicodeName e.name).length ++ ([e.typ] ++ Q)) =
        (P ++ leN 2 (unicodeName e.name).length) ++ (leN 1 e.typ.toNat ++ Q) := by
      intro Q
      simp [leN]
    rw [this, rdLE_at' 1 _ _ _ (by simp [hP])]
    have := e.typ.toNat_lt
    rw [Nat.mod_eq_of_lt (by omega)]
  have r44 : rdLE 4 (nodeBytes e) 0x44 = some (u32OfInt e.prev) := by
    rw [hnb]
    have : ∀ Q, P ++ (leN 2 (unicodeName e.name).length ++ ([e.typ] ++ ([1] ++ Q))) =
        (P ++ (leN 2 (unicodeName e.name).length ++ ([e.typ] ++ [1]))) ++ Q := by
      intro Q; simp only [List.append_assoc]
    rw [this, rdLE_at' 4 _ _ _ (by simp [hP]), u32_mod]
  have r48 : rdLE 4 (nodeBytes e) 0x48 = some (u32OfInt e.next) := by
    rw [hnb]
    have : ∀ Q, P ++ (leN 2 (unicodeName e.name).length ++ ([e.typ] ++ ([1] ++ (leN 4 (u32OfInt e.prev) ++ Q)))) =
        (P ++ (leN 2 (unicodeName e.name).length ++ ([e.typ] ++ ([1] ++ leN 4 (u32OfInt e.prev))))) ++ Q := by
      intro Q; simp only [List.append_assoc]
    rw [this, rdLE_at' 4 _ _ _ (by simp [hP]), u32_mod]
  have r4c : rdLE 4 (nodeBytes e) 0x4c = some (u32OfInt e.child) := by
    rw [hnb]
    have : ∀ Q, P ++ (leN 2 (unicodeName e.name).length ++ ([e.typ] ++ ([1] ++ (leN 4 (u32OfInt e.prev) ++
        (leN 4 (u32OfInt e.next) ++ Q))))) =
        (P ++ (leN 2 (unicodeName e.name).length ++ ([e.typ] ++ ([1] ++ (leN 4 (u32OfInt e.prev) ++
        leN 4 (u32OfInt e.next)))))) ++ Q := by
      intro Q; simp only [List.append_assoc]
    rw [this, rdLE_at' 4 _ _ _ (by simp [hP]), u32_mod]
  have r74 : rdLE 4 (nodeBytes e) 0x74 = some (u32OfInt e.start) := by
    rw [hnb]
    have : ∀ Q, P ++ (leN 2 (unicodeName e.name).length ++ ([e.typ] ++ ([1] ++ (leN 4 (u32OfInt e.prev) ++
        (leN 4 (u32OfInt e.next) ++ (leN 4 (u32OfInt e.child) ++
        (List.replicate 20 0 ++ (leN 4 0 ++ (leN 4 0 ++ (leN 4 0 ++ (leN 4 0 ++ Q))))))))))) =
        (P ++ (leN 2 (unicodeName e.name).length ++ ([e.typ] ++ ([1] ++ (leN 4 (u32OfInt e.prev) ++
        (leN 4 (u32OfInt e.next) ++ (leN 4 (u32OfInt e.child) ++
        (List.replicate 20 0 ++ (leN 4 0 ++ (leN 4 0 ++ (leN 4 0 ++ leN 4 0))))))))))) ++ Q := by
      intro Q; simp only [List.append_assoc]
    rw [this, rdLE_at' 4 _ _ _ (by simp [hP]), u32_mod]
  have r78 : rdLE 4 (nodeBytes e) 0x78 = some ((if e.typ = 2 then e.size else 0) % 2 ^ 32) := by
    rw [hnb]
    have : ∀ Q, P ++ (leN 2 (unicodeName e.name).length ++ ([e.typ] ++ ([1] ++ (leN 4 (u32OfInt e.prev) ++
        (leN 4 (u32OfInt e.next) ++ (leN 4 (u32OfInt e.child) ++
        (List.replicate 20 0 ++ (leN 4 0 ++ (leN 4 0 ++ (leN 4 0 ++ (leN 4 0 ++
        (leN 4 (u32OfInt e.start) ++ Q)))))))))))) =
        (P ++ (leN 2 (unicodeName e.name).length ++ ([e.typ] ++ ([1] ++ (leN 4 (u32OfInt e.prev) ++
        (leN 4 (u32OfInt e.next) ++ (leN 4 (u32OfInt e.child) ++
        (List.replicate 20 0 ++ (leN 4 0 ++ (leN 4 0 ++ (leN 4 0 ++ (leN 4 0 ++
        leN 4 (u32OfInt e.start))))))))))))) ++ Q := by
      intro Q; simp only [List.append_assoc]
    rw [this, rdLE_at' 4 _ _ _ (by simp [hP])]
  have hnl : (nameUnits e.name).length = e.name.length := by simp [nameUnits]
  have hc : (2 * e.name.length + 2) / 2 - 1 = e.name.length := by omega
  simp only [dirEnt, r40, r42, r44, r48, r4c, r74, r78, Option.bind_some, Option.map_some, ht, hu, hc]
  rw [if_pos, List.take_left' hnl]
  · rfl
  · refine ⟨by omega, by omega, by omega, ?_⟩
    rw [List.drop_left' hnl]
    congr 1; omega

theorem entries_nodes (es : List Entry) (h : ∀ e ∈ es, PlainName e.name) :
    entries es.length (es.flatMap nodeBytes) = some (es.map toDir) := by
  induction es with
  | nil => rfl
  | cons e r ih =>
    have h0 := h e (by simp)
    have hl := unicodeName_length h0
    have h31 := h0.2.1
    simp only [List.length_cons, List.flatMap_cons, entries, dirEnt_nodeBytes e h0, Option.bind_some]
    rw [List.drop_left' (nodeBytes_length e (by omega)), ih (fun x hx => h x (by simp [hx]))]
    rfl

/-! ### Order of names -/

theorem lex_asymm : ∀ a b : List Nat, List.lex a b = true → List.lex b a = false := by
  intro a
  induction a with
  | nil => intro b _; cases b <;> simp [List.lex]
  | cons x r ih =>
    intro b h
    cases b with
    | nil => simp [List.lex] at h
    | cons y s =>
      simp only [List.lex, Bool.or_eq_true, decide_eq_true_eq, Bool.and_eq_true, beq_iff_eq,
        Bool.or_eq_false_iff, decide_eq_false_iff_not, Bool.and_eq_false_iff, beq_eq_false_iff_ne] at h ⊢
      rcases h with h | ⟨h1, h2⟩
      · exact ⟨by omega, Or.inl (by omega)⟩
      · exact ⟨by omega, Or.inr (ih s h2)⟩

theorem nameLt_asymm {a b : List Nat} (h : nameLt a b = true) : nameLt b a = false := by
  simp only [nameLt, Bool.or_eq_true, decide_eq_true_eq, Bool.and_eq_true, beq_iff_eq,
    Bool.or_eq_false_iff, decide_eq_false_iff_not, Bool.and_eq_false_iff, beq_eq_false_iff_ne] at h ⊢
  rcases h with h | ⟨h1, h2⟩
  · exact ⟨by omega, Or.inl (by omega)⟩
  · exact ⟨by omega, Or.inr (lex_asymm _ _ h2)⟩

theorem nameLt_irrefl (a : List Nat) : nameLt a a = false := by
  cases h : nameLt a a with
  | false => rfl
  | true => rw [← h]; exact nameLt_asymm h

/-! ### Searching -/

theorem entsFrom_get (n i : Nat) (fl : List (Bytes × List Bytes)) (j : Nat) (hj : j < fl.length) :
    (entsFrom n i fl)[j]? = some (ent n (i + j) fl[j].1 fl[j].2) := by
  induction fl generalizing i j with
  | nil => simp at hj
  | cons x r ih =>
    cases j with
    | zero => simp [entsFrom]
    | succ j =>
      simp only [entsFrom, List.getElem?_cons_succ, List.getElem_cons_succ]
      rw [ih (i + 1) j (by simpa using hj)]
      congr 2; omega

theorem withStarts_length (nodes : List Entry) (i : Nat) : (withStarts nodes i).length = nodes.length := by
  have := congrArg List.length (withStarts_name nodes i)
  simpa using this

theorem withStarts_get (nodes : List Entry) (s j : Nat) (hj : j < nodes.length) :
    (withStarts nodes s)[j]? = some { nodes[j] with start := ((s + (secs (nodes.take j)).sum : Nat) : Int) } := by
  induction nodes generalizing s j with
  | nil => simp at hj
  | cons e r ih =>
    cases j with
    | zero => simp [withStarts, secs]
    | succ j =>
      simp only [withStarts, List.getElem?_cons_succ, List.getElem_cons_succ]
      rw [ih _ j (by simpa using hj)]
      simp [secs, Nat.add_assoc]

/-- A directory table: root, then the streams with the links `AddNode` gives them. -/
structure Linked (t : List DirEnt) (names : List (List Nat)) : Prop where
  len : t.length = names.length + 1
  root : ∃ r, t[0]? = some r ∧ r.typ = 5 ∧
    r.child = if names.length = 0 then freeSect else if names.length = 1 then 1 else 2
  ent : ∀ j (hj : j < names.length), ∃ e, t[j + 1]? = some e ∧ e.name = names[j] ∧
    e.left = (if j + 1 = 2 then 1 else freeSect) ∧
    e.right = (if 2 ≤ j + 1 ∧ j + 1 < names.length then j + 2 else freeSect)
  small : names.length < 2 ^ 31

theorem Linked.find_right {t : List DirEnt} {names : List (List Nat)} (L : Linked t names)
    (hs : names.Pairwise (fun a b => nameLt a b = true)) (j : Nat) (hj : j < names.length) :
    ∀ k i : Nat, 2 ≤ i + 1 → i + k = j → ∀ fuel, k + 1 ≤ fuel → ∀ e, t[j + 1]? = some e →
      find t names[j] fuel (i + 1) = some e := by
  have hsm := L.small
  intro k
  induction k with
  | zero =>
    intro i _ hij fuel hf e he
    obtain ⟨f, rfl⟩ : ∃ f, fuel = f + 1 := ⟨fuel - 1, by omega⟩
    obtain ⟨e', he', hn, _⟩ := L.ent j hj
    have : i = j := by omega
    subst this
    rw [he] at he'
    cases he'
    simp only [find]
    rw [if_neg (by unfold freeSect; omega), he, Option.bind_some, hn, nameLt_irrefl]
    simp
  | succ k ih =>
    intro i hi hij fuel hf e he
    obtain ⟨f, rfl⟩ : ∃ f, fuel = f + 1 := ⟨fuel - 1, by omega⟩
    obtain ⟨e', he', hn, _, hr⟩ := L.ent i (by omega)
    have hlt : nameLt names[i] names[j] = true := by
      have := List.pairwise_iff_getElem.mp hs i j (by omega) hj (by omega)
      exact this
    simp only [find]
    rw [if_neg (by unfold freeSect; omega), he', Option.bind_some, hn, nameLt_asymm hlt, hlt, hr]
    simp only [Bool.false_eq_true, if_false, if_true]
    rw [if_pos (by omega)]
    exact ih (i + 1) (by omega) (by omega) f (by omega) e he

/-- A sorted directory is searched successfully. -/
theorem Linked.find_ok {t : List DirEnt} {names : List (List Nat)} (L : Linked t names)
    (hs : names.Pairwise (fun a b => nameLt a b = true)) (j : Nat) (hj : j < names.length) :
    ∃ r e, t[0]? = some r ∧ r.typ = 5 ∧ t[j + 1]? = some e ∧ find t names[j] t.length r.child = some e := by
  have hsm := L.small
  obtain ⟨r, hr, ht, hc⟩ := L.root
  obtain ⟨e, he, hn, _⟩ := L.ent j hj
  refine ⟨r, e, hr, ht, he, ?_⟩
  rw [hc, if_neg (by omega), L.len]
  by_cases h1 : names.length = 1
  · have : j = 0 := by omega
    subst this
    rw [if_pos h1]
    simp only [find]
    rw [if_neg (by decide), he, Option.bind_some, hn, nameLt_irrefl]
    simp
  · rw [if_neg h1]
    by_cases h0 : j = 0
    · subst h0
      obtain ⟨e2, he2, hn2, hl2, _⟩ := L.ent 1 (by omega)
      have hlt : nameLt names[0] names[1] = true :=
        List.pairwise_iff_getElem.mp hs 0 1 (by omega) (by omega) (by omega)
      obtain ⟨f, hf⟩ : ∃ f, names.length = f + 1 := ⟨names.length - 1, by omega⟩
      rw [hf]
      simp only [find]
      rw [if_neg (by decide), he2, Option.bind_some, hn2, hlt, hl2, if_pos rfl]
      simp only [if_true]
      rw [if_neg (by decide), he, Option.bind_some, hn, nameLt_irrefl]
      simp
    · exact L.find_right hs j hj (j - 1) 1 (by omega) (by omega) _ (by omega) e he

/-- The table written for streams added to the root is linked this way. -/
theorem linked_flat (fl : List (Bytes × List Bytes)) (s : Nat) (hsm : fl.length < 2 ^ 31 - 1) :
    Linked ((rootEnt fl.length :: withStarts (entsFrom fl.length 1 fl) s).map toDir)
      (fl.map (fun f => nameUnits f.1)) := by
  refine ⟨by simp [withStarts_length, entsFrom_length], ⟨toDir (rootEnt fl.length), rfl, rfl, ?_⟩, ?_,
    by simp; omega⟩
  · simp only [List.length_map, toDir, rootEnt]
    by_cases h0 : fl.length = 0
    · rw [if_pos h0, if_pos h0]; rfl
    · rw [if_neg h0, if_neg h0]
      by_cases h1 : fl.length = 1
      · rw [if_pos h1, if_pos h1]; rfl
      · rw [if_neg h1, if_neg h1]; rfl
  · intro j hj
    have hj' : j < fl.length := by simpa using hj
    have hje : j < (entsFrom fl.length 1 fl).length := by rwa [entsFrom_length]
    have hg := withStarts_get (entsFrom fl.length 1 fl) s j hje
    have he := entsFrom_get fl.length 1 fl j hj'
    rw [List.getElem?_eq_getElem hje] at he
    simp only [Option.some.injEq] at he
    rw [he] at hg
    refine ⟨_, by rw [List.map_cons, List.getElem?_cons_succ, List.getElem?_map, hg]; rfl, ?_, ?_, ?_⟩
    · simp [toDir, ent]
    · simp only [toDir, ent]
      by_cases h : j + 1 = 2
      · rw [if_pos h, if_pos (by omega)]; rfl
      · rw [if_neg h, if_neg (by omega)]; rfl
    · simp only [toDir, ent, List.length_map]
      by_cases h : 2 ≤ j + 1 ∧ j + 1 < fl.length
      · rw [if_pos h, if_pos (by omega)]
        simp only [u32OfInt]; omega
      · rw [if_neg h, if_neg (by omega)]; rfl

end Xls.Ole
