import Verif.Ole.Model
/-
C41: splitting a path into its components.
-/
namespace Xls.Ole

/-- Specification: `Tokens s ts` says that `ts` are the maximal separator-free pieces of `s`, in
    order. -/
inductive Tokens : Bytes → List Bytes → Prop where
  | nil : Tokens [] []
  | sep {c : UInt8} {s : Bytes} {ts : List Bytes} (hc : c = 0x2F ∨ c = 0) (h : Tokens s ts) :
      Tokens (c :: s) ts
  | tok {t s : Bytes} {ts : List Bytes} (hne : t ≠ []) (hno : ∀ c ∈ t, c ≠ 0x2F ∧ c ≠ 0)
      (hend : s = [] ∨ ∃ c r, s = c :: r ∧ (c = 0x2F ∨ c = 0)) (h : Tokens s ts) :
      Tokens (t ++ s) (t :: ts)

theorem isSep_iff (c : UInt8) : isSep c = true ↔ c = 0x2F ∨ c = 0 := by
  simp [isSep]

theorem isSep_false_iff (c : UInt8) : isSep c = false ↔ c ≠ 0x2F ∧ c ≠ 0 := by
  simp [isSep]

theorem Tokens.seps {l s : Bytes} {ts : List Bytes} (hl : ∀ c ∈ l, isSep c = true) (h : Tokens s ts) :
    Tokens (l ++ s) ts := by
  induction l with
  | nil => exact h
  | cons c r ih =>
    exact .sep ((isSep_iff c).mp (hl c (by simp))) (ih (fun x hx => hl x (by simp [hx])))

theorem mem_takeWhile {p : UInt8 → Bool} {l : Bytes} {x : UInt8} (h : x ∈ l.takeWhile p) : p x = true := by
  induction l with
  | nil => simp at h
  | cons a r ih =>
    rw [List.takeWhile_cons] at h
    split at h
    · rcases List.mem_cons.mp h with rfl | h
      · assumption
      · exact ih h
    · simp at h

theorem dropWhile_head {p : UInt8 → Bool} {l : Bytes} {a : UInt8} {r : Bytes}
    (h : l.dropWhile p = a :: r) : p a = false := by
  induction l with
  | nil => simp at h
  | cons b t ih =>
    rw [List.dropWhile_cons] at h
    split at h
    · exact ih h
    · rename_i hb
      cases h
      simpa using hb

theorem dropWhile_length (p : UInt8 → Bool) (l : Bytes) : (l.dropWhile p).length ≤ l.length := by
  induction l with
  | nil => simp
  | cons a r ih =>
    rw [List.dropWhile_cons]
    split
    · simp; omega
    · simp

theorem stringtokAux_tokens (f : Nat) (s : Bytes) (hf : s.length ≤ f) : Tokens s (stringtokAux f s) := by
  induction f generalizing s with
  | zero =>
    have : s = [] := List.length_eq_zero_iff.mp (by omega)
    rw [this]; exact .nil
  | succ f ih =>
    have hsplit : s = s.takeWhile isSep ++ s.dropWhile isSep := (List.takeWhile_append_dropWhile).symm
    have hlen := dropWhile_length isSep s
    rw [stringtokAux]
    cases hd : s.dropWhile isSep with
    | nil =>
      simp only
      rw [hd] at hsplit
      rw [hsplit]
      exact Tokens.seps (fun c hc => mem_takeWhile hc) .nil
    | cons c r =>
      simp only
      rw [hd] at hsplit hlen
      rw [hsplit]
      refine Tokens.seps (fun c hc => mem_takeWhile hc) ?_
      have hc := dropWhile_head hd
      have hr : r = r.takeWhile (fun x => !isSep x) ++ r.dropWhile (fun x => !isSep x) :=
        (List.takeWhile_append_dropWhile).symm
      have hcr : c :: r = (c :: r.takeWhile (fun x => !isSep x)) ++ r.dropWhile (fun x => !isSep x) := by
        rw [List.cons_append, ← hr]
      rw [hcr]
      have hl2 := dropWhile_length (fun x => !isSep x) r
      have hno : ∀ x ∈ c :: r.takeWhile (fun x => !isSep x), x ≠ 0x2F ∧ x ≠ 0 := by
        intro x hx
        rcases List.mem_cons.mp hx with rfl | hx
        · exact (isSep_false_iff _).mp hc
        · have := mem_takeWhile hx
          exact (isSep_false_iff _).mp (by simpa using this)
      cases hd2 : r.dropWhile (fun x => !isSep x) with
      | nil =>
        exact .tok (by simp) hno (Or.inl rfl) (ih [] (by simp))
      | cons a t =>
        have ha := dropWhile_head hd2
        have ha' : a = 0x2F ∨ a = 0 := (isSep_iff a).mp (by simpa using ha)
        refine .tok (by simp) hno (Or.inr ⟨a, t, rfl, ha'⟩) (.sep ha' ?_)
        rw [hd2] at hl2
        simp only [List.length_cons] at hl2 hlen
        exact ih t (by omega)

/-- A piece without separators is cut off as one token. -/
theorem stringtokAux_tok (f : Nat) (t s : Bytes) (hne : t ≠ []) (hno : ∀ c ∈ t, c ≠ 0x2F ∧ c ≠ 0)
    (hend : s = [] ∨ ∃ c r, s = c :: r ∧ (c = 0x2F ∨ c = 0)) :
    stringtokAux (f + 1) (t ++ s) = t :: stringtokAux f (s.drop 1) := by
  cases t with
  | nil => exact absurd rfl hne
  | cons c r =>
    have hc : isSep c = false := (isSep_false_iff c).mpr (hno c (by simp))
    have hr : ∀ x ∈ r, isSep x = false := fun x hx => (isSep_false_iff x).mpr (hno x (by simp [hx]))
    have h1 : (r ++ s).takeWhile (fun x => !isSep x) = r ∧
        (r ++ s).dropWhile (fun x => !isSep x) = s := by
      clear hno hne
      induction r with
      | nil =>
        rcases hend with rfl | ⟨a, q, rfl, ha⟩
        · exact ⟨rfl, rfl⟩
        · have := (isSep_iff a).mpr ha
          simp [this]
      | cons y r ih =>
        have hy := hr y (by simp)
        have := ih (fun x hx => hr x (by simp [hx]))
        simp [hy, this.1, this.2]
    rw [stringtokAux, List.cons_append, List.dropWhile_cons]
    simp only [hc, Bool.false_eq_true, if_false, h1.1, h1.2]

theorem stringtokAux_sep (f : Nat) (c : UInt8) (s : Bytes) (hc : c = 0x2F ∨ c = 0) :
    stringtokAux (f + 1) (c :: s) = stringtokAux (f + 1) s := by
  have := (isSep_iff c).mpr hc
  rw [stringtokAux, stringtokAux, List.dropWhile_cons]
  simp [this]

theorem stringtokAux_unique {s : Bytes} {ts : List Bytes} (h : Tokens s ts) :
    ∀ f, s.length ≤ f → stringtokAux f s = ts := by
  induction h with
  | nil => intro f _; cases f <;> simp [stringtokAux]
  | @sep c s ts hc h ih =>
    intro f hf
    obtain ⟨f, rfl⟩ : ∃ g, f = g + 1 := ⟨f - 1, by simp at hf; omega⟩
    rw [stringtokAux_sep f c s hc]
    exact ih _ (by simp at hf; omega)
  | @tok t s ts hne hno hend h ih =>
    intro f hf
    have hl : 0 < t.length := List.length_pos_iff.mpr hne
    rw [List.length_append] at hf
    obtain ⟨f, rfl⟩ : ∃ g, f = g + 1 := ⟨f - 1, by omega⟩
    rw [stringtokAux_tok f t s hne hno hend]
    congr 1
    rcases hend with rfl | ⟨c, r, rfl, hc⟩
    · exact ih _ (by simp)
    · have h2 := ih (f + 1) (by simp at hf ⊢; omega)
      rw [stringtokAux_sep f c r hc] at h2
      -- one pass fewer is still enough
      have h3 := ih ((c :: r).length) (by omega)
      simp only [List.length_cons] at h3 hf
      rw [stringtokAux_sep _ c r hc] at h3
      have ht := stringtokAux_tokens f r (by omega)
      clear h2
      simp only [List.drop_succ_cons, List.drop_zero]
      -- both are token lists of `r`; compare through the recursion on fuel
      have mono : ∀ (g : Nat) (x : Bytes), x.length ≤ g → stringtokAux (g + 1) x = stringtokAux g x := by
        intro g
        induction g with
        | zero =>
          intro x hx
          have : x = [] := List.length_eq_zero_iff.mp (by omega)
          simp [this, stringtokAux]
        | succ g ihg =>
          intro x hx
          rw [stringtokAux, stringtokAux]
          have hlx := dropWhile_length isSep x
          cases hd : x.dropWhile isSep with
          | nil => rfl
          | cons a q =>
            rw [hd] at hlx
            simp only
            have hq := dropWhile_length (fun x => !isSep x) q
            rw [ihg _ (by simp at hlx ⊢; omega)]
      have ext : ∀ k, stringtokAux (r.length + k) r = stringtokAux r.length r := by
        intro k
        induction k with
        | zero => rfl
        | succ k ihk => rw [← Nat.add_assoc, mono _ _ (by omega), ihk]
      have e1 := ext (f - r.length)
      rw [show r.length + (f - r.length) = f by omega] at e1
      rw [e1, ← ext 1]
      exact h3

/-- C41: the components of a path are exactly its maximal pieces between slashes (and NULs). -/
theorem c41_tokens (s : Bytes) (ts : List Bytes) : stringtok s = ts ↔ Tokens s ts := by
  constructor
  · rintro rfl
    exact stringtokAux_tokens _ s (Nat.le_refl _)
  · intro h
    exact stringtokAux_unique h _ (Nat.le_refl _)

/-- Components written with a slash before each. -/
def joinPath : List Bytes → Bytes
  | [] => []
  | t :: r => 0x2F :: (t ++ joinPath r)

theorem joinPath_tokens (ts : List Bytes) (h : ∀ t ∈ ts, t ≠ [] ∧ ∀ c ∈ t, c ≠ 0x2F ∧ c ≠ 0) :
    Tokens (joinPath ts) ts := by
  induction ts with
  | nil => exact .nil
  | cons t r ih =>
    obtain ⟨h1, h2⟩ := h t (by simp)
    refine .sep (Or.inl rfl) (.tok h1 h2 ?_ (ih (fun x hx => h x (by simp [hx]))))
    cases r with
    | nil => exact Or.inl rfl
    | cons a q => exact Or.inr ⟨_, _, rfl, Or.inl rfl⟩

/-- C41: any list of non-empty slash-free components survives being written as a path, even with
    extra slashes at the ends. -/
theorem c41_roundtrip (ts : List Bytes) (h : ∀ t ∈ ts, t ≠ [] ∧ ∀ c ∈ t, c ≠ 0x2F ∧ c ≠ 0)
    (k m : Nat) :
    stringtok (List.replicate k 0x2F ++ (joinPath ts ++ List.replicate m 0x2F)) = ts := by
  rw [c41_tokens]
  refine Tokens.seps (fun c hc => (isSep_iff c).mpr (Or.inl (List.eq_of_mem_replicate hc))) ?_
  induction ts with
  | nil =>
    have := Tokens.seps (l := List.replicate m 0x2F) (s := [])
      (fun c hc => (isSep_iff c).mpr (Or.inl (List.eq_of_mem_replicate hc))) .nil
    simpa [joinPath] using this
  | cons t r ih =>
    obtain ⟨h1, h2⟩ := h t (by simp)
    rw [joinPath, List.cons_append, List.append_assoc]
    refine .sep (Or.inl rfl) (.tok h1 h2 ?_ (ih (fun x hx => h x (by simp [hx]))))
    cases r with
    | nil =>
      cases m with
      | zero => exact Or.inl rfl
      | succ m => exact Or.inr ⟨_, _, rfl, Or.inl rfl⟩
    | cons a q => exact Or.inr ⟨_, _, rfl, Or.inl rfl⟩

/-- C41: a component without a leading slash is found as well. -/
theorem c41_bare (t : Bytes) (h1 : t ≠ []) (h2 : ∀ c ∈ t, c ≠ 0x2F ∧ c ≠ 0) : stringtok t = [t] := by
  rw [c41_tokens]
  have := Tokens.tok h1 h2 (Or.inl rfl) .nil
  simpa using this

-- "/a//b/" has the components "a" and "b"
example : stringtok [0x2F, 0x61, 0x2F, 0x2F, 0x62, 0x2F] = [[0x61], [0x62]] := by decide

/-- C41 (the code disagrees with "only slashes separate"): a name containing a NUL character is cut
    in two, for all pieces around the NUL. -/
theorem c41_nul_splits (a b : Bytes) (ha : a ≠ []) (hb : b ≠ []) (hna : ∀ c ∈ a, c ≠ 0x2F ∧ c ≠ 0)
    (hnb : ∀ c ∈ b, c ≠ 0x2F ∧ c ≠ 0) : stringtok (a ++ 0 :: b) = [a, b] := by
  rw [c41_tokens]
  refine .tok ha hna (Or.inr ⟨_, _, rfl, Or.inr rfl⟩) (.sep (Or.inr rfl) ?_)
  have := Tokens.tok hb hnb (Or.inl rfl) .nil
  simpa using this

end Xls.Ole
