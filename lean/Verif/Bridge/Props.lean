import Verif.Bridge.Lemmas
/-
C72: programs written against the C interface.
-/
namespace Xls.Bridge
open Xls.Biff Xls.Whole Xls.Cells
open Xls.Text.Spec
open Xls.Life (calls sheetNames saves Within Saved)
open Xls.Live (plain)

/-! ### Texts -/

theorem narrow_stored {b : Build} (hb : b.Sound) {p : Ptr UInt8} {cs : List Char} (h : Storable b (.narrow p) cs) :
    Text.char2str16 b.signed b.convB (utf8 cs) = utf16 cs := by
  rcases h with h | ⟨h1, h2⟩
  · exact Text.c56_ascii _ _ _ h
  · obtain ⟨f, hf⟩ := Option.isSome_iff_exists.mp h1
    rw [hf]
    exact Text.c56_utf8_partial _ f (hb.bytes f hf) cs h2

theorem get_good {b : Build} (hb : b.Sound) {m : Reading} {t : CText} (h : Good b m t) : t.get b = some (m.says t) := by
  obtain ⟨h1, h2⟩ := h
  cases t with
  | narrow p =>
    obtain ⟨h0, rest, e⟩ := h1
    rw [Reading.says]
    generalize m (.narrow p) none = cs at *
    rw [CText.get, e, cut_at _ _ (utf8_zero h0), Option.map_some, narrow_stored hb h2]
  | wide p =>
    obtain ⟨h0, rest, e⟩ := h1
    rw [Reading.says]
    generalize m (.wide p) none = cs at *
    rw [CText.get, e, cut_at _ _ (wide_zero h0), Option.map_some, Text.c56_wide_partial _ hb.wide _ h2]

theorem getOr_good {b : Build} (hb : b.Sound) {m : Reading} {t : CText} (h : GoodOr b m t) : t.getOr b = some (m.says t) := by
  rcases h with h | ⟨h1, h2⟩
  · rw [← get_good hb h]
    cases t with
    | narrow p => obtain ⟨-, rest, e⟩ := h.1; rw [e]; rfl
    | wide p => obtain ⟨-, rest, e⟩ := h.1; rw [e]; rfl
  · rw [Reading.says, h2]
    cases t with
    | narrow p =>
      cases (h1 : p = none)
      show some (Text.char2str16 b.signed b.convB (utf8 [])) = _
      rw [Text.c56_ascii _ _ [] (fun c h => by cases h)]
    | wide p =>
      cases (h1 : p = none)
      show some (Text.wide2str16 b.convW (wide [])) = _
      rw [Text.c56_wide_partial _ hb.wide [] (fun c h => by cases h)]

theorem chars_take {α : Type} (v rest : List α) : chars v.length (some (v ++ rest)) = some v := by
  rw [chars, if_pos (by simp)]
  simp

theorem chars_good {b : Build} (hb : b.Sound) {t : CText} {n : Nat} {cs : List Char} (h1 : IsArray n t cs) (h2 : Storable b t cs) :
    t.chars b n = some (utf16 cs) := by
  cases t with
  | narrow p =>
    obtain ⟨rfl, rest, rfl⟩ := h1
    rw [CText.chars, chars_take, Option.map_some, narrow_stored hb h2]
  | wide p =>
    obtain ⟨rfl, rest, rfl⟩ := h1
    rw [CText.chars, show cs.length = (wide cs).length by simp [wide], chars_take, Option.map_some, Text.c56_wide_partial _ hb.wide _ h2]

theorem bare_good {m : Reading} {p : Ptr UInt8} (h : Bare m p) : cstr p = some (utf8 (m.str p)) := by
  obtain ⟨h0, rest, e⟩ := h
  rw [Reading.str] at e h0 ⊢
  generalize m (.narrow p) none = cs at *
  rw [e, cut_at _ _ (utf8_zero h0)]

theorem texts_good {b : Build} (hb : b.Sound) {m : Reading} (v : List CText) (h : ∀ t ∈ v, Good b m t) : v.mapM (CText.get b) = some (v.map m.says) := by
  induction v with
  | nil => rfl
  | cons t r ih =>
    rw [List.mapM_cons, get_good hb (h t (List.mem_cons_self ..)), ih fun x hx => h x (List.mem_cons_of_mem _ hx)]
    rfl

/-! ### Calls -/

theorem push_means {b : Build} (hb : b.Sound) {m : Reading} {s : Life.State} (hk : Known s) {k : Nat} {p : Push} (ht : p.Texts b m)
    (hc : ∀ q ∈ (Call.push k p).cells, Taken s q) : lowerPush b s p = some (p.means m) := by
  cases p with
  | numberArray vs n =>
    obtain ⟨v, rest, rfl, rfl⟩ := ht
    rw [lowerPush, chars_take]
    simp [Push.means]
  | cellReference p opt =>
    obtain ⟨c, e, h1, h2, h3⟩ := at_taken hk (hc p (List.mem_cons_self ..))
    rw [lowerPush, e, Option.map_some, h1, h2, h3]; rfl
  | cellReferenceC p opt k =>
    obtain ⟨c, e, h1, h2, h3⟩ := at_taken hk (hc p (List.mem_cons_self ..))
    rw [lowerPush, e, Option.map_some, h1, h2, h3]; rfl
  | cellAreaReference p q opt =>
    obtain ⟨c, e, h1, h2, h3⟩ := at_taken hk (hc p (List.mem_cons_self ..))
    obtain ⟨d, e', g1, g2, g3⟩ := at_taken hk (hc q (List.mem_cons_of_mem _ (List.mem_cons_self ..)))
    rw [lowerPush, e, e', Option.bind_some, Option.map_some, h1, h2, h3, g1, g2]; rfl
  | cellAreaReferenceC p q opt k =>
    obtain ⟨c, e, h1, h2, h3⟩ := at_taken hk (hc p (List.mem_cons_self ..))
    obtain ⟨d, e', g1, g2, g3⟩ := at_taken hk (hc q (List.mem_cons_of_mem _ (List.mem_cons_self ..)))
    rw [lowerPush, e, e', Option.bind_some, Option.map_some, h1, h2, h3, g1, g2]; rfl
  | characterArray t n => rw [lowerPush, chars_good hb ht.1 ht.2]; rfl
  | text t => rw [lowerPush, get_good hb ht]; rfl
  | textArray ts n =>
    obtain ⟨v, rest, rfl, rfl, hv⟩ := ht
    rw [lowerPush, textArray, chars_take, Option.bind_some, texts_good hb v hv]
    simp [Push.means]
  | _ => rfl

theorem rule_means {b : Build} (hb : b.Sound) {m : Reading} {c d : Cell (Nat × Val)} {p q : Place} (hp : c.row = p.row.toNat ∧ c.col = p.col.toNat)
    (hq : d.row = q.row.toNat ∧ d.col = q.col.toNat) (o : UInt32) {t : Prompts}
    (ht : GoodOr b m t.promptTitle ∧ GoodOr b m t.promptText ∧ GoodOr b m t.errorTitle ∧ GoodOr b m t.errorText) :
    validation b c d o t = some (rule m p q o t) := by
  rw [validation, getOr_good hb ht.1, getOr_good hb ht.2.1, getOr_good hb ht.2.2.1, getOr_good hb ht.2.2.2, hp.1, hp.2, hq.1, hq.2]
  rfl

/-- Every function passes on what it is called for. -/
theorem call_means {b : Build} (hb : b.Sound) {m : Reading} {s : Life.State} (hk : Known s) {c : Call} (ht : c.Texts b m) (hc : ∀ q ∈ c.cells, Taken s q) :
    lower b s c = some (c.means m) := by
  cases c with
  | workbookSheet n => rw [lower, get_good hb ht]; rfl
  | workbookFont n => rw [lower, get_good hb ht]; rfl
  | workbookFormat n => rw [lower, get_good hb ht]; rfl
  | workbookProperty k t => rw [lower, bare_good ht]; rfl
  | workbookDump f opens ix => rw [lower, bare_good ht]; rfl
  | label i r c t q => rw [lower, get_good hb ht]; rfl
  | note i r c a t => rw [lower, get_good hb ht.1, get_good hb ht.2]; rfl
  | push h p => rw [lower, push_means hb hk ht hc]; rfl
  | boolean i r c v q =>
    rw [lower, Call.means, put, Bool.not_not]
    congr
    by_cases h : v = 0 <;> simp [h]
  | validateCell i p o c1 c2 t =>
    obtain ⟨c, e, h1, h2, -⟩ := at_taken hk (hc p (List.mem_cons_self ..))
    rw [lower, e, Option.bind_some, rule_means hb ⟨h1, h2⟩ ⟨h1, h2⟩ o ht]; rfl
  | validateCellArea i p q o c1 c2 t =>
    obtain ⟨c, e, h1, h2, -⟩ := at_taken hk (hc p (List.mem_cons_self ..))
    obtain ⟨d, e', g1, g2, -⟩ := at_taken hk (hc q (List.mem_cons_of_mem _ (List.mem_cons_self ..)))
    rw [lower, e, Option.bind_some, e', Option.bind_some, rule_means hb ⟨h1, h2⟩ ⟨g1, g2⟩ o ht]; rfl
  | hyperLink i p u k =>
    obtain ⟨c, e, h1, h2, -⟩ := at_taken hk (hc p (List.mem_cons_self ..))
    rw [lower, e, Option.bind_some, get_good hb ht.1, Option.bind_some, getOr_good hb ht.2, Option.map_some, h1, h2]
    simp only [UInt32.ofNat_toNat]
    rfl
  | cellFontname c n => rw [lower, get_good hb ht]; rfl
  | fontSetName p n => rw [lower, get_good hb ht]; rfl
  | _ => rfl

/-- After a call that makes a cell, the cell is there. -/
theorem makes_taken {m : Reading} {cs : WCell → Nat} {fuel : Nat} {s t : Life.State} {c : Call} {o : Option Life.Output}
    (h : Life.step cs fuel s (c.means m) = some (o, t)) {p : Place} (hp : c.makes p) : Taken t p := by
  have hkeep := life_keeps h
  have look : ∀ i (r k : UInt32) v q, Life.step cs fuel s (.call (.other (.desk (.on (.look (.put i r.toNat k.toNat v q)))))) = some (o, t) → Taken t ⟨i, r, k⟩ := by
    intro i r k v q h
    obtain ⟨l, hl, he⟩ := Option.map_eq_some_iff.mp h
    cases he
    simp only [Live.step] at hl
    split at hl
    · obtain ⟨d, hd, rfl⟩ := Option.map_eq_some_iff.mp hl
      obtain ⟨h1, h2⟩ := desk_put hd
      exact ⟨Nat.lt_of_lt_of_le h2 hkeep.sheets, h1⟩
    · cases hl
  have form : ∀ i (r k : UInt32) a n q, Life.step cs fuel s (.call (.cell i r.toNat k.toNat a n q)) = some (o, t) → Taken t ⟨i, r, k⟩ := by
    intro i r k a n q h
    obtain ⟨l, hl, he⟩ := Option.map_eq_some_iff.mp h
    cases he
    simp only [Live.step] at hl
    split at hl
    · obtain ⟨d, hd, rfl⟩ := Option.map_eq_some_iff.mp hl
      obtain ⟨h1, h2⟩ := desk_put hd
      exact ⟨Nat.lt_of_lt_of_le h2 hkeep.sheets, h1⟩
    · cases hl
  cases c <;> first
    | (cases hp; exact look _ _ _ _ _ h)
    | (cases hp; exact form _ _ _ _ _ _ h)
    | (cases hp; done)
    | skip
  rename_i i r1 c1 r2 c2 n
  obtain ⟨l, hl, he⟩ := Option.map_eq_some_iff.mp h
  cases he
  simp only [Live.step] at hl
  split at hl
  · obtain ⟨d, hd, rfl⟩ := Option.map_eq_some_iff.mp hl
    obtain ⟨g1, g2⟩ := range_has r2.toNat_lt c2.toNat_lt hd
    obtain ⟨e, b1, b2, b3, b4⟩ := hp
    rw [UInt32.le_iff_toNat_le] at b1 b2 b3 b4
    refine ⟨?_, ?_⟩
    · rw [e]; exact Nat.lt_of_lt_of_le g1 hkeep.sheets
    · rw [e]; exact g2 _ _ b1 b2 b3 b4
  · cases hl

/-- A C program does what it means. -/
theorem run_means {b : Build} (hb : b.Sound) {m : Reading} (cs : WCell → Nat) (fuel : Nat) (P before : List Call) (s : Life.State) (hk : Known s)
    (ht : ∀ c ∈ P, c.Texts b m) (hpl : Placed before P) (hbe : ∀ p, (∃ d ∈ before, d.makes p) → Taken s p) :
    run b cs fuel s P = Life.run cs fuel s (P.map (Call.means m)) := by
  induction P generalizing before s with
  | nil => rfl
  | cons c r ih =>
    rw [run, call_means hb hk (ht c (List.mem_cons_self ..)) fun q hq => hbe q (hpl.1 q hq), Option.bind_some, List.map_cons, Life.run]
    cases hs : Life.step cs fuel s (c.means m) with
    | none => rfl
    | some x =>
      obtain ⟨o, t⟩ := x
      have hkeep := life_keeps hs
      simp only [Option.bind_some]
      rw [ih (before ++ [c]) t (hkeep.grows.stamped hk) (fun d hd => ht d (List.mem_cons_of_mem _ hd)) hpl.2]
      intro p hp
      obtain ⟨d, hd, hp⟩ := hp
      rcases List.mem_append.mp hd with hd | hd
      · exact (hbe p ⟨d, hd, hp⟩).keep hkeep
      · rw [List.mem_singleton] at hd
        subst hd
        exact makes_taken hs hp

/-- A new workbook has no cells. -/
theorem init_known {time : Nat} {pkg : Bytes} {s : Life.State} (h : Life.init time pkg = some s) : Known s := by
  simp only [Life.init, Live.init, Desk.init, Prog.init, Look.init] at h
  obtain ⟨l, hl, h⟩ := Option.bind_eq_some_iff.mp h
  obtain ⟨r, -, rfl⟩ := Option.map_eq_some_iff.mp h
  obtain ⟨d, hd, rfl⟩ := Option.map_eq_some_iff.mp hl
  obtain ⟨p, hp, rfl⟩ := Option.map_eq_some_iff.mp hd
  obtain ⟨k, hk, rfl⟩ := Option.map_eq_some_iff.mp hp
  obtain ⟨st, -, rfl⟩ := Option.map_eq_some_iff.mp hk
  intro i c hc
  cases hc

/-- C72: a C program – its texts are C strings in memory, UTF-8 or wide characters, with anything after the terminating zero; it works with sheets, cells, fonts,
    formats, ranges, comments, links, validations, formulas and properties, and saves as often as it likes – runs without undefined behaviour, and every file
    it saves is complete and read back as C71 says, with every text being the Unicode text that the program meant.
    Missing for the full claim: texts that cannot be stored (C56) or have a zero in them (`c72_cut`), NULL where a text is needed (`c72_null`), and what is
    missing in `c71_life_partial`. -/
theorem c72_program_partial {ar : Nat → Option Nat} (hA : Formula.KnowsArity ar) {b : Build} (hb : b.Sound) (m : Reading) (P : List Call)
    (ht : ∀ c ∈ P, c.Texts b m) (hpl : Placed [] P) (p0 : Prog.State) (h0 : Prog.init = some p0)
    (time : Nat) (htime : time ≤ 1000000000000) (pkg : Bytes) (evs : List Life.Event) (hevs : evs = P.map (Call.means m))
    (hp : Live.Possible 0 0 (calls evs))
    (hf : Area.Fine (Desk.start p0) Prog.nothing (plain (calls evs))) (hw : ∀ c ∈ saves [] [] evs, Within p0 time pkg c) (cs : WCell → Nat)
    (hn1 : (sheetNames (calls evs)).length ≤ 1000) (hn2 : ∀ n ∈ sheetNames (calls evs), n.length < 256) :
    ∃ (s0 : Life.State) (N : Nat) (os : List Life.Output) (s : Life.State) (count : Nat → Nat → Nat), Life.init time pkg = some s0 ∧
      (∀ fuel, N ≤ fuel → run b cs fuel s0 P = some (os, s)) ∧
      os.length = (saves [] [] evs).length ∧ (∀ i, count 0 i = 0) ∧
      ∀ (k : Nat) c o, (saves [] [] evs)[k]? = some c → os[k]? = some o → ∃ sz, Saved ar sz p0 time pkg c o (count k) (count (k + 1)) := by
  obtain ⟨s0, N, os, s, count, a1, a2, -, a3, a4, a5⟩ := Life.c71_life_partial hA evs p0 h0 time htime pkg hp hf hw cs hn1 hn2
  refine ⟨s0, N, os, s, count, a1, fun fuel hfu => ?_, a3, a4, a5⟩
  rw [run_means hb cs fuel P [] s0 (init_known a1) ht hpl (fun p h => by obtain ⟨d, h, -⟩ := h; cases h), ← hevs]
  exact a2 fuel hfu

/-! ### Texts that cannot be given -/

/-- The texts that a call cannot do without. -/
def Call.needed : Call → List CText
  | .workbookSheet n | .workbookFormat n | .label _ _ _ n _ | .push _ (.text n) => [n]
  | .workbookFont n | .workbookProperty _ n | .workbookDump n _ _ | .cellFontname _ n | .fontSetName _ n => [.narrow n]
  | .note _ _ _ a t => [a, t]
  | .hyperLink _ _ u _ => [u]
  | .push _ (.textArray (some ts) n) => ts.take n
  | _ => []

/-- The text is NULL, or has no zero at its end. -/
def CText.broken : CText → Prop
  | .narrow p => ∀ l, p = some l → 0 ∉ l
  | .wide p => ∀ l, p = some l → 0 ∉ l

theorem cstr_broken {α : Type} [BEq α] [LawfulBEq α] [OfNat α 0] {p : Ptr α} (h : ∀ l, p = some l → 0 ∉ l) : cstr p = none := by
  cases p with
  | none => rfl
  | some l => rw [cstr, if_neg (by simpa using h l rfl)]

theorem get_broken {b : Build} {t : CText} (h : t.broken) : t.get b = none := by
  cases t with
  | narrow p => rw [CText.get, cstr_broken h]; rfl
  | wide p => rw [CText.get, cstr_broken h]; rfl

theorem mapM_broken {b : Build} (v : List CText) {t : CText} (ht : t ∈ v) (h : t.broken) : v.mapM (CText.get b) = none := by
  induction v with
  | nil => cases ht
  | cons x r ih =>
    rw [List.mapM_cons]
    rcases List.mem_cons.mp ht with rfl | ht
    · rw [get_broken h]; rfl
    · rw [ih ht]
      cases CText.get b x <;> rfl

/-- C72 fails for NULL: where a text is needed, the functions do not check for NULL (they do for the text mark of a link and for the four texts of a
    validation), nor can they know the end of the memory; the behaviour is undefined. -/
theorem c72_null (b : Build) (s : Life.State) (c : Call) (t : CText) (ht : t ∈ c.needed) (h : t.broken) : lower b s c = none := by
  cases c with
  | workbookSheet n => cases List.mem_singleton.mp ht; rw [lower, get_broken h]; rfl
  | workbookFont n => cases List.mem_singleton.mp ht; rw [lower, get_broken h]; rfl
  | workbookFormat n => cases List.mem_singleton.mp ht; rw [lower, get_broken h]; rfl
  | workbookProperty k n => cases List.mem_singleton.mp ht; rw [lower, cstr_broken h]; rfl
  | workbookDump n o ix => cases List.mem_singleton.mp ht; rw [lower, cstr_broken h]; rfl
  | label i r c n q => cases List.mem_singleton.mp ht; rw [lower, get_broken h]; rfl
  | cellFontname c n => cases List.mem_singleton.mp ht; rw [lower, get_broken h]; rfl
  | fontSetName c n => cases List.mem_singleton.mp ht; rw [lower, get_broken h]; rfl
  | note i r c a n =>
    rcases List.mem_cons.mp ht with rfl | ht
    · rw [lower, get_broken h]; rfl
    · cases List.mem_singleton.mp ht
      rw [lower, get_broken h]
      cases CText.get b a <;> rfl
  | hyperLink i p u k =>
    cases List.mem_singleton.mp ht
    rw [lower, get_broken h]
    cases at? s p <;> rfl
  | push k p =>
    cases p with
    | text n => cases List.mem_singleton.mp ht; rw [lower, lowerPush, get_broken h]; rfl
    | textArray ts n =>
      cases ts with
      | none => cases ht
      | some ts =>
        rw [lower, lowerPush, textArray, chars]
        split
        · rw [Option.bind_some, mapM_broken (ts.take n) ht h]; rfl
        · rfl
    | _ => cases ht
  | _ => cases ht

example : (Call.workbookSheet (.narrow none)).needed = [.narrow none] ∧ (CText.narrow none).broken := ⟨rfl, fun l h => by cases h⟩

theorem utf8_append (cs ds : List Char) : utf8 (cs ++ ds) = utf8 cs ++ utf8 ds := List.flatMap_append ..

/-- C72 fails for texts with a zero character in them: all that follows it is lost, for either kind of string.  Only the functions with a count
    (`xlsFormulaPushCharacterArray`) keep it. -/
theorem c72_cut (b : Build) (s : Life.State) (cs more : List Char) (h : ∀ c ∈ cs, c.val ≠ 0) (z : Char) (hz : z.val = 0) (rest : List UInt8) (rest' : List UInt32) :
    (∀ i row col q, lower b s (.label i row col (.narrow (some (utf8 (cs ++ z :: more) ++ 0 :: rest))) q) =
      lower b s (.label i row col (.narrow (some (utf8 cs ++ [0]))) q)) ∧
    (∀ i row col q, lower b s (.label i row col (.wide (some (wide (cs ++ z :: more) ++ 0 :: rest'))) q) =
      lower b s (.label i row col (.wide (some (wide cs ++ [0]))) q)) ∧
    (b.Sound → Ascii cs → Ascii more → ∀ k, lower b s (.push k (.characterArray (.narrow (some (utf8 (cs ++ z :: more) ++ 0 :: rest))) (cs.length + 1 + more.length))) =
      some (.call (.push k (.text (utf16 (cs ++ z :: more)))))) := by
  have hzu : String.utf8EncodeChar z = [0] := by rw [Text.encode_low z (by rw [hz]; decide), hz]; rfl
  refine ⟨fun i row col q => ?_, fun i row col q => ?_, fun hb ha hm k => ?_⟩
  · have e : utf8 (cs ++ z :: more) ++ 0 :: rest = utf8 cs ++ 0 :: (utf8 more ++ 0 :: rest) := by
      rw [utf8_append, show utf8 (z :: more) = String.utf8EncodeChar z ++ utf8 more from rfl, hzu]
      simp
    rw [lower, lower, CText.get, CText.get, e, cut_at _ _ (utf8_zero h), cut_at _ _ (utf8_zero h)]
  · have e : wide (cs ++ z :: more) ++ 0 :: rest' = wide cs ++ 0 :: (wide more ++ 0 :: rest') := by
      simp [wide, hz]
    rw [lower, lower, CText.get, CText.get, e, cut_at _ _ (wide_zero h), cut_at _ _ (wide_zero h)]
  · have hall : Ascii (cs ++ z :: more) := by
      intro c hc
      rcases List.mem_append.mp hc with hc | hc
      · exact ha c hc
      · rcases List.mem_cons.mp hc with rfl | hc
        · rw [hz]; decide
        · exact hm c hc
    have hlen : cs.length + 1 + more.length = (utf8 (cs ++ z :: more)).length := by
      have : ∀ l : List Char, Ascii l → (utf8 l).length = l.length := by
        intro l hl
        induction l with
        | nil => rfl
        | cons x r ih =>
          rw [show utf8 (x :: r) = String.utf8EncodeChar x ++ utf8 r from rfl, Text.encode_low x (hl x (List.mem_cons_self ..)), List.length_append,
            ih fun y hy => hl y (List.mem_cons_of_mem _ hy)]
          simp; omega
      rw [this _ hall]
      simp; omega
    have h1 : IsArray (cs.length + 1 + more.length) (.narrow (some (utf8 (cs ++ z :: more) ++ 0 :: rest))) (cs ++ z :: more) := ⟨hlen, _, rfl⟩
    rw [lower, lowerPush, chars_good hb h1 (.inl hall)]
    rfl

/-! ### A program -/

/-- A build without `iconv`. -/
def plainBuild : Build := ⟨true, none, none⟩

theorem plain_sound : plainBuild.Sound := ⟨(fun f h => by cases h), (fun f h => by cases h)⟩

/-- The texts of the sample. -/
def asWritten : Reading := fun t _ =>
  match t with
  | .narrow (some l) => (l.takeWhile (· != 0)).map fun x => Char.ofNat x.toNat
  | .wide (some l) => (l.takeWhile (· != 0)).map fun x => Char.ofNat x.toNat
  | _ => []

/-- A sheet "A"; "é" in a cell, as a wide string with other things in memory after it; 7 in another, to which the formula of a third refers; a title; and a save. -/
def sample (ix : Nat → Nat → Nat) : List Call :=
  [.workbookSheet (.narrow (some [65, 0])), .label 0 0 0 (.wide (some [233, 0, 66])) none, .numberInt 0 0 1 7 none, .formula 0,
   .push 0 (.cellReference ⟨0, 0, 1⟩ 0xC000), .formulaCell 0 1 0 0 none, .workbookProperty 9 (some [82, 101, 0]), .workbookDump (some [120, 0]) true ix]

/-- What it means. -/
def meant : List Live.Call :=
  [.other (.desk (.sheet [65])), .other (.desk (.on (.look (.put 0 0 0 (.text [233]) none)))), .other (.desk (.on (.look (.put 0 0 1 (.signed 7) none)))), .make 0,
   .push 0 (.ref 0 1 (some 0) 0xC000 64), .cell 0 1 0 false 0 none]

theorem sample_means (ix : Nat → Nat → Nat) : (sample ix).map (Call.means asWritten) = meant.map .call ++ [.property 9 [82, 101], .save true ix] := rfl

theorem sample_texts (ix : Nat → Nat → Nat) : ∀ c ∈ sample ix, c.Texts plainBuild asWritten := by
  intro c hc
  simp only [sample, List.mem_cons, List.not_mem_nil, or_false] at hc
  rcases hc with rfl | rfl | rfl | rfl | rfl | rfl | rfl | rfl
  · exact ⟨⟨by decide, [], rfl⟩, .inl (show ∀ c ∈ ['A'], c.val.toNat < 0x80 by decide)⟩
  · exact ⟨⟨by decide, [66], rfl⟩, show ∀ c ∈ ['é'], c.val.toNat < 0x10000 by decide⟩
  · trivial
  · trivial
  · trivial
  · trivial
  · exact ⟨by decide, [], rfl⟩
  · exact ⟨by decide, [], rfl⟩

/-- The sample meets all conditions: one file is written, and in it a reader finds "é", the number, the formula and the title. -/
example (ix : Nat → Nat → Nat) : ∃ p0 s0 N o s, Prog.init = some p0 ∧ Life.init 1700000000 [120] = some s0 ∧
    (∀ fuel, N ≤ fuel → run plainBuild (fun _ => 0) fuel s0 (sample ix) = some ([o], s)) ∧
    (Ole.dataSize o.wb + 8192 < 2 ^ 31 - 12288 → ∃ f, Ole.CompleteFile (Ole.workbookFiles o.wb [o.summary] [o.doc]) f ∧
      Life.Readable Formula.tableArity p0 1700000000 [120] (fun _ => 0) (meant, [(9, [82, 101])]) f) := by
  obtain ⟨p0, h0, -⟩ := Prog.init_good
  have hp : Live.Possible 0 0 meant := by simp [meant, Live.Possible, Live.bare, Desk.target]
  have w : Within p0 1700000000 [120] (meant, [(9, [82, 101])]) :=
    Life.within_of h0 hp (by decide) (fun i => rfl) (by decide +kernel) (by decide +kernel) (by decide +kernel)
  obtain ⟨s0, N, os, s, count, a1, a2, a3, a4, a5⟩ := c72_program_partial Formula.tableArity_knows plain_sound asWritten (sample ix) (sample_texts ix)
    (by simp [sample, Placed, Call.cells, Call.makes]) p0 h0 1700000000 (by decide) [120] _ (sample_means ix).symm hp w.fine (by
      intro c h
      rw [List.mem_singleton.mp h]
      exact w) (fun _ => 0) (show 1 ≤ 1000 by decide) (show ∀ n ∈ sheetNames meant, n.length < 256 by decide)
  match os, a3 with
  | [o], _ =>
    obtain ⟨_, b1⟩ := a5 0 _ o rfl rfl
    refine ⟨p0, s0, N, o, s, h0, a1, a2, ?_⟩
    have hz : count 0 = fun _ => 0 := funext a4
    rw [hz] at b1
    exact b1.file

end Xls.Bridge
