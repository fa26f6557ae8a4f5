import Verif.Links.Spec
import Verif.Links.Model
import Verif.Whole.File
import Verif.Look.Props
/-
C58: a formula that refers to cells of other sheets refers, in the saved workbook, to the sheets of these names.
-/
namespace Xls.Links
open Xls.Whole Xls.Cells Xls.Biff Xls.Book Xls.Save Xls.Formula

mutual
theorem means_refs {own : Nat} : ∀ {e : Expr} {t : Tree}, Means (some own) e t → refs t = others own e
  | .bool _, t, h => by cases t <;> simp_all [Means, refs, others]
  | .int _, t, h => by cases t <;> simp_all [Means, refs, others]
  | .num _, t, h => by cases t <;> simp_all [Means, refs, others]
  | .err _, t, h => by cases t <;> simp_all [Means, refs, others]
  | .missing, t, h => by cases t <;> simp_all [Means, refs, others]
  | .text _, t, h => by cases t <;> simp_all [Means, refs, others]
  | .ref _ _ sh _ _, t, h => by
    cases t with
    | ref =>
      simp only [Means] at h
      rw [refs, h.2.1]
      cases sh with
      | none => rfl
      | some j =>
        simp only [sheetSeen, others]
        by_cases hj : j = own
        · simp [hj]
        · rw [if_neg (fun e => hj e.symm), if_neg hj]; rfl
    | _ => simp [Means] at h
  | .area _ _ sh _ _ _ _, t, h => by
    cases t with
    | area =>
      simp only [Means] at h
      rw [refs, h.2.1]
      cases sh with
      | none => rfl
      | some j =>
        simp only [sheetSeen, others]
        by_cases hj : j = own
        · simp [hj]
        · rw [if_neg (fun e => hj e.symm), if_neg hj]; rfl
    | _ => simp [Means] at h
  | .un _ a, t, h => by
    cases t with
    | un =>
      simp only [Means] at h
      rw [refs, others, means_refs h.2]
    | _ => simp [Means] at h
  | .bin _ a b, t, h => by
    cases t with
    | bin =>
      simp only [Means] at h
      rw [refs, others, means_refs h.2.1, means_refs h.2.2]
    | _ => simp [Means] at h
  | .func _ _ args, t, h => by
    cases t with
    | call =>
      simp only [Means] at h
      rw [refs, others, meansAll_refs h.2.2]
    | _ => simp [Means] at h
theorem meansAll_refs {own : Nat} : ∀ {l : List Expr} {m : List Tree}, MeansAll (some own) l m → refsAll m = othersAll own l
  | [], [], _ => rfl
  | [], _ :: _, h => by simp [MeansAll] at h
  | _ :: _, [], h => by simp [MeansAll] at h
  | a :: r, b :: s, h => by
    simp only [MeansAll] at h
    rw [refsAll, othersAll, means_refs h.1, meansAll_refs h.2]
end

/-! ### The two records -/

theorem extern_reads (n : Nat) : ∀ (k i : Nat), i + k ≤ 65536 → k = n →
    readXtis k (Globals.externFrom i k) = some ((List.range k).map fun j => (0, i + j, i + j)) := by
  induction n with
  | zero => intro k i _ hk; subst hk; rfl
  | succ n ih =>
    intro k i h hk
    subst hk
    have h0 : i % 65536 % 65536 = i := by omega
    rw [Globals.externFrom]
    simp only [readXtis, readXti, List.append_assoc, takeLE_leN_append, Option.bind_some, Option.map_some]
    rw [ih n (i + 1) (by omega) rfl, List.range_succ_eq_map]
    simp only [Option.map_some, List.map_cons, List.map_map, Function.comp_def, show (256 : Nat) ^ 2 = 65536 from rfl, h0]
    simp only [Nat.add_zero, Nat.zero_mod, Nat.add_assoc, Nat.add_comm 1, Nat.succ_eq_add_one]

theorem readExtern_payload {n : Nat} (h : n < 65536) : readExtern (Globals.externPayload n) = some ((List.range n).map fun j => (0, j, j)) := by
  unfold readExtern Globals.externPayload
  simp only [takeLE_leN_append, Option.bind_some]
  rw [show n % 65536 % 256 ^ 2 = n from by omega, extern_reads n n 0 (by omega) rfl]
  simp

theorem selfBook_payload {n : Nat} (h : n < 65536) : selfBook (Globals.supbookPayload n) = some n := by
  unfold selfBook Globals.supbookPayload
  simp only [List.append_assoc, takeLE_leN_append, Option.bind_some]
  rw [show n % 65536 % 256 ^ 2 = n from by omega]
  rfl

theorem joined_split {t : Nat} {p : Bytes} {A B : List Rec} (h3 : t ≠ 0x3C) (hA : ∀ r ∈ A, r.1 ≠ t) (hB : ∀ r ∈ B.head?, r.1 ≠ 0x3C) :
    joined t (A ++ (splitRec t p ++ B)) = some p := by
  have hA' : (A ++ (splitRec t p ++ B)).dropWhile (fun r => r.1 != t) = splitRec t p ++ B := by
    rw [dropWhile_all _ _ (by simpa using hA)]
    unfold splitRec
    split <;> simp
  have hB' : B.takeWhile (fun r => r.1 == 0x3C) = [] := by
    cases B with
    | nil => rfl
    | cons r s => simp [List.takeWhile_cons, hB r rfl]
  have key : ∀ l : List Bytes, ((l.map fun c => ((0x3C, c) : Rec)) ++ B).takeWhile (fun r => r.1 == 0x3C) = l.map fun c => (0x3C, c) := by
    intro l
    induction l with
    | nil => simpa using hB'
    | cons a l ih => simp [List.takeWhile_cons, ih]
  unfold joined
  rw [hA']
  unfold splitRec
  by_cases h : p.length ≤ maxRec
  · rw [if_pos h]; simp [hB']
  · rw [if_neg h]
    have : (chunks maxRec (p.drop maxRec)).flatMap (fun c => c) = p.drop maxRec := by
      rw [List.flatMap_id']; exact chunks_flatten (by decide) _
    simp only [List.cons_append, key, List.flatMap_map, this, List.take_append_drop]

/-! ### Among the records of the workbook globals -/

theorem none_in {pos : Nat → Option Nat} {y : Nat} {us : List U} {rs : List Rec} (h : ShowsL pos us rs)
    (hu : ∀ u ∈ us, ∀ ss, Shows pos u ss → ∀ r ∈ ss, r.1 ≠ y) : ∀ r ∈ rs, r.1 ≠ y := by
  induction h with
  | nil => simp
  | cons a _ ih =>
    intro r hr
    rcases List.mem_append.mp hr with hr | hr
    · exact hu _ (by simp) _ a r hr
    · exact ih (fun u h => hu u (by simp [h])) r hr

theorem links_of_globals {bpos : List (Nat × Nat)} {D : Globals.Data} {g t : List U} (hg : Globals.groupUnits D = some g)
    (ht : Globals.sstUnits D = some t) {G : List Rec} (hG : ShowsL (posOf bpos) (Globals.units D g t) G) :
    joined 0x17 G = some (Globals.externPayload D.bounds.length) ∧
      (G.filter (·.1 == 0x1AE)).map (·.2) = [Globals.supbookPayload D.bounds.length] := by
  unfold Globals.units at hG
  obtain ⟨A, X1, rfl, hA, hX1⟩ := showsL_split hG
  obtain ⟨B, X2, rfl, hB, hX2⟩ := showsL_split hX1
  obtain ⟨C, X3, rfl, hC, hX3⟩ := showsL_split hX2
  obtain ⟨E, X4, rfl, hE, hX4⟩ := showsL_split hX3
  obtain ⟨F, Z, rfl, hF, hZ⟩ := showsL_split hX4
  have hC' : C = (0x1AE, Globals.supbookPayload D.bounds.length) :: splitRec 0x17 (Globals.externPayload D.bounds.length) := by
    cases hC with
    | cons a b =>
      cases b with
      | cons b c =>
        cases c
        rw [shows_det a (.one rfl (by decide) rfl rfl), shows_det b (.one rfl (by decide) rfl rfl), splitRec, if_pos (by simp [Globals.supbookPayload, maxRec])]
        simp
  have hA' : ∀ y, y = 0x17 ∨ y = 0x1AE → ∀ r ∈ A, r.1 ≠ y := by
    intro y hy
    refine none_in hA ?_
    intro u hu ss hss
    unfold Globals.headUnits at hu
    simp only [List.mem_append, List.mem_cons, List.not_mem_nil, or_false, List.mem_map] at hu
    rcases hu with (rfl | rfl | rfl | rfl) | ⟨_, _, rfl⟩ | ⟨_, _, rfl⟩ | ⟨_, _, rfl⟩ | ⟨_, _, rfl⟩ | ⟨_, _, rfl⟩ | ⟨_, _, rfl⟩ | rfl <;>
      exact Look.other (by decide) (by omega) (by omega) ss hss
  have hB' : ∀ y, y = 0x17 ∨ y = 0x1AE → ∀ r ∈ B, r.1 ≠ y := by
    intro y hy
    refine none_in hB ?_
    intro u hu ss hss
    obtain ⟨b, _, rfl⟩ := List.mem_map.mp hu
    cases hss with
    | one _ _ _ h => cases h
    | many _ _ _ h => cases h
    | bound => intro r hr; rcases (splitRec_fits _ _ (by decide) r hr).1 with e | e <;> omega
  have hE' : E = [] ∨ ∃ p, E = splitRec 0xEB p := by
    obtain ⟨g', hg', hu'⟩ := group_some D
    rw [hg] at hg'
    obtain rfl := Option.some.inj hg'
    unfold Globals.groupUnits at hg
    obtain ⟨o, -, rfl⟩ := Option.map_eq_some_iff.mp hg
    cases o with
    | none => cases hE; exact .inl rfl
    | some bs =>
      simp only [Option.toList_some, List.map_cons, List.map_nil] at hE hu'
      obtain ⟨p, h1, h2, h3⟩ := hu' _ (List.mem_singleton.mpr rfl)
      cases hE with
      | cons a b =>
        cases b
        exact .inr ⟨p, by rw [shows_det a (.one h1 (by decide) h2 h3), List.append_nil]⟩
  have hF' : F = [] ∨ ∃ p rest, F = (0xFC, p) :: rest ∧ ∀ r ∈ rest, r.1 = 0x3C := by
    unfold Globals.sstUnits at ht
    by_cases hl : D.labels = []
    · rw [if_pos (by simp [hl])] at ht
      obtain rfl := Option.some.inj ht
      cases hF
      exact .inl rfl
    · rw [if_neg (by simp [hl])] at ht
      obtain ⟨bs, rs, h1, h2, h3, h4⟩ := Sst.c05_sst_reads_back D.labels
      rw [h1] at ht
      obtain rfl := Option.some.inj ht
      obtain ⟨e, hf⟩ := records_some h2
      cases hF with
      | cons h5 h6 =>
        cases h6
        rw [List.append_nil, shows_det h5 (.many e (fun r hr => ⟨(hf r hr).1, h3 r hr⟩) (.inl rfl) rfl)]
        cases rs with
        | nil => exact .inl rfl
        | cons r rest =>
          obtain ⟨a, p⟩ := r
          have hc : a = 0xFC ∧ rest.all (fun r => r.1 == 0x3C) := by
            simp only [Sst.readSST] at h4
            split at h4
            · assumption
            · simp at h4
          exact .inr ⟨p, rest, by rw [hc.1], fun r hr => by simpa using List.all_eq_true.mp hc.2 r hr⟩
  have hZ' : Z = [(0x0A, [])] := by
    cases hZ with
    | cons a b =>
      cases b
      rw [shows_det a (.one rfl (by decide) rfl rfl)]
      rfl
  subst hC' hZ'
  refine ⟨?_, ?_⟩
  · rw [show A ++ (B ++ ((0x1AE, Globals.supbookPayload D.bounds.length) :: splitRec 0x17 (Globals.externPayload D.bounds.length) ++ (E ++ (F ++ [(0x0A, [])])))) =
      (A ++ (B ++ [(0x1AE, Globals.supbookPayload D.bounds.length)])) ++ (splitRec 0x17 (Globals.externPayload D.bounds.length) ++ (E ++ (F ++ [(0x0A, [])]))) by simp]
    refine joined_split (by decide) ?_ ?_
    · intro r hr
      simp only [List.mem_append, List.mem_singleton] at hr
      rcases hr with hr | hr | rfl
      · exact hA' 0x17 (.inl rfl) r hr
      · exact hB' 0x17 (.inl rfl) r hr
      · simp
    · intro r hr
      rcases hE' with rfl | ⟨p, rfl⟩
      · rcases hF' with rfl | ⟨p, rest, rfl, -⟩
        · simp at hr; subst hr; decide
        · simp at hr; subst hr; simp
      · have : ((splitRec 0xEB p ++ (F ++ [(0x0A, [])])).head?).map Prod.fst = some 0xEB := by
          unfold splitRec
          by_cases h : p.length ≤ maxRec
          · rw [if_pos h]; rfl
          · rw [if_neg h]; rfl
        rw [Option.mem_def] at hr
        rw [hr, Option.map_some, Option.some.injEq] at this
        omega
  · have no : ∀ l : List Rec, (∀ r ∈ l, r.1 ≠ 0x1AE) → l.filter (·.1 == 0x1AE) = [] :=
      fun l h => List.filter_eq_nil_iff.mpr (fun r hr => by simpa using h r hr)
    have n1 := no A (hA' _ (.inr rfl))
    have n2 := no B (hB' _ (.inr rfl))
    have n3 := no (splitRec 0x17 (Globals.externPayload D.bounds.length)) (fun r hr => by
      rcases (splitRec_fits _ _ (by decide) r hr).1 with e | e <;> omega)
    have n4 := no E (by
      rcases hE' with rfl | ⟨p, rfl⟩
      · simp
      · intro r hr; rcases (splitRec_fits _ _ (by decide) r hr).1 with e | e <;> omega)
    have n5 := no F (by
      rcases hF' with rfl | ⟨p, rest, rfl, h⟩
      · simp
      · intro r hr
        rcases List.mem_cons.mp hr with rfl | hr
        · simp
        · have := h r hr; omega)
    simp only [List.filter_append, List.filter_cons, n1, n2, n3, n4, n5]
    rfl

theorem named {G : List Rec} {n : Nat} (hn : n < 65536) (h1 : joined 0x17 G = some (Globals.externPayload n))
    (h2 : (G.filter (·.1 == 0x1AE)).map (·.2) = [Globals.supbookPayload n]) {es : List SheetEntry} (h3 : sheetTable G = some es) (h4 : es.length = n)
    (k : Nat) : sheetNamed G k = (es[k]?).map (·.name) := by
  unfold sheetNamed
  simp only [h1, Option.bind_some, readExtern_payload hn, List.getElem?_map, h2, h3]
  by_cases hk : k < n
  · rw [List.getElem?_range hk]
    simp [selfBook_payload hn, h4]
  · rw [List.getElem?_eq_none (by simp; omega), List.getElem?_eq_none (by omega)]
    rfl

/-! ### The claim -/

/-- What is read in a cell is what was written, and if that is a formula, the references in it that name a sheet name, from left to right, the
    sheets (other than its own) that the formula's references are to. -/
def Linked (ar : Nat → Option Nat) (names : List (List UInt16)) (G : List Rec) (i : Nat) (v : Val) (c : Content) : Prop :=
  Holds ar i v c ∧ ∀ array e, v = .expr array e →
    ∃ bs t, c = .formula array bs ∧ parse ar bs = some t ∧ Means (some i) e t ∧
      (refs t).mapM (sheetNamed G) = (others i e).mapM (fun j => names[j]?)

theorem linked {ar : Nat → Option Nat} {names : List (List UInt16)} {G : List Rec} (hG : ∀ k, sheetNamed G k = names[k]?) {i : Nat} {v : Val} {c : Content}
    (h : Holds ar i v c) : Linked ar names G i v c := by
  refine ⟨h, ?_⟩
  rintro array e rfl
  obtain ⟨bs, t, h1, h2, h3⟩ := h
  refine ⟨bs, t, h1, h2, h3, ?_⟩
  rw [means_refs h3, show sheetNamed G = fun j => names[j]? from funext hG]

/-- The numbers by which references name sheets: number `j` stands for the sheet created as number `j`, under its name, and no other number
    stands for anything.  Missing for the full claim: sheet names of 256 or more characters (C44). -/
theorem c58_table_partial {α : Type} (cd : Cell α → Bytes) (cs : Cell α → Nat) (D : Globals.Data) (gs : Globals.St)
    (sheets : List (Sheet.Data α Note.Note × Sheet.St α)) (s s' : Book.St (Globals.Data × Globals.St) (Sheet.Data α Note.Note × Sheet.St α))
    (us : List U) (fuel : Nat) (hok : Saveable cd D gs sheets) (hs : start (D, gs) sheets s) (hname : ∀ b ∈ D.bounds, b.name.length < 256)
    (h : Book.run Globals.next (Sheet.next (Note.env cd cs)) fuel s = .done us s') :
    ∃ bs rs G Rs, stream us s'.bpos = some bs ∧ records bs = some rs ∧ substreams rs = some (G :: Rs) ∧ (∀ pad, readSub (bs ++ pad) = some G) ∧
      ∀ k, sheetNamed G k = (D.bounds.map (·.name))[k]? := by
  obtain ⟨bs, rs, G, Rs, es, h1, h2, h3, h4, h5, -⟩ := c44_sheets_partial cd cs D gs sheets s s' us fuel hok hs hname h
  obtain ⟨bs2, G2, Rs2, gus, uss, offs, A, B, P, -⟩ := saved_parts hok hs h
  rw [P.strm] at h1
  obtain rfl := Option.some.inj h1
  rw [P.recs] at h2
  obtain rfl := Option.some.inj h2
  rw [P.subs] at h3
  obtain ⟨rfl, rfl⟩ := List.cons.inj (Option.some.inj h3)
  obtain ⟨g, t, hg, ht, rfl⟩ := P.units
  obtain ⟨l1, l2⟩ := links_of_globals hg ht P.showsG
  have hlen : es.length = D.bounds.length := by simpa using congrArg List.length h5
  refine ⟨bs2, _, G2, Rs2, P.strm, P.recs, P.subs, P.readGlobals, fun k => ?_⟩
  rw [named (by rw [hok.count]; exact hok.few) l1 l2 h4 hlen k, ← h5, List.getElem?_map]

/-- C58: in the saved workbook the formulas written last on each place read back, and the references in them lead, through the
    EXTERNSHEET entries and the workbook's reference to itself, to the names of the sheets they were made for.
    Missing for the full claim: values outside `Fine`, sheet names of 256 or more characters, references to the cells of another workbook. -/
theorem c58_cells_partial {ar : Nat → Option Nat} (hA : Formula.KnowsArity ar) (h : List (Nat × Cell Val)) (b : Book) (r : Reach h b)
    (hf : All Fine h) (xf : WCell → Nat) (hx : ∀ c, xf c < 65536) (cs : WCell → Nat) (D : Globals.Data) (gs : Globals.St)
    (sheets : List (Sheet.Data (Nat × Val) Note.Note × Sheet.St (Nat × Val)))
    (s s' : Book.St (Globals.Data × Globals.St) (Sheet.Data (Nat × Val) Note.Note × Sheet.St (Nat × Val)))
    (us : List U) (fuel : Nat) (hp : Pours b D sheets) (hok : Saveable (fun c => cellBytes b.labels (xf c) c) D gs sheets) (hs : start (D, gs) sheets s)
    (hname : ∀ b ∈ D.bounds, b.name.length < 256)
    (hrun : Book.run Globals.next (Sheet.next (Note.env (fun c => cellBytes b.labels (xf c) c) cs)) fuel s = .done us s') :
    ∃ bs rs G Rs table, stream us s'.bpos = some bs ∧ records bs = some rs ∧ substreams rs = some (G :: Rs) ∧ sstOf G = some table ∧
      Rs.length = sheets.length ∧ ∀ (i : Nat) R, Rs[i]? = some R →
        ∃ xs, sheetCells table R = some xs ∧ ReadsBack (Linked ar (D.bounds.map (·.name)) G) h xf i xs := by
  obtain ⟨bs, rs, G, Rs, table, h1, h2, h3, h4, h5, h6⟩ := c55_cells_partial hA h b r hf xf hx cs D gs sheets s s' us fuel hp hok hs hrun
  obtain ⟨bs', rs', G', Rs', k1, k2, k3, -, k4⟩ := c58_table_partial _ cs D gs sheets s s' us fuel hok hs hname hrun
  rw [h1] at k1
  obtain rfl := Option.some.inj k1
  rw [h2] at k2
  obtain rfl := Option.some.inj k2
  rw [h3] at k3
  obtain ⟨rfl, rfl⟩ := List.cons.inj (Option.some.inj k3)
  refine ⟨bs, rs, G, Rs, table, h1, h2, h3, h4, h5, fun i R hR => ?_⟩
  obtain ⟨xs, e, hb⟩ := h6 i R hR
  exact ⟨xs, e, hb.mono fun row col c hw x hx => linked k4 hx⟩

/-- The same for the file, read by a reader that follows the sheet table. -/
theorem c58_file_partial {ar : Nat → Option Nat} (hA : Formula.KnowsArity ar) (h : List (Nat × Cell Val)) (b : Book) (r : Reach h b)
    (hf : All Fine h) (xf : WCell → Nat) (hx : ∀ c, xf c < 65536) (cs : WCell → Nat) (D : Globals.Data) (gs : Globals.St)
    (sheets : List (Sheet.Data (Nat × Val) Note.Note × Sheet.St (Nat × Val)))
    (s s' : Book.St (Globals.Data × Globals.St) (Sheet.Data (Nat × Val) Note.Note × Sheet.St (Nat × Val)))
    (us : List U) (fuel : Nat) (hp : Pours b D sheets) (hok : Saveable (fun c => cellBytes b.labels (xf c) c) D gs sheets) (hs : start (D, gs) sheets s)
    (hrun : Book.run Globals.next (Sheet.next (Note.env (fun c => cellBytes b.labels (xf c) c) cs)) fuel s = .done us s')
    (hsm : SmallGlobals D) (hsh : ∀ sh ∈ sheets, SmallSheet (fun c => cellBytes b.labels (xf c) c) sh.1)
    (wb si dsi : List Bytes) (hwb : us.mapM (patch s'.bpos) = some wb)
    (hsize : Ole.dataSize wb + Ole.dataSize si + Ole.dataSize dsi < 2 ^ 31 - 12288) :
    ∃ f w L G, Ole.CompleteFile (Ole.workbookFiles wb si dsi) f ∧ Cfb.readStream f (Ole.nameUnits Ole.workbookNames[0]) = some w ∧
      openCells w = some ((D.bounds.map (·.name)).zip L) ∧ L.length = sheets.length ∧ readSub w = some G ∧
      ∀ (i : Nat) xs, L[i]? = some xs → ReadsBack (Linked ar (D.bounds.map (·.name)) G) h xf i xs := by
  obtain ⟨f, k1, k2, k3, h1, h2, _⟩ := Ole.c10_workbook wb si dsi hsize
  obtain ⟨bs, e1, e2⟩ := c55_open_partial hA h b r hf xf hx cs D gs sheets s s' us fuel hp hok hs hrun hsm hsh
  obtain ⟨bs', rs', G, Rs', m1, m2, m3, m4, m5⟩ := c58_table_partial _ cs D gs sheets s s' us fuel hok hs hsm.names hrun
  rw [e1] at m1
  obtain rfl := Option.some.inj m1
  have hbs : bs = wb.flatten := by
    unfold stream at e1
    rw [hwb] at e1
    simpa using e1.symm
  subst hbs
  have : wb.flatten.length = Ole.dataSize wb := by rw [List.length_flatten]; rfl
  obtain ⟨L, l1, l2, l3⟩ := e2 (by omega) _
  exact ⟨f, _, L, G, h1, h2, l1, l2, m4 _, fun i xs hi => (l3 i xs hi).mono fun row col c hw x hx => linked m5 hx⟩

/-- C58, nothing assumed but the program. -/
theorem c58_plain {ar : Nat → Option Nat} (hA : Formula.KnowsArity ar) (h : List (Nat × Cell Val)) (hd : (h.map (·.2.id)).Nodup)
    (hf : All Fine h) (hlen : h.length < 2 ^ 32) (hrow : FewRows h) (xf : WCell → Nat) (hx : ∀ c, xf c < 65536) (cs : WCell → Nat)
    (names : List (List UInt16)) (hn0 : names ≠ []) (hn1 : names.length ≤ 1000) (hn2 : ∀ n ∈ names, n.length < 256) :
    ∃ b D fuel us s' bs G, Reach h b ∧ Pours b D ((List.range names.length).map (plainSheet b)) ∧
      Book.run Globals.next (Sheet.next (Note.env (fun c => cellBytes b.labels (xf c) c) cs)) fuel
        (plainStart D ((List.range names.length).map (plainSheet b))) = .done us s' ∧
      stream us s'.bpos = some bs ∧ readSub bs = some G ∧ (bs.length < 2 ^ 32 → ∃ L, openCells bs = some (names.zip L) ∧ L.length = names.length ∧
        ∀ (i : Nat) xs, L[i]? = some xs → ReadsBack (Linked ar names G) h xf i xs) := by
  obtain ⟨b, D, n, us, s', hN, r, hp, hok, hs, hrun, hsm, hsh⟩ := plain_saves hA h hd hf.sound hlen hrow xf hx cs names hn0 hn1 hn2
  obtain ⟨bs, e1, e2⟩ := c55_open_partial hA h b r hf xf hx cs D demoGs _ _ s' us n hp hok hs hrun hsm hsh
  obtain ⟨bs', rs', G, Rs', m1, m2, m3, m4, m5⟩ := c58_table_partial _ cs D demoGs _ _ s' us n hok hs hsm.names hrun
  rw [e1] at m1
  obtain rfl := Option.some.inj m1
  have m6 := m4 []
  rw [List.append_nil] at m6
  refine ⟨b, D, n, us, s', bs, G, r, hp, hrun, e1, m6, fun h32 => ?_⟩
  obtain ⟨L, l1, l2, l3⟩ := e2 h32 []
  rw [List.append_nil] at l1
  rw [hN] at m5
  exact ⟨L, by rw [l1, hN], by simpa using l2, fun i xs hi => (l3 i xs hi).mono fun row col c hw x hx => linked m5 hx⟩

/-- The formula on sheet 1 of `sampleHist` refers to sheet 0, of name "A". -/
example : others 1 (.bin 3 (.int 1) (refNode ⟨0, 0, some 0⟩ 0 0x40)) = [0] ∧ [0].mapM (fun j => ([[65], [66]] : List (List UInt16))[j]?) = some [[65]] := by decide

example (t : List UInt16) (ht : t.length = 400) :
    ∃ b D fuel us s' bs G, Reach (sampleHist t) b ∧ Pours b D ((List.range 2).map (plainSheet b)) ∧
      Book.run Globals.next (Sheet.next (Note.env (fun c => cellBytes b.labels 15 c) fun _ => 0)) fuel
        (plainStart D ((List.range 2).map (plainSheet b))) = .done us s' ∧
      stream us s'.bpos = some bs ∧ readSub bs = some G ∧ (bs.length < 2 ^ 32 → ∃ L, openCells bs = some ([[65], [66]].zip L) ∧ L.length = 2 ∧
        ∀ (i : Nat) xs, L[i]? = some xs → ReadsBack (Linked Formula.tableArity [[65], [66]] G) (sampleHist t) (fun _ => 15) i xs) :=
  c58_plain Formula.tableArity_knows (sampleHist t) (by simp [sampleHist]) (sample_fine t ht) (by simp [sampleHist])
    (fewRows_of <| by
        intro p hp
        simp only [sampleHist, List.mem_cons, List.not_mem_nil, or_false] at hp
        rcases hp with rfl | rfl | rfl | rfl | rfl | rfl | rfl | rfl | rfl | rfl <;> simp)
    (fun _ => 15) (fun _ => by decide) (fun _ => 0) [[65], [66]] (by decide) (by decide) (by decide)

/-- One reference made for a cell: a reader sees the row and the column of the cell, and the number of its sheet if that is another one. -/
theorem c58_ref {ar : Nat → Option Nat} (own : Nat) (c : At) (mode cls j : Nat) (hc : c.sheet = some j)
    (hr : c.row < 65536 ∧ c.col < 256 ∧ j < 65536) (hm : mode = 0 ∨ mode = 0xC000) (hk : IsClass cls) :
    ∃ bs k rel, dump (some own) (refNode c mode cls) = some (bs, false) ∧
      parse ar bs = some (.ref k (if j = own then none else some j) c.row c.col rel rel) ∧ (rel = true ↔ mode = 0xC000) := by
  have hm' : (modeRel mode).isSome := by rcases hm with rfl | rfl <;> rfl
  refine ⟨_, cls / 32, decide (mode = 0xC000), by rw [refNode, dump], ?_, by simp⟩
  have h := (puts_ref ar (some own) (sh := c.sheet) hr.1 hr.2.1 (by rw [hc]; simp; exact hr.2.2) (modeRel_cases hm') hk).parse
  have e : sheetSeen (some own) c.sheet = if j = own then none else some j := by
    rw [hc]
    simp only [sheetSeen, eq_comm]
  rw [e] at h
  rcases hm with rfl | rfl <;> exact h

/-- One area made for two cells of a sheet. -/
theorem c58_area_partial {ar : Nat → Option Nat} (own : Nat) (c d : At) (mode cls j : Nat) (hc : c.sheet = some j) (_hd : d.sheet = some j)
    (hr : c.row < 65536 ∧ c.col < 256 ∧ d.row < 65536 ∧ d.col < 256 ∧ j < 65536) (hm : mode = 0 ∨ mode = 0xC000) (hk : IsClass cls) :
    ∃ bs k rel, dump (some own) (areaNode c d mode cls) = some (bs, false) ∧
      parse ar bs = some (.area k (if j = own then none else some j) c.row d.row c.col rel rel d.col rel rel) ∧ (rel = true ↔ mode = 0xC000) := by
  have hm' : (modeRel mode).isSome := by rcases hm with rfl | rfl <;> rfl
  refine ⟨_, cls / 32, decide (mode = 0xC000), by rw [areaNode, dump], ?_, by simp⟩
  have h := (puts_area ar (some own) (sh := c.sheet) hr.1 hr.2.1 (by rw [hc]; simp; exact hr.2.2.2.2) hr.2.2.1 hr.2.2.2.1 (modeRel_cases hm') hk).parse
  have e : sheetSeen (some own) c.sheet = if j = own then none else some j := by
    rw [hc]
    simp only [sheetSeen, eq_comm]
  rw [e] at h
  rcases hm with rfl | rfl <;> exact h

example : ∃ bs k rel, dump (some 2) (refNode ⟨4, 3, some 1⟩ 0xC000 0x40) = some (bs, false) ∧
    parse Formula.tableArity bs = some (.ref k (some 1) 4 3 rel rel) ∧ (rel = true ↔ 0xC000 = 0xC000) :=
  c58_ref 2 ⟨4, 3, some 1⟩ 0xC000 0x40 1 rfl (by decide) (.inr rfl) (.inr (.inl rfl))

example : ∃ bs k rel, dump (some 2) (areaNode ⟨0, 0, some 1⟩ ⟨4, 3, some 1⟩ 0 0x20) = some (bs, false) ∧
    parse Formula.tableArity bs = some (.area k (some 1) 0 4 0 rel rel 3 rel rel) ∧ (rel = true ↔ 0 = 0xC000) :=
  c58_area_partial 2 ⟨0, 0, some 1⟩ ⟨4, 3, some 1⟩ 0 0x20 1 rfl rfl (by decide) (.inl rfl) (.inl rfl)

/-- The full claim fails for an area whose second cell is on another sheet than the first: a reader sees an area on the first
    cell's sheet, and the sheet of the second cell is nowhere in the formula. -/
theorem c58_corner_ignored {ar : Nat → Option Nat} (own : Nat) (c d : At) (mode cls j k : Nat) (hc : c.sheet = some j) (hd : d.sheet = some k)
    (hjk : j ≠ k) (hr : c.row < 65536 ∧ c.col < 256 ∧ d.row < 65536 ∧ d.col < 256 ∧ j < 65536) (hm : mode = 0 ∨ mode = 0xC000)
    (hk : IsClass cls) :
    ∃ bs t, dump (some own) (areaNode c d mode cls) = some (bs, false) ∧ parse ar bs = some t ∧ k ∉ refs t := by
  have hm' : (modeRel mode).isSome := by rcases hm with rfl | rfl <;> rfl
  refine ⟨_, _, by rw [areaNode, dump], (puts_area ar (some own) hr.1 hr.2.1 (by rw [hc]; simp; exact hr.2.2.2.2) hr.2.2.1 hr.2.2.2.1 (modeRel_cases hm') hk).parse, ?_⟩
  rw [refs, hc]
  simp only [sheetSeen]
  split
  · simp
  · simpa using fun h => hjk h.symm

example : ∃ bs t, dump (some 2) (areaNode ⟨0, 0, some 0⟩ ⟨4, 1, some 1⟩ 0xC000 0x20) = some (bs, false) ∧ parse Formula.tableArity bs = some t ∧ 1 ∉ refs t :=
  c58_corner_ignored 2 ⟨0, 0, some 0⟩ ⟨4, 1, some 1⟩ 0xC000 0x20 0 1 rfl rfl (by decide) (by decide) (by decide) (.inl rfl)

end Xls.Links
