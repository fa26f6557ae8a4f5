import Verif.Dir.Order
/-
C76: the file system inside a compound file.

`run os` is the program `os` of `AddDirectory` and `AddFile` calls on a new file system; `Table.run os`
is the same program on a plain table of paths.
-/
namespace Xls.Dir
open Xls.Ole

/-- C76: every call of every program returns what the table says: 0 and the path exists from then on, −2
    for a path that exists already, −3 for a name below a file, −1 for a name below a path that does not
    exist.  The only calls without a defined result are those for a path that exists already and has
    something below it. -/
theorem c76_codes (os : List Op) : (run os).map Prod.fst = (Table.run os).map Prod.fst := by
  have := inv_init.run os
  rw [run, Table.run]
  cases hr : Table.runFrom [] os with
  | none => rw [hr] at this; simp only [] at this; rw [this]; rfl
  | some x =>
    obtain ⟨cs, t⟩ := x
    rw [hr] at this
    obtain ⟨fs', h1, _⟩ := this
    rw [h1]; rfl

/-- C76: the array of entries lists what the program made, each path exactly once, in the order in which
    it was made; the first entry has number 1. -/
theorem c76_entries {os : List Op} {cs : List Int} {fs : Fs} (h : run os = some (cs, fs)) :
    ∃ t, Table.run os = some (cs, t) ∧ (t.map Prod.fst).Nodup ∧ (getAllNodes fs).length = t.length ∧
      ∀ (j : Nat) (q : Path) (w : What), t[j]? = some (q, w) →
        ∃ e, (getAllNodes fs)[j]? = some e ∧ Describes e (j + 1) q w := by
  obtain ⟨t, ht, I⟩ := run_inv h
  refine ⟨t, ht, I.nodup, I.length, ?_⟩
  intro j q w hj
  obtain ⟨m, _, h2, h3, _⟩ := I.entry hj
  exact ⟨m.e, h2, h3⟩

/-- C76: reading the entries of a directory — the root or any other — from its child link gives exactly
    the names made in it, in the order in which they were made; below a file there is nothing. -/
theorem c76_children {os : List Op} {cs : List Int} {fs : Fs} (h : run os = some (cs, fs)) :
    ∃ t, Table.run os = some (cs, t) ∧
      Walk (fs.root.e :: getAllNodes fs) fs.root.e.child ((t.children []).map Prod.fst) ∧
      ∀ (j : Nat) (q : Path) (w : What), t[j]? = some (q, w) →
        ∃ e, (getAllNodes fs)[j]? = some e ∧
          Walk (fs.root.e :: getAllNodes fs) e.child ((t.children q).map Prod.fst) := by
  obtain ⟨t, ht, I⟩ := run_inv h
  refine ⟨t, ht, I.walk (q := []) rfl I.rootK, ?_⟩
  intro j q w hj
  obtain ⟨m, h1, h2, _, h4⟩ := I.entry hj
  exact ⟨m.e, h2, I.walk h1 h4⟩

/-- C76: `GetNode` finds every path that was made, and no name that was not made in the root.  The converse
    for longer paths does not hold (`c76_search_wrong`). -/
theorem c76_find_partial {os : List Op} {cs : List Int} {fs : Fs} (h : run os = some (cs, fs)) :
    ∃ t, Table.run os = some (cs, t) ∧
      (∀ (j : Nat) (w : What) (path : Bytes), t[j]? = some (stringtok path, w) →
        ∃ e, getNode fs path = some e ∧ Describes e (j + 1) (stringtok path) w) ∧
      ∀ (path nm : Bytes), stringtok path = [nm] → t.get [nm] = none → getNode fs path = none := by
  obtain ⟨t, ht, I⟩ := run_inv h
  refine ⟨t, ht, ?_, ?_⟩
  · intro j w path hj
    obtain ⟨hq, m, h1, h2, _⟩ := I.here j _ w hj
    refine ⟨m.e, ?_, h2⟩
    rw [getNode, searchNode_eq h1 hq]; rfl
  · intro path nm hp hg
    rw [getNode, hp, searchNode_one (I.gone [nm] (by simp) ((get_none (by simp)).mp hg))]; rfl

theorem depotNodes_dir {es : List Entry} {i : Nat} {e : Entry} (he : e ∈ es) (hd : e.data = none) :
    depotNodes es i = none := by
  induction es generalizing i with
  | nil => cases he
  | cons a r ih =>
    rw [depotNodes]
    rcases List.mem_cons.mp he with rfl | hr
    · rw [hd]
    · cases a.data with
      | none => rfl
      | some us =>
        simp only []
        split
        · rfl
        · rw [ih hr]

/-- C76: a file system with a directory in it cannot be written: the writer uses the data of every entry,
    and a directory has none. -/
theorem c76_directory_unsaved {os : List Op} {cs : List Int} {fs : Fs} (h : run os = some (cs, fs)) :
    ∃ t, Table.run os = some (cs, t) ∧ ∀ q, (q, What.dir) ∈ t → dumpOleFile fs = none := by
  obtain ⟨t, ht, I⟩ := run_inv h
  refine ⟨t, ht, ?_⟩
  intro q hq
  obtain ⟨j, hj⟩ := List.getElem?_of_mem hq
  obtain ⟨m, _, h2, h3, _⟩ := I.entry hj
  have hd := (h3.dir rfl).2.2
  simp only [dumpOleFile, dumpDepots, depotNodes_dir (List.mem_of_getElem? h2) hd]
  cases getBATCount (totalDataSize (getAllNodes fs) / 512) with
  | none => rfl
  | some b => rfl

/-- Of two lists of equal length, the elements where the other one has a 0. -/
def accepted : List Op → List Int → List Op
  | o :: os, c :: cs => if c = 0 then o :: accepted os cs else accepted os cs
  | _, _ => []

/-- A call of `AddFile` as a stream. -/
def asFile : Op → Option File
  | .dir _ => none
  | .file p us => some { path := p, units := us }

theorem runFrom_accepted {os : List Op} {cs : List Int} {fs fs' : Fs} {files : List File}
    (h : runFrom fs os = some (cs, fs')) (hf : (accepted os cs).mapM asFile = some files) : addFiles fs files = .ok fs' := by
  induction os generalizing fs cs files with
  | nil =>
    cases h
    cases hf
    rfl
  | cons o r ih =>
    rw [runFrom] at h
    cases hc : call fs o with
    | ub => rw [hc] at h; cases h
    | err c =>
      rw [hc] at h
      simp only [] at h
      obtain ⟨x, h1, h2⟩ := Option.map_eq_some_iff.mp h
      cases h2
      have hne : c ≠ 0 := by
        have : ∀ (p : Path) (n : Node) (i : Nat), addNode i p n = .err c → c ≠ 0 := by
          intro p
          induction p with
          | nil => intro n i hh; rw [addNode_nil] at hh; split at hh <;> cases hh; decide
          | cons a s ih2 =>
            intro n i hh
            rw [addNode_cons] at hh
            cases hk : kid a n.kids with
            | some k =>
              rw [hk] at hh
              simp only [] at hh
              cases ha : addNode i s k with
              | ub => rw [ha] at hh; cases hh
              | ok k' => rw [ha] at hh; cases hh
              | err c' => rw [ha] at hh; cases hh; exact ih2 k i ha
            | none =>
              rw [hk] at hh
              simp only [] at hh
              split at hh
              · split at hh
                · cases hh
                · cases hh; decide
              · cases hh; decide
        cases o with
        | dir p =>
          simp only [call, addDirectory] at hc
          cases ha : addNode (fs.count + 1) (stringtok p) fs.root with
          | ub => rw [ha] at hc; cases hc
          | ok k' => rw [ha] at hc; cases hc
          | err c' => rw [ha] at hc; cases hc; exact this _ _ _ ha
        | file p us =>
          simp only [call, addFile] at hc
          cases ha : addNode (fs.count + 1) (stringtok p) fs.root with
          | ub => rw [ha] at hc; cases hc
          | ok k' => rw [ha] at hc; cases hc
          | err c' => rw [ha] at hc; cases hc; exact this _ _ _ ha
      rw [accepted, if_neg hne] at hf
      exact ih h1 hf
    | ok fs1 =>
      rw [hc] at h
      simp only [] at h
      obtain ⟨x, h1, h2⟩ := Option.map_eq_some_iff.mp h
      cases h2
      rw [accepted, if_pos rfl, List.mapM_cons] at hf
      cases o with
      | dir p => cases hf
      | file p us =>
        cases hr : (accepted r x.1).mapM asFile with
        | none => simp [asFile, hr] at hf
        | some l =>
          simp only [asFile, hr, Option.bind_eq_bind, Option.bind_some, Option.pure_def, Option.some.injEq] at hf
          subst hf
          rw [addFiles]
          simp only [call] at hc
          rw [hc]
          exact ih h1 hr

/-- C76: if all accepted calls are `AddFile` calls, the file system is the one made by those calls alone,
    whatever was refused in between; and each of them names a stream of the root storage.  (Claims C10 to
    C14 describe how such a file system is written.) -/
theorem c76_streams {os : List Op} {cs : List Int} {fs : Fs} {files : List File} (h : run os = some (cs, fs))
    (hf : (accepted os cs).mapM asFile = some files) :
    addFiles Fs.init files = .ok fs ∧
      ∃ names : List Bytes, files.map (fun f => stringtok f.path) = names.map (fun n => [n]) ∧ names.Nodup := by
  refine ⟨runFrom_accepted h hf, ?_⟩
  obtain ⟨t, ht, I⟩ := run_inv h
  -- the table is the list of accepted calls
  have htab : ∀ (os : List Op) (cs : List Int) (t0 t1 : Table), Table.runFrom t0 os = some (cs, t1) →
      t1 = t0 ++ (accepted os cs).map Op.made := by
    intro os
    induction os with
    | nil => intro cs t0 t1 hh; cases hh; simp [accepted]
    | cons o r ih =>
      intro cs t0 t1 hh
      rw [Table.runFrom] at hh
      cases ha : t0.answer o.made.1 with
      | none => rw [ha] at hh; cases hh
      | some c =>
        rw [ha] at hh
        simp only [] at hh
        obtain ⟨x, h1, h2⟩ := Option.map_eq_some_iff.mp hh
        cases h2
        have := ih _ _ _ h1
        rw [accepted]
        by_cases hc : c = 0
        · rw [if_pos hc] at this ⊢
          rw [this]; simp
        · rw [if_neg hc] at this ⊢
          exact this
  have htt := htab os cs [] t ht
  rw [List.nil_append] at htt
  have hmade : ∀ (l : List Op) (fl : List File), l.mapM asFile = some fl →
      (l.map Op.made).map Prod.fst = fl.map (fun f => stringtok f.path) ∧
      ∀ x ∈ l.map Op.made, x.2 ≠ What.dir := by
    intro l
    induction l with
    | nil => intro fl hh; cases hh; exact ⟨rfl, fun x hx => by cases hx⟩
    | cons o r ih =>
      intro fl hh
      rw [List.mapM_cons] at hh
      cases o with
      | dir p => cases hh
      | file p us =>
        cases hr : r.mapM asFile with
        | none => simp [asFile, hr] at hh
        | some l =>
          simp only [asFile, hr, Option.bind_eq_bind, Option.bind_some, Option.pure_def, Option.some.injEq] at hh
          subst hh
          obtain ⟨i1, i2⟩ := ih l hr
          refine ⟨by simp only [List.map_cons, Op.made, i1], ?_⟩
          intro x hx
          rcases List.mem_cons.mp hx with rfl | hx
          · simp [Op.made]
          · exact i2 x hx
  obtain ⟨h1, h2⟩ := hmade _ _ hf
  rw [← htt] at h1 h2
  -- a parent is a directory of the table or the root, so it is the root
  have hone : ∀ q ∈ t.map Prod.fst, ∃ n, q = [n] := by
    intro q hq
    obtain ⟨⟨q', w⟩, hx, rfl⟩ := List.mem_map.mp hq
    obtain ⟨j, hj⟩ := List.getElem?_of_mem hx
    obtain ⟨hne, _⟩ := I.here j q' w hj
    have hcl := I.closed q' w hx
    have hd : q'.dropLast = [] := by
      by_cases hd : q'.dropLast = []
      · exact hd
      · obtain ⟨i, hi⟩ := get_some hd hcl
        exact absurd rfl (h2 _ (List.mem_of_getElem? hi))
    refine ⟨q'.getLast hne, ?_⟩
    have := List.dropLast_concat_getLast hne
    rw [hd] at this
    exact this.symm
  have hall : ∀ l : List Path, (∀ q ∈ l, ∃ n, q = [n]) → ∃ ns : List Bytes, l = ns.map (fun n => [n]) := by
    intro l
    induction l with
    | nil => intro _; exact ⟨[], rfl⟩
    | cons a r ih =>
      intro hl
      obtain ⟨n, hn⟩ := hl a (by simp)
      obtain ⟨ns, hns⟩ := ih (fun q hq => hl q (by simp [hq]))
      exact ⟨n :: ns, by rw [hn, hns]; rfl⟩
  obtain ⟨ns, hns⟩ := hall _ hone
  refine ⟨ns, by rw [← h1, hns], ?_⟩
  have := I.nodup
  rw [hns] at this
  exact (List.pairwise_map.mp this).imp (fun hh he => hh (by rw [he]))

/-- C76: `GetNumDataFiles` is the number of files the program made. -/
theorem c76_files {os : List Op} {cs : List Int} {fs : Fs} (h : run os = some (cs, fs)) :
    ∃ t, Table.run os = some (cs, t) ∧ numDataFiles fs = (t.filter fun x => x.2 ≠ What.dir).length := by
  obtain ⟨t, ht, I⟩ := run_inv h
  refine ⟨t, ht, ?_⟩
  have hmap : (getAllNodes fs).map (fun e => e.typ == 2) = t.map (fun x => decide (x.2 ≠ What.dir)) := by
    apply List.ext_getElem?
    intro j
    rw [List.getElem?_map, List.getElem?_map]
    cases hj : t[j]? with
    | none =>
      have : (getAllNodes fs)[j]? = none := by
        rw [List.getElem?_eq_none_iff] at hj ⊢
        rw [I.length]; exact hj
      rw [this]; rfl
    | some x =>
      obtain ⟨q, w⟩ := x
      obtain ⟨m, _, h2, h3, _⟩ := I.entry hj
      rw [h2]
      cases w with
      | dir => simp [(h3.dir rfl).1]
      | file b => simp [(h3.file b rfl).1]
  rw [numDataFiles, ← List.countP_eq_length_filter, ← List.countP_eq_length_filter]
  have hc := congrArg (List.countP id) hmap
  rw [List.countP_map, List.countP_map] at hc
  exact hc

/-- C76, a defect: `GetNode` answers for paths that do not exist.  With the directories `a` and `a/a`, the
    path `x/a` finds `a/a`. -/
theorem c76_search_wrong :
    ∃ cs fs t e, run [.dir [0x61], .dir [0x61, 0x2F, 0x61]] = some (cs, fs) ∧
      Table.run [.dir [0x61], .dir [0x61, 0x2F, 0x61]] = some (cs, t) ∧
      t.get (stringtok [0x78, 0x2F, 0x61]) = none ∧ getNode fs [0x78, 0x2F, 0x61] = some e ∧ e.index = 2 := by
  refine ⟨_, _, _, _, rfl, rfl, ?_, rfl, rfl⟩
  decide

/-! ### A program that meets the hypotheses -/

/-- `a` and `f` in the root, `b` and `c` in `a`, `d` in `a/b`; then a name below the file, a name below
    nothing, and a file that exists already. -/
def sampleOps : List Op :=
  [.dir [0x61], .file [0x66] [[1, 2, 3]], .dir [0x61, 0x2F, 0x62], .file [0x61, 0x2F, 0x63] [[7]],
   .file [0x61, 0x2F, 0x62, 0x2F, 0x64] [], .dir [0x66, 0x2F, 0x67], .dir [0x68, 0x2F, 0x69], .file [0x66] []]

example : (run sampleOps).map Prod.fst = some [0, 0, 0, 0, 0, -3, -1, -2] := by decide
example : (Table.run sampleOps).map (fun x => (x.2.children [], x.2.children [[0x61]])) =
    some ([(1, [0x61]), (2, [0x66])], [(3, [0x62]), (4, [0x63])]) := by decide
-- making `a` again, which has something below it, is undefined
example : run (sampleOps ++ [.dir [0x61]]) = none := rfl
-- only streams: two accepted, one refused
example : ((run [.file [0x66] [[1]], .file [0x66] [[2]], .file [0x67] []]).bind fun x =>
    ((accepted [.file [0x66] [[1]], .file [0x66] [[2]], .file [0x67] []] x.1).mapM asFile).map List.length) = some 2 := by
  decide

end Xls.Dir
