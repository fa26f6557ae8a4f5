import Verif.Tree.Lemmas
/-
The objects while a good program runs: what stands alone is a tree of its own, and what is gone was destroyed once.
-/
namespace Xls.Tree
open Xls.Biff Xls.Formula

theorem Within.trans {p : List Call} {a b c : Nat} (h : Within p a b) (h' : Within p b c) : Within p a c := by
  induction h' with
  | self => exact h
  | kid _ hk ih => exact .kid ih hk

/-- `R`: what stands alone; `E`: what was destroyed as a whole. -/
structure HI (p : List Call) (H : Heap) (R E : Nat → Prop) : Prop where
  len : H.objs.length = (made p).length
  obj : ∀ n o, H.live n = some o → now p n = some o.made
  trees : ∀ r, R r → ∃ l, Under H r l ∧ l.Nodup
  apart : ∀ r r' l l', R r → R r' → r ≠ r' → Under H r l → Under H r' l' → ∀ n ∈ l, n ∉ l'
  dead : ∀ n, n < (made p).length → (H.live n = none ↔ ∃ r, E r ∧ Within p r n)
  log : H.log.Nodup ∧ ∀ n, n ∈ H.log ↔ n < (made p).length ∧ H.live n = none

theorem HI.within {p : List Call} {H : Heap} {R E : Nat → Prop} (hi : HI p H R E) {r : Nat} {l : List Nat} (h : Under H r l) {n : Nat} :
    n ∈ l ↔ Within p r n := by
  constructor
  · obtain ⟨k, h⟩ := h
    revert r l
    induction k with
    | zero => intro r l h; simp [under] at h
    | succ k ih =>
      intro r l h hn
      obtain ⟨o, x, ho, hx, rfl⟩ := under_succ.1 h
      rcases List.mem_append.1 hn with hn | hn
      · obtain ⟨c, hc, y, hy, hny⟩ := all_mem hx hn
        exact Within.trans (.kid .self ⟨o.made, hi.obj r o ho, List.mem_reverse.1 hc⟩) (ih hy hny)
      · simp only [List.mem_singleton] at hn; subst hn; exact .self
  · intro w
    induction w with
    | self => exact h.self
    | @kid a b _ hk ih =>
      obtain ⟨o, ho⟩ := h.live ih
      obtain ⟨m, hm, hb⟩ := hk
      rw [hi.obj a o ho] at hm
      simp only [Option.some.injEq] at hm
      subst hm
      obtain ⟨k, h⟩ := h
      exact under_closed h ih ho hb

theorem HI.congr {p p' : List Call} {H : Heap} {R E R' E' : Nat → Prop} (hi : HI p H R E) (hm : (made p').length = (made p).length)
    (hn : ∀ n, now p' n = now p n) (hR : ∀ r, R' r → R r) (hE : ∀ r, E' r ↔ E r) : HI p' H R' E' where
  len := by rw [hm]; exact hi.len
  obj := fun n o h => by rw [hn]; exact hi.obj n o h
  trees := fun r h => hi.trees r (hR r h)
  apart := fun r r' l l' h h' => hi.apart r r' l l' (hR r h) (hR r' h')
  dead := fun n h => by
    rw [hm] at h
    rw [hi.dead n h]
    simp only [within_congr hn, hE]
  log := by rw [hm]; exact hi.log

/-- Destroying what stands alone. -/
theorem HI.destroy {p : List Call} {H : Heap} {R E : Nat → Prop} (hi : HI p H R E) {r : Nat} (hr : R r) {k : Nat}
    (hk : (made p).length ≤ k) :
    ∃ H', Tree.destroy k H r = some H' ∧ HI p H' (fun x => R x ∧ x ≠ r) (fun x => E x ∨ x = r) := by
  obtain ⟨l, hl, hn⟩ := hi.trees r hr
  have hu := hl.at hn (k := k) (by rw [hi.len]; exact hk)
  refine ⟨kill l H, (destroy_iff _ _ _).2 ⟨l, hu, hn, rfl⟩, ?_⟩
  refine ⟨by rw [kill_length]; exact hi.len, ?_, ?_, ?_, ?_, ?_⟩
  · intro n o h
    rw [kill_live] at h
    by_cases hm : n ∈ l
    · rw [if_pos hm] at h; simp at h
    · rw [if_neg hm] at h; exact hi.obj n o h
  · rintro x ⟨hx, hne⟩
    obtain ⟨y, ⟨j, hy⟩, hyn⟩ := hi.trees x hx
    exact ⟨y, ⟨j, under_kill.2 ⟨hy, fun m hm => hi.apart x r y l hx hr hne ⟨j, hy⟩ hl m hm⟩⟩, hyn⟩
  · rintro x x' y y' ⟨hx, _⟩ ⟨hx', _⟩ hne ⟨j, hy⟩ ⟨j', hy'⟩
    exact hi.apart x x' y y' hx hx' hne ⟨j, (under_kill.1 hy).1⟩ ⟨j', (under_kill.1 hy').1⟩
  · intro n hn'
    rw [kill_live]
    constructor
    · intro h
      by_cases hm : n ∈ l
      · exact ⟨r, .inr rfl, (hi.within hl).1 hm⟩
      · rw [if_neg hm] at h
        obtain ⟨x, hx, w⟩ := (hi.dead n hn').1 h
        exact ⟨x, .inl hx, w⟩
    · rintro ⟨x, hx | rfl, w⟩
      · rw [(hi.dead n hn').2 ⟨x, hx, w⟩]; simp
      · rw [if_pos ((hi.within hl).2 w)]
  · rw [kill_log]
    refine ⟨List.nodup_append.2 ⟨hi.log.1, hn, ?_⟩, fun n => ?_⟩
    · intro a ha b hb hab
      subst hab
      obtain ⟨o, ho⟩ := hl.live hb
      rw [((hi.log.2 a).1 ha).2] at ho
      simp at ho
    · rw [List.mem_append, hi.log.2, kill_live]
      constructor
      · rintro (⟨h1, h2⟩ | h)
        · exact ⟨h1, by rw [h2]; simp⟩
        · obtain ⟨o, ho⟩ := hl.live h
          exact ⟨by rw [← hi.len]; exact live_lt ho, by rw [if_pos h]⟩
      · rintro ⟨h1, h2⟩
        by_cases hm : n ∈ l
        · exact .inr hm
        · rw [if_neg hm] at h2; exact .inl ⟨h1, h2⟩

/-- The lists of things that stand alone, put together. -/
theorem all_apart {H : Heap} : ∀ {ks : List Nat}, ks.Nodup → (∀ k ∈ ks, ∃ l, Under H k l ∧ l.Nodup) →
    (∀ a ∈ ks, ∀ b ∈ ks, ∀ l l', a ≠ b → Under H a l → Under H b l' → ∀ n ∈ l, n ∉ l') →
    ∃ j l, all (under j H) ks = some l ∧ l.Nodup := by
  intro ks
  induction ks with
  | nil => intro _ _ _; exact ⟨0, [], rfl, by simp⟩
  | cons c r ih =>
    intro hn ht ha
    obtain ⟨hc, hn⟩ := List.nodup_cons.1 hn
    obtain ⟨x, ⟨i, hx⟩, hxn⟩ := ht c (by simp)
    obtain ⟨j, y, hy, hyn⟩ := ih hn (fun k hk => ht k (by simp [hk])) (fun a h b h' => ha a (by simp [h]) b (by simp [h']))
    refine ⟨max i j, x ++ y, all_cons.2 ⟨x, y, under_mono hx (by omega), all_mono hy (fun c _ z hz => under_mono hz (by omega)), rfl⟩,
      List.nodup_append.2 ⟨hxn, hyn, ?_⟩⟩
    intro a hax b hby hab
    subst hab
    obtain ⟨d, hd, z, hz, haz⟩ := all_mem hy hby
    exact ha c (by simp) d (by simp [hd]) x z (fun h => hc (h ▸ hd)) ⟨i, hx⟩ ⟨j, hz⟩ a hax haz

theorem construct_proper {m : Made} (hp : m.proper = true) (hk : m.kids.length < 65536) : ∃ room, construct m = some ⟨m, room⟩ := by
  cases m with
  | un op a =>
    simp only [Made.proper, decide_eq_true_eq] at hp
    exact ⟨0, by simp only [construct, if_pos hp]⟩
  | bin op a b =>
    simp only [Made.proper, decide_eq_true_eq] at hp
    exact ⟨0, by simp only [construct, if_pos hp]⟩
  | func b code cls args =>
    cases b with
    | true =>
      refine ⟨args.length % 65536, ?_⟩
      simp only [Made.kids] at hk
      simp only [construct]
      rw [Nat.mod_eq_of_lt hk, List.take_length]
    | false => exact ⟨0, rfl⟩
  | _ => exact ⟨0, rfl⟩

theorem construct_improper {m : Made} (hp : m.proper = false) : construct m = none := by
  cases m with
  | un op a =>
    simp only [Made.proper, decide_eq_false_iff_not] at hp
    simp only [construct, if_neg hp]
  | bin op a b =>
    simp only [Made.proper, decide_eq_false_iff_not] at hp
    simp only [construct, if_neg hp]
  | _ => simp [Made.proper] at hp

theorem append_live (H : Heap) (o : Obj) (n : Nat) :
    Heap.live { H with objs := H.objs ++ [some o] } n = if n = H.objs.length then some o else H.live n := by
  simp only [Heap.live]
  by_cases e : n = H.objs.length
  · subst e; simp
  · rw [if_neg e]
    rcases Nat.lt_or_ge n H.objs.length with hl | hl
    · rw [List.getElem?_append_left hl]
    · rw [List.getElem?_eq_none (by simp; omega), List.getElem?_eq_none hl]

/-- Making one more. -/
theorem HI.make {p : List Call} {H : Heap} {R E : Nat → Prop} (w : Wf p) (hi : HI p H R E) {m : Made} {room : Nat}
    (hp : m.proper = true) (hn : m.kids.Nodup) (hk : ∀ k ∈ m.kids, R k) (hR : ∀ r, R r → r < (made p).length)
    (hE : ∀ r, E r → r < (made p).length) :
    HI (p ++ [.make m]) { H with objs := H.objs ++ [some ⟨m, room⟩] } (fun r => (R r ∧ r ∉ m.kids) ∨ r = (made p).length) E := by
  have hl : ∀ n, n ≠ (made p).length → Heap.live { H with objs := H.objs ++ [some ⟨m, room⟩] } n = H.live n := by
    intro n hne; rw [append_live, hi.len, if_neg hne]
  have hN : Heap.live { H with objs := H.objs ++ [some ⟨m, room⟩] } (made p).length = some ⟨m, room⟩ := by
    rw [append_live, hi.len, if_pos rfl]
  have hlt : ∀ {r l n}, Under H r l → n ∈ l → n < (made p).length := by
    intro r l n h hn
    obtain ⟨o, ho⟩ := h.live hn
    rw [← hi.len]; exact live_lt ho
  have hup : ∀ {r l}, Under H r l → Under { H with objs := H.objs ++ [some ⟨m, room⟩] } r l := by
    intro r l h
    exact h.same (fun n hn => by rw [hl n (by have := hlt h hn; omega)])
  obtain ⟨j, lk, hlk, hlkn⟩ := all_apart (H := H) (ks := m.kids.reverse) ((List.reverse_perm _).nodup_iff.2 hn)
    (fun k h => hi.trees k (hk k (List.mem_reverse.1 h)))
    (fun a ha b hb l l' => hi.apart a b l l' (hk a (List.mem_reverse.1 ha)) (hk b (List.mem_reverse.1 hb)))
  have hlklt : ∀ n ∈ lk, n < (made p).length := by
    intro n hn
    obtain ⟨c, _, x, hx, hnx⟩ := all_mem hlk hn
    exact hlt ⟨j, hx⟩ hnx
  have hnew : Under { H with objs := H.objs ++ [some ⟨m, room⟩] } (made p).length (lk ++ [(made p).length]) := by
    refine ⟨j + 1, under_succ.2 ⟨_, lk, hN, all_mono hlk (fun c _ x hx => under_same hx (fun n hn => ?_)), rfl⟩⟩
    rw [hl n (by have := hlt ⟨j, hx⟩ hn; omega)]
  have hapN : ∀ r l, R r → r ∉ m.kids → Under H r l → ∀ n ∈ l, n ∉ lk ++ [(made p).length] := by
    intro r l hr hrk hu n hn hm
    rcases List.mem_append.1 hm with hm | hm
    · obtain ⟨c, hc, x, hx, hnx⟩ := all_mem hlk hm
      have hc := List.mem_reverse.1 hc
      exact hi.apart r c l x hr (hk c hc) (fun e => hrk (e ▸ hc)) hu ⟨j, hx⟩ n hn hnx
    · simp only [List.mem_singleton] at hm
      have := hlt hu hn
      omega
  have hback : ∀ {r l}, R r → Under { H with objs := H.objs ++ [some ⟨m, room⟩] } r l → Under H r l := by
    intro r l hr hu
    obtain ⟨l', hl', _⟩ := hi.trees r hr
    rw [hu.unique (hup hl')]
    exact hl'
  refine ⟨by simp [made_make hp, hi.len], ?_, ?_, ?_, ?_, ?_⟩
  · intro n o h
    rw [now_make hp w.pushed]
    by_cases e : n = (made p).length
    · subst e
      rw [hN] at h
      simp only [Option.some.injEq] at h
      subst h
      rw [if_pos rfl]
    · rw [if_neg e]
      rw [hl n e] at h
      exact hi.obj n o h
  · rintro r (⟨hr, _⟩ | rfl)
    · obtain ⟨l, h1, h2⟩ := hi.trees r hr
      exact ⟨l, hup h1, h2⟩
    · refine ⟨_, hnew, List.nodup_append.2 ⟨hlkn, by simp, ?_⟩⟩
      intro a ha b hb hab
      simp only [List.mem_singleton] at hb
      have := hlklt a ha
      omega
  · rintro r r' l l' (⟨hr, hrk⟩ | rfl) (⟨hr', hrk'⟩ | rfl) hne hu hu'
    · exact hi.apart r r' l l' hr hr' hne (hback hr hu) (hback hr' hu')
    · rw [hu'.unique hnew]
      exact hapN r l hr hrk (hback hr hu)
    · rw [hu.unique hnew]
      intro n hn hn'
      exact hapN r' l' hr' hrk' (hback hr' hu') n hn' hn
    · exact absurd rfl hne
  · intro n hn'
    have hkid : ∀ a b, Kid (p ++ [.make m]) a b → b < (made p).length := by
      rintro a b ⟨m', hm', hb⟩
      rw [now_make hp w.pushed] at hm'
      by_cases e : a = (made p).length
      · rw [if_pos e] at hm'
        simp only [Option.some.injEq] at hm'
        subst hm'
        exact hR b (hk b hb)
      · rw [if_neg e] at hm'
        exact w.kidlt a b ⟨m', hm', hb⟩
    have hw : ∀ r, E r → ∀ x, Within (p ++ [.make m]) r x → x < (made p).length ∧ Within p r x := by
      intro r hr x wx
      induction wx with
      | self => exact ⟨hE r hr, .self⟩
      | @kid a b _ hk' ih =>
        refine ⟨hkid a b hk', .kid ih.2 ?_⟩
        obtain ⟨m', hm', hb⟩ := hk'
        rw [now_make hp w.pushed, if_neg (by omega)] at hm'
        exact ⟨m', hm', hb⟩
    by_cases e : n = (made p).length
    · subst e
      rw [hN]
      constructor
      · intro h; simp at h
      · rintro ⟨r, hr, wr⟩
        have := (hw r hr _ wr).1
        omega
    · rw [hl n e]
      rw [made_make hp, List.length_append] at hn'
      simp only [List.length_singleton] at hn'
      rw [hi.dead n (by omega)]
      constructor
      · rintro ⟨r, hr, wr⟩
        refine ⟨r, hr, wr.mono ?_⟩
        rintro a b ⟨m', hm', hb⟩
        refine ⟨m', ?_, hb⟩
        rw [now_make hp w.pushed, if_neg (by have := now_lt hm'; omega)]
        exact hm'
      · rintro ⟨r, hr, wr⟩
        exact ⟨r, hr, (hw r hr _ wr).2⟩
  · refine ⟨hi.log.1, fun n => ?_⟩
    show n ∈ H.log ↔ _
    rw [hi.log.2]
    rw [made_make hp, List.length_append]
    simp only [List.length_singleton]
    by_cases e : n = (made p).length
    · subst e
      rw [hN]
      simp
    · rw [hl n e]
      constructor
      · rintro ⟨h1, h2⟩; exact ⟨by omega, h2⟩
      · rintro ⟨h1, h2⟩; exact ⟨by omega, h2⟩

theorem grow_some {count room : Nat} (h : count < 65534) : ∃ r, grow count room = some r := by
  unfold grow
  by_cases h1 : count < room
  · exact ⟨room, if_pos h1⟩
  · rw [if_neg h1]
    refine ⟨_, if_pos ?_⟩
    omega

/-- Pushing an argument. -/
theorem HI.push {p : List Call} {H : Heap} {R E : Nat → Prop} (hi : HI p H R E) {h q : Nat} {code cls : Nat} {args : List Nat}
    (hh : now p h = some (.func true code cls args)) (hlen : args.length < 65534) (he : ∀ r, Within p r h → ¬ E r) (hq : R q) :
    ∃ H', Tree.push H h q = some H' ∧ HI (p ++ [.push h q]) H' (fun r => R r ∧ r ≠ q) E := by
  have hlt : h < (made p).length := now_lt hh
  obtain ⟨o, ho⟩ : ∃ o, H.live h = some o := by
    cases hl : H.live h with
    | some o => exact ⟨o, rfl⟩
    | none =>
      obtain ⟨r, hr, w⟩ := (hi.dead h hlt).1 hl
      exact absurd hr (he r w)
  have hom : o.made = .func true code cls args := by
    have := hi.obj h o ho
    rw [hh] at this
    exact (Option.some.inj this).symm
  obtain ⟨room, hg⟩ := grow_some (room := o.room) hlen
  refine ⟨{ H with objs := H.objs.set h (some ⟨.func true code cls (args ++ [q]), room⟩) }, ?_, ?_⟩
  · simp only [Tree.push, ho, Option.bind_some, hom, hg, Option.map_some]
  generalize hH' : ({ H with objs := H.objs.set h (some ⟨.func true code cls (args ++ [q]), room⟩) } : Heap) = H'
  have hlog : H'.log = H.log := by subst hH'; rfl
  have hl1 : H'.live h = some ⟨.func true code cls (args ++ [q]), room⟩ := by
    subst hH'; rw [set_live, if_pos ⟨rfl, by rw [hi.len]; exact hlt⟩]
  have hl2 : ∀ n, n ≠ h → H'.live n = H.live n := by
    intro n hne; subst hH'; rw [set_live, if_neg (fun e => hne e.1.symm)]
  have hnone : ∀ n, H'.live n = none ↔ H.live n = none := by
    intro n
    by_cases e : n = h
    · subst e; rw [hl1, ho]; simp
    · rw [hl2 n e]
  have hmade : made (p ++ [.push h q]) = made p := made_same (by simp)
  obtain ⟨lq, ⟨kq, hlq⟩, hlqn⟩ := hi.trees q hq
  have hout : ∀ {r l}, Under H r l → h ∉ l → Under H' r l := by
    intro r l hu hn
    exact hu.same (fun n hm => by rw [hl2 n (fun e => hn (e ▸ hm))])
  have key : ∀ r l, R r → r ≠ q → Under H r l → l.Nodup →
      ∃ l', Under H' r l' ∧ ((h ∉ l ∧ l' = l) ∨ (h ∈ l ∧ l'.Perm (l ++ lq))) := by
    intro r l hr hne hu hn
    by_cases hm : h ∈ l
    · obtain ⟨k, hu⟩ := hu
      have hhq : h ∉ lq := hi.apart r q l lq hr hq hne ⟨k, hu⟩ ⟨kq, hlq⟩ h hm
      obtain ⟨l', hl', hp⟩ := under_insert ho hl1 (by simp [Made.kids, hom]) hl2 hlq hhq hu hn hm
      exact ⟨l', ⟨_, hl'⟩, .inr ⟨hm, hp⟩⟩
    · exact ⟨l, hout hu hm, .inl ⟨hm, rfl⟩⟩
  refine ⟨?_, ?_, ?_, ?_, ?_, ?_⟩
  · subst hH'; simp [hmade, hi.len]
  · intro n o' h'
    rw [now_push]
    by_cases e : h = n
    · subst e
      rw [hl1] at h'
      simp only [Option.some.injEq] at h'
      subst h'
      rw [if_pos rfl, hh]
      simp [Made.more]
    · rw [if_neg e]
      rw [hl2 n (Ne.symm e)] at h'
      exact hi.obj n o' h'
  · rintro r ⟨hr, hne⟩
    obtain ⟨l, hu, hn⟩ := hi.trees r hr
    obtain ⟨l', hu', ⟨_, rfl⟩ | ⟨hm, hp⟩⟩ := key r l hr hne hu hn
    · exact ⟨l', hu', hn⟩
    · refine ⟨l', hu', hp.nodup_iff.2 (List.nodup_append.2 ⟨hn, hlqn, ?_⟩)⟩
      intro a ha b hb hab
      subst hab
      exact hi.apart r q l lq hr hq hne hu ⟨kq, hlq⟩ a ha hb
  · rintro r r' x x' ⟨hr, hrq⟩ ⟨hr', hrq'⟩ hne hx hx' n hn hn'
    obtain ⟨l, hu, hnd⟩ := hi.trees r hr
    obtain ⟨l', hu', hnd'⟩ := hi.trees r' hr'
    have hap := hi.apart r r' l l' hr hr' hne hu hu'
    obtain ⟨y, hy, hc⟩ := key r l hr hrq hu hnd
    obtain ⟨y', hy', hc'⟩ := key r' l' hr' hrq' hu' hnd'
    rw [hx.unique hy] at hn
    rw [hx'.unique hy'] at hn'
    have hmem : n ∈ l ∨ (h ∈ l ∧ n ∈ lq) := by
      rcases hc with ⟨_, rfl⟩ | ⟨hm, hp⟩
      · exact .inl hn
      · rcases List.mem_append.1 (hp.mem_iff.1 hn) with h' | h'
        · exact .inl h'
        · exact .inr ⟨hm, h'⟩
    have hmem' : n ∈ l' ∨ (h ∈ l' ∧ n ∈ lq) := by
      rcases hc' with ⟨_, rfl⟩ | ⟨hm, hp⟩
      · exact .inl hn'
      · rcases List.mem_append.1 (hp.mem_iff.1 hn') with h' | h'
        · exact .inl h'
        · exact .inr ⟨hm, h'⟩
    rcases hmem with h1 | ⟨h1, h2⟩ <;> rcases hmem' with h3 | ⟨h3, h4⟩
    · exact hap n h1 h3
    · exact hi.apart r q l lq hr hq hrq hu ⟨kq, hlq⟩ n h1 h4
    · exact hi.apart r' q l' lq hr' hq hrq' hu' ⟨kq, hlq⟩ n h3 h2
    · exact hap h h1 h3
  · intro n hn
    rw [hmade] at hn
    rw [hnone, hi.dead n hn]
    constructor
    · rintro ⟨r, hr, w⟩
      refine ⟨r, hr, w.mono ?_⟩
      rintro a b ⟨m, hm, hb⟩
      rw [Kid, now_push]
      by_cases e : h = a
      · rw [if_pos e, hm]
        exact ⟨_, rfl, kids_more hb⟩
      · rw [if_neg e]
        exact ⟨m, hm, hb⟩
    · rintro ⟨r, hr, w⟩
      refine ⟨r, hr, ?_⟩
      clear hn
      induction w with
      | self => exact .self
      | @kid a b _ hk ih =>
        refine .kid ih ?_
        obtain ⟨m, hm, hb⟩ := hk
        rw [now_push] at hm
        by_cases e : h = a
        · subst e
          exact absurd hr (he r ih)
        · rw [if_neg e] at hm
          exact ⟨m, hm, hb⟩
  · rw [hlog]
    refine ⟨hi.log.1, fun n => ?_⟩
    rw [hmade, hnone]
    exact hi.log.2 n

/-- Destroying several that stand alone. -/
theorem HI.destroys {p : List Call} {k : Nat} (hk : (made p).length ≤ k) : ∀ (rs : List Nat) {H : Heap} {R E : Nat → Prop}, HI p H R E →
    rs.Nodup → (∀ r ∈ rs, R r) →
    ∃ H', rs.foldlM (Tree.destroy k) H = some H' ∧ HI p H' (fun x => R x ∧ x ∉ rs) (fun x => E x ∨ x ∈ rs) := by
  intro rs
  induction rs with
  | nil => intro H R E hi _ _; exact ⟨H, rfl, hi.congr rfl (fun _ => rfl) (fun r h => h.1) (fun r => by simp)⟩
  | cons r rs ih =>
    intro H R E hi hn hr
    obtain ⟨hrr, hn⟩ := List.nodup_cons.1 hn
    obtain ⟨H1, h1, hi1⟩ := hi.destroy (hr r (by simp)) hk
    obtain ⟨H2, h2, hi2⟩ := ih hi1 hn (fun x hx => ⟨hr x (by simp [hx]), fun e => hrr (e ▸ hx)⟩)
    refine ⟨H2, ?_, hi2.congr rfl (fun _ => rfl) ?_ ?_⟩
    · simp only [List.foldlM_cons, Option.bind_eq_bind, h1, Option.bind_some]
      exact h2
    · rintro x ⟨hx, hm⟩
      simp only [List.mem_cons, not_or] at hm
      exact ⟨⟨hx, hm.1⟩, hm.2⟩
    · intro x
      simp only [List.mem_cons]
      constructor
      · rintro (h | h | h)
        · exact .inl (.inl h)
        · exact .inl (.inr h)
        · exact .inr h
      · rintro ((h | h) | h)
        · exact .inl h
        · exact .inr (.inl h)
        · exact .inr (.inr h)

end Xls.Tree
