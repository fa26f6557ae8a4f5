import Verif.Range.Spec
/-
The loops over a rectangle.
-/
namespace Xls.Range
open Xls.Cells (Key)
open Spec

theorem for32_list {σ : Type} (last : Nat) (body : Nat → σ → Option σ) (hlast : last < 2 ^ 32 - 1) (n i fuel : Nat)
    (hn : n = last + 1 - i) (hf : n < fuel) (s : σ) :
    for32 last body fuel i s = (List.range' i n).foldlM (fun s i => body i s) s := by
  induction n generalizing i fuel s with
  | zero =>
    obtain ⟨f, rfl⟩ : ∃ f, fuel = f + 1 := ⟨fuel - 1, by omega⟩
    rw [for32, if_neg (by omega)]
    rfl
  | succ n ih =>
    obtain ⟨f, rfl⟩ : ∃ f, fuel = f + 1 := ⟨fuel - 1, by omega⟩
    rw [for32, if_pos (by omega), List.range'_succ, List.foldlM_cons]
    show (body i s).bind _ = (body i s).bind _
    congr 1
    funext t
    rw [Nat.mod_eq_of_lt (by omega)]
    exact ih (i + 1) f (by omega) (by omega) t

/-- A loop up to the greatest 32-bit number never ends. -/
theorem for32_endless {σ : Type} (body : Nat → σ → Option σ) (fuel i : Nat) (hi : i < 2 ^ 32) (s : σ) :
    for32 (2 ^ 32 - 1) body fuel i s = none := by
  induction fuel generalizing i s with
  | zero => rfl
  | succ f ih =>
    rw [for32, if_pos (by omega)]
    cases h : body i s with
    | none => rfl
    | some t => exact ih _ (Nat.mod_lt _ (by decide)) t

/-- The cells of a rectangle, row by row. -/
def keys (r : Rect) : List Key :=
  (List.range' r.firstRow (r.lastRow + 1 - r.firstRow)).flatMap fun row =>
    (List.range' r.firstCol (r.lastCol + 1 - r.firstCol)).map fun col => (row, col)

theorem mem_keys (r : Rect) (k : Key) : k ∈ keys r ↔ Inside r k := by
  obtain ⟨a, b⟩ := k
  simp only [keys, List.mem_flatMap, List.mem_map, List.mem_range'_1, Inside, Prod.mk.injEq]
  constructor
  · rintro ⟨x, hx, y, hy, rfl, rfl⟩
    omega
  · intro h
    exact ⟨a, by omega, b, by omega, rfl, rfl⟩

theorem keys_nodup (r : Rect) : (keys r).Nodup := by
  unfold keys
  rw [List.nodup_iff_pairwise_ne, List.pairwise_flatMap]
  constructor
  · intro row _
    rw [List.pairwise_map]
    refine List.Pairwise.imp ?_ (List.nodup_range' (step := 1) (by decide))
    intro a b hab e
    exact hab (Prod.mk.inj e).2
  · refine List.Pairwise.imp ?_ (List.nodup_range' (step := 1) (by decide))
    intro a b hab x hx y hy e
    simp only [List.mem_map] at hx hy
    obtain ⟨_, _, rfl⟩ := hx
    obtain ⟨_, _, rfl⟩ := hy
    exact hab (Prod.mk.inj e).1

theorem foldlM_flatMap {σ α β : Type} (f : σ → β → Option σ) (g : α → List β) (xs : List α) (s : σ) :
    (xs.flatMap g).foldlM f s = xs.foldlM (fun s a => (g a).foldlM f s) s := by
  induction xs generalizing s with
  | nil => rfl
  | cons x r ih =>
    rw [List.flatMap_cons, List.foldlM_append, List.foldlM_cons]
    congr 1
    funext t
    exact ih t

theorem each_list {σ : Type} (r : Rect) (h1 : r.lastRow < 2 ^ 32 - 1) (h2 : r.lastCol < 2 ^ 32 - 1) (body : Nat → Nat → σ → Option σ) (s : σ) :
    each r body s = (keys r).foldlM (fun s k => body k.1 k.2 s) s := by
  unfold each keys
  rw [for32_list _ _ h1 (r.lastRow + 1 - r.firstRow) _ _ rfl (by omega), foldlM_flatMap]
  congr 1
  funext t row
  rw [for32_list _ _ h2 (r.lastCol + 1 - r.firstCol) _ _ rfl (by omega), List.foldlM_map]

end Xls.Range
