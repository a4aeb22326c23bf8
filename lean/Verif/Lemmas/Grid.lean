import Verif.Model.Grid
import Mathlib.Tactic.Common
import Mathlib.Data.List.Nodup
import Mathlib.Data.List.Forall2
import Mathlib.Data.List.Range
import Mathlib.Tactic.Ring

/-! Elementary facts about row-major multi-indices. -/

namespace Verif.Grid

theorem mem_grid {s i : List Nat} : i ∈ grid s ↔ List.Forall₂ (· < ·) i s := by
  induction s generalizing i with
  | nil => simp [grid]
  | cons n ns ih =>
    simp only [grid, List.mem_flatMap, List.mem_range, List.mem_map]
    constructor
    · rintro ⟨a, ha, b, hb, rfl⟩; exact .cons ha (ih.1 hb)
    · rintro (_ | ⟨h, t⟩); exact ⟨_, h, _, ih.2 t, rfl⟩

theorem length_of_mem_grid {s i : List Nat} (h : i ∈ grid s) : i.length = s.length := (mem_grid.1 h).length_eq

theorem length_grid (s : List Nat) : (grid s).length = s.prod := by
  induction s with
  | nil => rfl
  | cons n ns ih => simp [grid, List.length_flatMap, ih]

theorem range_mul (n m : Nat) :
    List.range (n * m) = (List.range n).flatMap fun i => (List.range m).map fun j => i * m + j := by
  induction n with
  | zero => simp
  | succ n ih =>
    rw [Nat.succ_mul, List.range_add, ih, List.range_succ, List.flatMap_append]; simp

/-- the grid enumerates the array positions in order -/
theorem map_ravel_grid (s : List Nat) : (grid s).map (ravel s) = List.range s.prod := by
  induction s with
  | nil => rfl
  | cons n ns ih =>
    rw [List.prod_cons, range_mul, grid, List.map_flatMap]
    congr 1; funext i
    rw [List.map_map, ← ih, List.map_map]; rfl

theorem nodup_grid (s : List Nat) : (grid s).Nodup := by
  have h := map_ravel_grid s
  exact List.Nodup.of_map (ravel s) (h ▸ List.nodup_range)

theorem ravel_lt {s i : List Nat} (h : i ∈ grid s) : ravel s i < s.prod := by
  have : ravel s i ∈ (grid s).map (ravel s) := List.mem_map_of_mem h
  rw [map_ravel_grid] at this; simpa using this

theorem ravel_inj {s i j : List Nat} (hi : i ∈ grid s) (hj : j ∈ grid s) (h : ravel s i = ravel s j) : i = j := by
  have hn : ((grid s).map (ravel s)).Nodup := map_ravel_grid s ▸ List.nodup_range
  exact List.inj_on_of_nodup_map hn hi hj h

theorem grid_getElem_ravel {s i : List Nat} (hi : i ∈ grid s) :
    (grid s)[ravel s i]'(by rw [length_grid]; exact ravel_lt hi) = i := by
  obtain ⟨k, hk, hik⟩ := List.getElem_of_mem hi
  have h := map_ravel_grid s
  have hk' : k < s.prod := by rw [← length_grid]; exact hk
  have : ravel s i = k := by
    have h1 : ((grid s).map (ravel s))[k]'(by simpa using hk) = k := by simp only [h]; simp
    rw [List.getElem_map, hik] at h1; exact h1
  subst hik
  congr 1

theorem ravel_grid_getElem {s : List Nat} {k : Nat} (hk : k < (grid s).length) : ravel s (grid s)[k] = k := by
  have h := map_ravel_grid s
  have h1 : ((grid s).map (ravel s))[k]'(by simpa using hk) = k := by simp only [h]; simp
  rwa [List.getElem_map] at h1

/-- reading a flat tensor: the value of a multi-index sits at its row-major position -/
theorem flat_getElem? {V : Type*} (t : Tensor V) {i : List Nat} (hi : i ∈ grid t.shape) :
    t.flat[ravel t.shape i]? = some (t.val i) := by
  unfold Tensor.flat
  rw [List.getElem?_map, List.getElem?_eq_getElem (by rw [length_grid]; exact ravel_lt hi), grid_getElem_ravel hi]
  rfl

theorem flat_length {V : Type*} (t : Tensor V) : t.flat.length = t.shape.prod := by
  simp [Tensor.flat, length_grid]

/-- reshaping a flat tensor and flattening it again changes nothing -/
theorem flat_ofFlat {V : Type*} [Zero V] {s : List Nat} {l : List V} {t : Tensor V} (h : ofFlat s l = .ok t) :
    t.shape = s ∧ t.flat = l := by
  unfold ofFlat at h
  split at h
  · rename_i hl
    cases h
    refine ⟨rfl, ?_⟩
    show (grid s).map (fun i => l.getD (ravel s i) 0) = l
    apply List.ext_getElem
    · rw [List.length_map, length_grid, hl]
    · intro k h1 h2
      have hk : k < (grid s).length := by simpa using h1
      rw [List.getElem_map, ravel_grid_getElem hk, List.getD_eq_getElem?_getD, List.getElem?_eq_getElem h2]; rfl
  · exact nomatch h

end Verif.Grid
