import Verif.Model.Tensor
import Verif.Lemmas.Grid
import Mathlib.Algebra.BigOperators.Group.List.Lemmas
import Mathlib.Data.List.Perm.Basic
import Mathlib.Data.List.Perm.Lattice
import Mathlib.Algebra.Ring.Defs

/-! Facts about tensor operations. -/

namespace Verif.Grid

variable {V : Type}

theorem grid_append (s r : List Nat) : grid (s ++ r) = (grid s).flatMap fun j => (grid r).map (j ++ ·) := by
  induction s with
  | nil => simp [grid]
  | cons n ns ih =>
    simp only [List.cons_append, grid, ih, List.flatMap_assoc, List.map_flatMap, List.flatMap_map, List.map_map]
    rfl

theorem mem_grid_append {s r j q : List Nat} (h : j.length = s.length) :
    j ++ q ∈ grid (s ++ r) ↔ j ∈ grid s ∧ q ∈ grid r := by
  induction s generalizing j with
  | nil => cases j <;> simp_all [grid]
  | cons n s ih =>
    cases j with
    | nil => simp at h
    | cons a j =>
      simp only [List.cons_append, mem_grid, List.forall₂_cons]
      have := ih (j := j) (by simpa using h)
      simp only [mem_grid] at this
      rw [this, and_assoc]

theorem split_grid_append {s r i : List Nat} (h : i ∈ grid (s ++ r)) : ∃ j q, i = j ++ q ∧ j ∈ grid s ∧ q ∈ grid r := by
  rw [grid_append] at h
  obtain ⟨j, hj, h⟩ := List.mem_flatMap.1 h
  obtain ⟨q, hq, rfl⟩ := List.mem_map.1 h
  exact ⟨j, q, rfl, hj, hq⟩

theorem filter_eq_of_nodup {α : Type*} [DecidableEq α] {l : List α} (h : l.Nodup) {a : α} (ha : a ∈ l) :
    l.filter (fun x => decide (x = a)) = [a] := by
  induction l with
  | nil => simp at ha
  | cons b l ih =>
    rw [List.nodup_cons] at h
    rcases List.mem_cons.1 ha with rfl | ha
    · rw [List.filter_cons_of_pos (by simp), List.filter_eq_nil_iff.2 (fun x hx => by
        simpa using fun hxa : x = a => h.1 (hxa ▸ hx))]
    · rw [List.filter_cons_of_neg (by simpa using fun hba : b = a => h.1 (hba ▸ ha)), ih h.2 ha]

/-- a sum over a grid with the last coordinates fixed -/
theorem sum_filter_append [AddMonoid V] (s r : List Nat) (P : List Nat → Bool) (q : List Nat) (hq : q ∈ grid r)
    (C : List Nat → Bool) (hC : ∀ j ∈ grid s, ∀ q' ∈ grid r, C (j ++ q') = (P j && decide (q' = q))) (f : List Nat → V) :
    (((grid (s ++ r)).filter C).map f).sum = (((grid s).filter P).map fun j => f (j ++ q)).sum := by
  rw [grid_append]
  generalize grid s = l at hC
  induction l with
  | nil => rfl
  | cons j l ih =>
    have ih := ih fun j' hj' => hC j' (List.mem_cons_of_mem _ hj')
    have h1 : ((grid r).map (j ++ ·)).filter C = if P j then [j ++ q] else [] := by
      rw [List.filter_map]
      have : (grid r).filter (C ∘ (j ++ ·)) = (grid r).filter fun q' => P j && decide (q' = q) :=
        List.filter_congr fun q' hq' => hC j (by simp) q' hq'
      rw [this]
      by_cases hp : P j
      · simp only [hp, Bool.true_and, if_true]
        rw [filter_eq_of_nodup (nodup_grid r) hq]; rfl
      · simp [hp]
    rw [List.flatMap_cons, List.filter_append, List.map_append, List.sum_append, ih, h1, List.filter_cons]
    by_cases hp : P j <;> simp [hp]

theorem dropAxes_eq {α : Type} (axes : List Nat) (l : List α) (d : α) :
    dropAxes axes l = ((List.range l.length).filter fun k => !axes.contains k).map fun k => l.getD k d := by
  unfold dropAxes
  rw [List.zipIdx_eq_zip_range']
  have h : ∀ (l : List α) (m : Nat) (g : Nat → α), (∀ k, k < l.length → l[k]? = some (g (m + k))) →
      ((l.zip (List.range' m l.length)).filter fun p => !axes.contains p.2).map (·.1) =
        ((List.range' m l.length).filter fun k => !axes.contains k).map g := by
    intro l
    induction l with
    | nil => intro m g _; rfl
    | cons a l ih =>
      intro m g hg
      have := ih (m + 1) g fun k hk => by
        have := hg (k + 1) (by simpa using hk)
        rw [show m + 1 + k = m + (k + 1) by omega]; simpa using this
      have h0 : a = g m := by simpa using hg 0 (by simp)
      simp only [List.length_cons, List.range'_succ, List.zip_cons_cons, List.filter_cons]
      by_cases hm : axes.contains m
      · simp only [hm]; simpa using this
      · simp only [hm, Bool.not_false, if_true, List.map_cons, h0]
        rw [this]
  rw [h l 0 (fun k => l.getD k d) (fun k hk => by
    rw [List.getElem?_eq_getElem hk, List.getD_eq_getElem?_getD, Nat.zero_add, List.getElem?_eq_getElem hk]; rfl),
    List.range_eq_range']

theorem map_getD_range {α : Type*} (l : List α) (d : α) : (List.range l.length).map (fun k => l.getD k d) = l := by
  apply List.ext_getElem
  · simp
  · intro k h1 h2
    rw [List.getElem_map, List.getElem_range, List.getD_eq_getElem?_getD, List.getElem?_eq_getElem h2]; rfl

theorem dropAxes_append {α : Type} (axes : List Nat) (l q : List α) (h : ∀ k ∈ axes, k < l.length) :
    dropAxes axes (l ++ q) = dropAxes axes l ++ q := by
  rcases l with _ | ⟨a, l⟩
  · have : axes = [] := List.eq_nil_iff_forall_not_mem.2 fun k hk => by simpa using h k hk
    subst this
    unfold dropAxes
    rw [List.filter_eq_self.2 (by simp), List.nil_append, List.zipIdx_map_fst]; rfl
  · generalize hL : a :: l = L at h ⊢
    rw [dropAxes_eq axes (L ++ q) a, dropAxes_eq axes L a, List.length_append, List.range_add, List.filter_append,
      List.map_append]
    congr 1
    · apply List.map_congr_left
      intro k hk
      have hk : k < L.length := by simpa using (List.mem_filter.1 hk).1
      rw [List.getD_eq_getElem?_getD, List.getD_eq_getElem?_getD, List.getElem?_append_left hk]
    · rw [List.filter_eq_self.2 (by
        intro k hk
        obtain ⟨m, _, rfl⟩ := List.mem_map.1 hk
        simp only [List.contains_eq_mem, Bool.not_eq_true', decide_eq_false_iff_not]
        intro hm
        have := h _ hm
        omega), List.map_map]
      refine (List.map_congr_left fun m _ => ?_).trans (map_getD_range q a)
      show (L ++ q).getD (L.length + m) a = _
      rw [List.getD_eq_getElem?_getD, List.getD_eq_getElem?_getD, List.getElem?_append_right (by omega)]
      congr 2; omega

theorem dropAxes_nil {α : Type} (l : List α) : dropAxes [] l = l := by
  have := dropAxes_append [] [] l (by simp)
  simpa only [dropAxes, List.zipIdx_nil, List.filter_nil, List.map_nil, List.nil_append] using this

/-- the channel part of a one-axis tensor, reshaped -/
theorem rows_reshape1 [AddMonoid V] (obs : Tensor V) (n start : Nat) (s : List Nat) (ho : obs.shape = [n])
    (hn : start + s.prod ≤ n) :
    ∃ t, (obs.rows start (start + s.prod)).reshape s = .ok t ∧ t.shape = s ∧
      ∀ j ∈ grid s, t.val j = obs.val [start + ravel s j] := by
  have hs : (obs.rows start (start + s.prod)).shape = [s.prod] := by
    simp only [Tensor.rows, ho]
    rw [Nat.min_eq_left hn, Nat.add_sub_cancel_left]
  have hl : (obs.rows start (start + s.prod)).flat.length = s.prod := by rw [flat_length, hs]; simp
  refine ⟨_, if_pos hl, rfl, ?_⟩
  intro j hj
  show (obs.rows start (start + s.prod)).flat.getD (ravel s j) 0 = _
  have hm : [ravel s j] ∈ grid (obs.rows start (start + s.prod)).shape := by
    rw [hs, mem_grid]; exact .cons (ravel_lt hj) .nil
  have := flat_getElem? _ hm
  rw [hs] at this
  simp only [ravel, List.prod_nil, mul_one, add_zero] at this
  rw [List.getD_eq_getElem?_getD, this]; rfl

theorem ravel_append_one (s j : List Nat) (np q : Nat) (h : j.length = s.length) :
    ravel (s ++ [np]) (j ++ [q]) = ravel s j * np + q := by
  induction s generalizing j with
  | nil =>
    have : j = [] := by simpa using h
    subst this; simp [ravel]
  | cons a s ih =>
    rcases j with _ | ⟨b, j⟩
    · simp at h
    · simp only [List.cons_append, ravel]
      rw [ih j (by simpa using h), List.prod_append, List.prod_singleton]; ring

/-- the channel part of a two-axis tensor, reshaped -/
theorem reshape2 [AddMonoid V] (v : Tensor V) (np : Nat) (s : List Nat) (hv : v.shape = [s.prod, np]) :
    ∃ t, v.reshape (s ++ [np]) = .ok t ∧ t.shape = s ++ [np] ∧
      ∀ j ∈ grid s, ∀ q < np, t.val (j ++ [q]) = v.val [ravel s j, q] := by
  have hl : v.flat.length = (s ++ [np]).prod := by rw [flat_length, hv]; simp
  refine ⟨_, if_pos hl, rfl, ?_⟩
  intro j hj q hq
  show v.flat.getD (ravel (s ++ [np]) (j ++ [q])) 0 = _
  have hm : [ravel s j, q] ∈ grid v.shape := by
    rw [hv, mem_grid]; exact .cons (ravel_lt hj) (.cons hq .nil)
  have := flat_getElem? _ hm
  rw [hv] at this
  rw [ravel_append_one s j np q (length_of_mem_grid hj)]
  simp only [ravel, List.prod_nil, mul_one, add_zero, List.prod_singleton] at this
  rw [List.getD_eq_getElem?_getD, this]; rfl

theorem dropAxes_last {α : Type} (l : List α) (q : α) : dropAxes [l.length] (l ++ [q]) = l := by
  rw [dropAxes_eq [l.length] (l ++ [q]) q, List.length_append, List.length_singleton, List.range_succ, List.filter_append,
    List.filter_eq_self.2 (by
      intro k hk
      have : k < l.length := by simpa using hk
      simp only [List.contains_eq_mem, List.mem_singleton, Bool.not_eq_true', decide_eq_false_iff_not]; omega),
    List.filter_eq_nil_iff.2 (by simp), List.append_nil]
  refine (List.map_congr_left fun k hk => ?_).trans (map_getD_range l q)
  have : k < l.length := by simpa using hk
  rw [List.getD_eq_getElem?_getD, List.getD_eq_getElem?_getD, List.getElem?_append_left this]

theorem grid_one (n : Nat) : grid [n] = (List.range n).map fun q => [q] := by
  simp only [grid, List.map_cons, List.map_nil]
  induction List.range n with
  | nil => rfl
  | cons a l ih => rw [List.flatMap_cons, ih]; rfl

/-- summing the last axis -/
theorem reduce_last [AddMonoid V] (t : Tensor V) (s : List Nat) (n : Nat) (h : t.shape = s ++ [n]) :
    (t.reduceSum [t.shape.length - 1]).shape = s ∧
      ∀ j ∈ grid s, (t.reduceSum [t.shape.length - 1]).val j = ((List.range n).map fun q => t.val (j ++ [q])).sum := by
  have hl : t.shape.length - 1 = s.length := by rw [h]; simp
  constructor
  · show dropAxes [t.shape.length - 1] t.shape = s
    rw [hl, h, dropAxes_last]
  · intro j hj
    show (((grid t.shape).filter fun j' => dropAxes [t.shape.length - 1] j' == j).map t.val).sum = _
    rw [hl, h, grid_append]
    have hg := grid_one n
    have hn := nodup_grid s
    have hlen : ∀ j' ∈ grid s, j'.length = s.length := fun j' => length_of_mem_grid
    generalize grid s = l at hj hn hlen
    induction l with
    | nil => simp at hj
    | cons a l ih =>
      rw [List.nodup_cons] at hn
      have ha := hlen a (by simp)
      rw [List.flatMap_cons, List.filter_append, List.map_append, List.sum_append]
      have hA : ((grid [n]).map (a ++ ·)).filter (fun j' => dropAxes [s.length] j' == j) =
          if a = j then (grid [n]).map (a ++ ·) else [] := by
        split
        · rename_i haj
          refine List.filter_eq_self.2 fun x hx => ?_
          rw [hg] at hx
          obtain ⟨y, hy, rfl⟩ := List.mem_map.1 hx
          obtain ⟨q, _, rfl⟩ := List.mem_map.1 hy
          rw [← ha, dropAxes_last, haj]; simp
        · rename_i haj
          refine List.filter_eq_nil_iff.2 fun x hx => ?_
          rw [hg] at hx
          obtain ⟨y, hy, rfl⟩ := List.mem_map.1 hx
          obtain ⟨q, _, rfl⟩ := List.mem_map.1 hy
          rw [← ha, dropAxes_last]; simpa using haj
      rw [hA]
      have hlen' : ∀ j' ∈ l, j'.length = s.length := fun j' hj' => hlen j' (List.mem_cons_of_mem _ hj')
      rcases List.mem_cons.1 hj with rfl | hj
      · rw [if_pos rfl]
        have : ((l.flatMap fun j' => (grid [n]).map (j' ++ ·)).filter fun j' => dropAxes [s.length] j' == j) = [] := by
          refine List.filter_eq_nil_iff.2 fun x hx => ?_
          obtain ⟨b, hb, hx⟩ := List.mem_flatMap.1 hx
          rw [hg] at hx
          obtain ⟨y, hy, rfl⟩ := List.mem_map.1 hx
          obtain ⟨q, _, rfl⟩ := List.mem_map.1 hy
          rw [← hlen' b hb, dropAxes_last]
          intro hbj
          have : b = j := by simpa using hbj
          exact hn.1 (this ▸ hb)
        rw [this, List.map_nil, List.sum_nil, add_zero, hg, List.map_map, List.map_map]; rfl
      · rw [if_neg (fun hEq : a = j => hn.1 (hEq ▸ hj)), List.map_nil, List.sum_nil, zero_add]
        exact ih hj hn.2 hlen'

end Verif.Grid
