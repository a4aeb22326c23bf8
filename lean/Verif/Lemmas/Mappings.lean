import Verif.Model.Mappings
import Verif.Lemmas.Tensor
import Verif.Lemmas.Py

/-! Facts about the terms of the mappings. -/

namespace Verif.Mappings

open Verif.ABCD Verif.Grid

variable {V : Type}

namespace Spec

/-- Observables: a vector over bins, or a matrix over bins and processes. -/
def Obs (obs : Tensor V) (nb np : Nat) : Prop := obs.shape = [nb] ∨ obs.shape = [nb, np]

/-- the content of bin `b`, summed over the processes `ps` when the processes are given separately -/
def content [AddMonoid V] (obs : Tensor V) (ps : List Nat) (b : Nat) : V :=
  if obs.shape.length = 1 then obs.val [b] else (ps.map fun q => obs.val [b, q]).sum

/-- the processes asked for, all of them when none is named -/
def procs (np : Nat) (idx : List Nat) : List Nat := if idx = [] then List.range np else idx

end Spec

theorem rows_shape2 (obs : Tensor V) {n np a k : Nat} (h : obs.shape = [n, np]) (hk : a + k ≤ n) :
    (obs.rows a (a + k)).shape = [k, np] := by
  simp only [Tensor.rows, h]
  rw [Nat.min_eq_left hk, Nat.add_sub_cancel_left]

theorem channel_perprocess [AddMonoid V] (m : Term V) (obs : Tensor V) (nb np : Nat) (hobs : obs.shape = [nb, np])
    (hstop : m.stop = m.start + m.expShape.prod) (hnb : m.stop ≤ nb) (hp : ∀ k ∈ m.procIdxs, k < np) :
    ∃ t, m.channel obs false = .ok t ∧ t.shape = m.expShape ++ [(Spec.procs np m.procIdxs).length] ∧
      ∀ j ∈ grid m.expShape, ∀ q < (Spec.procs np m.procIdxs).length,
        t.val (j ++ [q]) = obs.val [m.start + ravel m.expShape j, (Spec.procs np m.procIdxs).getD q 0] := by
  unfold Term.channel
  have hs := rows_shape2 obs (a := m.start) hobs (hstop ▸ hnb)
  rw [hstop]
  dsimp only
  rw [hs, if_neg (by simp)]
  by_cases hi : m.procIdxs = []
  · rw [if_pos hi]
    dsimp only
    obtain ⟨t, ht, hts, htv⟩ := reshape2 (obs.rows m.start (m.start + m.expShape.prod)) np m.expShape hs
    rw [hs]
    simp only [List.getD_cons_succ, List.getD_cons_zero]
    rw [ht]
    have hl : (Spec.procs np m.procIdxs).length = np := by simp [Spec.procs, hi]
    refine ⟨t, rfl, by rw [hts, hl], fun j hj q hq => ?_⟩
    rw [hl] at hq
    rw [htv j hj q hq]
    show obs.val _ = _
    simp [Spec.procs, hi, hq]
  · rw [if_neg hi]
    have hg : (obs.rows m.start (m.start + m.expShape.prod)).gatherLast m.procIdxs =
        .ok ⟨[m.expShape.prod, m.procIdxs.length], fun i => (obs.rows m.start (m.start + m.expShape.prod)).val
          (i.dropLast ++ [m.procIdxs.getD (i.getLastD 0) 0])⟩ := by
      unfold Tensor.gatherLast
      rw [hs, if_neg]
      · rfl
      · intro h
        obtain ⟨k, hk, h⟩ := List.any_eq_true.1 h
        have := hp k hk
        simp at h
        omega
    rw [hg]
    dsimp only
    obtain ⟨t, ht, hts, htv⟩ := reshape2 ⟨[m.expShape.prod, m.procIdxs.length], fun i =>
      (obs.rows m.start (m.start + m.expShape.prod)).val (i.dropLast ++ [m.procIdxs.getD (i.getLastD 0) 0])⟩
      m.procIdxs.length m.expShape rfl
    simp only [List.getD_cons_succ, List.getD_cons_zero]
    rw [ht]
    have hl : Spec.procs np m.procIdxs = m.procIdxs := by simp [Spec.procs, hi]
    refine ⟨t, rfl, by rw [hts, hl], fun j hj q hq => ?_⟩
    rw [hl] at hq ⊢
    rw [htv j hj q hq]
    rfl

theorem channel_inclusive [AddMonoid V] (m : Term V) (obs : Tensor V) (nb np : Nat) (hobs : Spec.Obs obs nb np)
    (hstop : m.stop = m.start + m.expShape.prod) (hnb : m.stop ≤ nb) (hp : ∀ k ∈ m.procIdxs, k < np) :
    ∃ t, m.channel obs true = .ok t ∧ t.shape = m.expShape ∧
      ∀ j ∈ grid m.expShape, t.val j = Spec.content obs (Spec.procs np m.procIdxs) (m.start + ravel m.expShape j) := by
  rcases hobs with hobs | hobs
  · obtain ⟨t, ht, hts, htv⟩ := rows_reshape1 obs nb m.start m.expShape hobs (hstop ▸ hnb)
    unfold Term.channel
    rw [hstop]
    dsimp only
    have hs : (obs.rows m.start (m.start + m.expShape.prod)).shape.length = 1 := by simp [Tensor.rows, hobs]
    rw [if_pos hs, ht]
    refine ⟨t, rfl, hts, fun j hj => ?_⟩
    rw [htv j hj, Spec.content, if_pos (by simp [hobs])]
  · obtain ⟨t, ht, hts, htv⟩ := channel_perprocess m obs nb np hobs hstop hnb hp
    have hs : (obs.rows m.start m.stop).shape.length ≠ 1 := by simp [Tensor.rows, hobs]
    have hrel : m.channel obs true = .ok (t.reduceSum [t.shape.length - 1]) := by
      unfold Term.channel at ht ⊢
      dsimp only at ht ⊢
      rw [if_neg hs] at ht ⊢
      split at ht
      · exact nomatch ht
      · rename_i v hv
        split at ht
        · exact nomatch ht
        · rename_i w hw
          simp only [Bool.false_eq_true, if_false] at ht
          cases ht
          rfl
    obtain ⟨h1, h2⟩ := reduce_last t m.expShape _ hts
    refine ⟨_, hrel, h1, fun j hj => ?_⟩
    rw [h2 j hj, Spec.content, if_neg (by simp [hobs])]
    have h3 : (Spec.procs np m.procIdxs) = (List.range (Spec.procs np m.procIdxs).length).map fun q =>
        (Spec.procs np m.procIdxs).getD q 0 := (map_getD_range _ _).symm
    conv_rhs => rw [h3, List.map_map]
    congr 1
    apply List.map_congr_left
    intro q hq
    exact htv j hj q (by simpa using hq)

theorem selections_full [AddMonoid V] (t : Tensor V) (k : Nat) (hk : k ≤ t.shape.length) :
    t.index (List.replicate k (.slc none none none)) = .ok ⟨t.shape, fun i => t.val (readIdx
      ((t.shape.take k).map fun n => (true, (List.range n).map fun m => 0 + m)) i)⟩ := by
  have h : ∀ (s : List Nat) (k : Nat), k ≤ s.length → allPositions s (List.replicate k (.slc none none none)) =
      .ok ((s.take k).map fun n => (true, (List.range n).map fun m => 0 + m)) := by
    intro s
    induction s with
    | nil => intro k hk; have : k = 0 := by simpa using hk
             subst this; rfl
    | cons n s ih =>
      intro k hk
      cases k with
      | zero => rfl
      | succ k =>
        simp only [List.replicate_succ, allPositions, Pick.positions, Nat.sub_zero]
        rw [ih k (by simpa using hk)]; rfl
  have h2 : ∀ (s : List Nat) (k : Nat), k ≤ s.length →
      readShape ((s.take k).map fun n => (true, (List.range n).map fun m => 0 + m)) s = s := by
    intro s
    induction s with
    | nil => intro k _; simp [readShape]
    | cons n s ih =>
      intro k hk
      cases k with
      | zero => rfl
      | succ k =>
        simp only [List.take_succ_cons, List.map_cons, readShape, List.length_map, List.length_range, List.tail_cons]
        rw [ih k (by simpa using hk)]
  unfold Tensor.index
  rw [h _ _ hk]
  dsimp only
  rw [h2 _ _ hk]

theorem readIdx_full {s i : List Nat} (k : Nat) (h : i ∈ grid s) :
    readIdx ((s.take k).map fun n => (true, (List.range n).map fun m => 0 + m)) i = i := by
  induction s generalizing i k with
  | nil => simp [readIdx]
  | cons n s ih =>
    cases k with
    | zero => rfl
    | succ k =>
      rcases mem_grid.1 h with _ | ⟨h1, h2⟩
      rename_i a i'
      simp only [List.take_succ_cons, List.map_cons, readIdx]
      rw [ih k (mem_grid.2 h2)]
      simp [h1]

theorem rowsOf_val [AddMonoid V] (t : Tensor V) (s : List Nat) (np : Nat) (hnp : 0 < np) (ht : t.shape = s ++ [np]) :
    ∃ r, rowsOf t = .ok r ∧ r.shape = [s.prod, np] ∧
      ∀ i ∈ grid s, ∀ q < np, r.val [ravel s i, q] = t.val (i ++ [q]) := by
  unfold rowsOf
  rw [ht]
  have h1 : (s ++ [np]).getLastD 0 = np := by simp
  rw [h1, if_neg (by omega), List.dropLast_concat]
  have hl : t.flat.length = [s.prod, np].prod := by rw [flat_length, ht]; simp
  refine ⟨_, if_pos hl, rfl, ?_⟩
  intro i hi q hq
  show t.flat.getD (ravel [s.prod, np] [ravel s i, q]) 0 = _
  have hm : i ++ [q] ∈ grid t.shape := by
    rw [ht]; exact (mem_grid_append (length_of_mem_grid hi)).2 ⟨hi, mem_grid.2 (.cons hq .nil)⟩
  have := flat_getElem? t hm
  rw [ht, ravel_append_one s i np q (length_of_mem_grid hi)] at this
  simp only [ravel, List.prod_nil, mul_one, add_zero, List.prod_singleton]
  rw [List.getD_eq_getElem?_getD, this]; rfl

end Verif.Mappings
