import Verif.Model.Mappings
import Mathlib.Algebra.BigOperators.Group.List.Lemmas
import Mathlib.Algebra.BigOperators.Finsupp.Basic
import Mathlib.Algebra.Module.BigOperators
import Mathlib.Data.Real.Basic

/-! Selecting, rebinning, summing and transposing commute with additive maps of the entries; hence what the mappings `Select`
and `Project` give is a linear combination of the bins. -/

namespace Verif.LinearMapping

open Verif.Grid Verif.Mappings

variable {W V : Type} [AddCommMonoid W] [AddCommMonoid V] (φ : W →+ V)

/-- the map applied to every entry -/
def mp (t : Tensor W) : Tensor V := ⟨t.shape, fun i => φ (t.val i)⟩

/-- the same for a result -/
def mpR (r : Res (Tensor W)) : Res (Tensor V) := match r with
  | .error e => .error e
  | .ok t => .ok (mp φ t)

theorem mp_flat (t : Tensor W) : (mp φ t).flat = t.flat.map φ := by
  unfold Tensor.flat mp
  rw [List.map_map]
  rfl

theorem getD_map (l : List W) (i : Nat) : (l.map φ).getD i 0 = φ (l.getD i 0) := by
  rw [List.getD_eq_getElem?_getD, List.getElem?_map, List.getD_eq_getElem?_getD]
  cases l[i]? <;> simp

theorem mp_rows (t : Tensor W) (a b : Nat) : (mp φ t).rows a b = mp φ (t.rows a b) := by
  unfold Tensor.rows mp
  congr 1
  funext i
  cases i <;> rfl

theorem mp_reshape (t : Tensor W) (s : List Nat) : (mp φ t).reshape s = mpR φ (t.reshape s) := by
  unfold Tensor.reshape ofFlat
  rw [mp_flat, List.length_map]
  by_cases h : t.flat.length = s.prod
  · rw [if_pos h, if_pos h]
    unfold mpR mp
    congr 2
    funext i
    dsimp only
    rw [List.getD_eq_getElem?_getD, List.getElem?_map, List.getD_eq_getElem?_getD]
    cases t.flat[ravel s i]? <;> simp
  · rw [if_neg h, if_neg h]; rfl

theorem mp_gatherLast (t : Tensor W) (idx : List Nat) : (mp φ t).gatherLast idx = mpR φ (t.gatherLast idx) := by
  unfold Tensor.gatherLast
  rw [show (mp φ t).shape = t.shape from rfl]
  by_cases h : (idx.any fun k => decide (t.shape.getLastD 0 ≤ k)) = true
  · rw [if_pos h, if_pos h]; rfl
  · rw [if_neg h, if_neg h]; rfl

theorem mp_reduceSum (t : Tensor W) (axes : List Nat) : (mp φ t).reduceSum axes = mp φ (t.reduceSum axes) := by
  unfold Tensor.reduceSum mp
  dsimp only
  congr 1
  funext i
  rw [map_list_sum, List.map_map]
  rfl

theorem mp_transpose (t : Tensor W) (perm : List Nat) : (mp φ t).transpose perm = mpR φ (t.transpose perm) := by
  unfold Tensor.transpose
  rw [show (mp φ t).shape = t.shape from rfl]
  by_cases h : perm.length = t.shape.length ∧ perm.Nodup ∧ ∀ k ∈ perm, k < t.shape.length
  · rw [if_pos h, if_pos h]; rfl
  · rw [if_neg h, if_neg h]; rfl

theorem mp_index (t : Tensor W) (picks : List Pick) : (mp φ t).index picks = mpR φ (t.index picks) := by
  unfold Tensor.index
  rw [show (mp φ t).shape = t.shape from rfl]
  cases allPositions t.shape picks <;> rfl

theorem segmentSum_map {A B : Type} [AddCommMonoid A] [AddCommMonoid B] (ψ : A →+ B) (x : List A) (ids : List Int) (n : Nat) :
    Storage.segmentSumAlongAxis (x.map ψ) ids n = (Storage.segmentSumAlongAxis x ids n).map fun l => l.map ψ := by
  unfold Storage.segmentSumAlongAxis Storage.segmentSum
  dsimp only
  rw [List.length_map, ← List.map_take, ← List.map_drop]
  generalize (List.drop (Storage.nLeading ids) (List.take (x.length - Storage.nLeading ids.reverse) x)) = x'
  generalize List.drop (Storage.nLeading ids) (List.take (ids.length - Storage.nLeading ids.reverse) ids) = ids'
  by_cases h : ids'.any (· < 0) ∨ ¬ ids'.IsChain (· ≤ ·)
  · rw [if_pos h, if_pos h]; rfl
  · rw [if_neg h, if_neg h]
    dsimp only
    rw [List.length_map, List.length_map]
    have he : ∀ k : Nat, ((((x'.map ψ).zip ids').filter fun p => p.2 == (k : Int)).map (·.1)).sum =
        ψ ((((x'.zip ids').filter fun p => p.2 == (k : Int)).map (·.1)).sum) := fun k => by
      rw [map_list_sum, List.map_map, List.zip_map_left, List.filter_map, List.map_map]
      rfl
    simp only [he]
    have hgo : ∀ sz : Nat, (if (List.range sz).length = n then Except.ok ((List.range sz).map fun k : Nat =>
          ψ ((((x'.zip ids').filter fun p => p.2 == (k : Int)).map (·.1)).sum)) else .error .value : Res (List B)) =
        (if (List.range sz).length = n then Except.ok ((List.range sz).map fun k : Nat =>
          (((x'.zip ids').filter fun p => p.2 == (k : Int)).map (·.1)).sum) else .error .value : Res (List A)).map
            fun l => l.map ψ := fun sz => by
      by_cases hl : (List.range sz).length = n
      · rw [if_pos hl, if_pos hl]
        simp [Except.map]
      · rw [if_neg hl, if_neg hl]; rfl
    exact hgo _

/-- application at every index -/
def ptw : (List Nat → W) →+ (List Nat → V) where
  toFun f := fun i => φ (f i)
  map_zero' := by funext i; simp
  map_add' f g := by funext i; simp

theorem mp_segmentSum (t : Tensor W) (ids : List Int) (k n : Nat) :
    (mp φ t).segmentSum ids k n = mpR φ (t.segmentSum ids k n) := by
  have h := segmentSum_map (ptw φ)
    ((List.range (t.shape.getD k 0)).map fun (j : Nat) (rest : List Nat) => t.val (rest.insertIdx k j)) ids n
  rw [List.map_map] at h
  unfold Tensor.segmentSum
  have hr : (List.range ((mp φ t).shape.getD k 0)).map (fun (j : Nat) (rest : List Nat) => (mp φ t).val (rest.insertIdx k j)) =
    (List.range (t.shape.getD k 0)).map (ptw φ ∘ fun (j : Nat) (rest : List Nat) => t.val (rest.insertIdx k j)) := rfl
  dsimp only
  rw [hr, h]
  cases Storage.segmentSumAlongAxis ((List.range (t.shape.getD k 0)).map fun (j : Nat) (rest : List Nat) =>
    t.val (rest.insertIdx k j)) ids n with
  | error e => rfl
  | ok r =>
    simp only [Except.map]
    unfold mpR mp
    dsimp only
    congr 2
    funext i
    rw [List.getD_eq_getElem?_getD, List.getElem?_map, List.getD_eq_getElem?_getD (l := r)]
    cases r[i.getD k 0]? <;> simp [ptw]

theorem mp_segmentAll (t : Tensor W) (segs : Dict Nat (List Int × Nat)) :
    segmentAll (mp φ t) segs = mpR φ (segmentAll t segs) := by
  induction segs generalizing t with
  | nil => rfl
  | cons s segs ih =>
    obtain ⟨k, ids, n⟩ := s
    unfold segmentAll
    rw [mp_segmentSum]
    cases t.segmentSum ids k n with
    | error e => rfl
    | ok t' => exact ih t'

theorem mp_channel (m : Term W) (m' : Term V) (h1 : m'.start = m.start) (h2 : m'.stop = m.stop) (h3 : m'.expShape = m.expShape)
    (h4 : m'.procIdxs = m.procIdxs) (t : Tensor W) (inc : Bool) : m'.channel (mp φ t) inc = mpR φ (m.channel t inc) := by
  unfold Term.channel
  rw [h1, h2, h3, h4, mp_rows]
  dsimp only
  rw [show (mp φ (t.rows m.start m.stop)).shape = (t.rows m.start m.stop).shape from rfl]
  by_cases hs : (t.rows m.start m.stop).shape.length = 1
  · rw [if_pos hs, if_pos hs, mp_reshape]
  · rw [if_neg hs, if_neg hs]
    have hg : (if m.procIdxs = [] then .ok (mp φ (t.rows m.start m.stop)) else (mp φ (t.rows m.start m.stop)).gatherLast m.procIdxs)
        = mpR φ (if m.procIdxs = [] then .ok (t.rows m.start m.stop) else (t.rows m.start m.stop).gatherLast m.procIdxs) := by
      split
      · rfl
      · rw [mp_gatherLast]
    rw [hg]
    cases (if m.procIdxs = [] then .ok (t.rows m.start m.stop) else (t.rows m.start m.stop).gatherLast m.procIdxs :
      Res (Tensor W)) with
    | error e => rfl
    | ok v =>
      show (match (mp φ v).reshape (m.expShape ++ [v.shape.getD 1 0]) with
        | .error e => .error e
        | .ok v => .ok (if inc then v.reduceSum [v.shape.length - 1] else v)) = mpR φ (match v.reshape (m.expShape ++ [v.shape.getD 1 0]) with
        | .error e => .error e
        | .ok v => .ok (if inc then v.reduceSum [v.shape.length - 1] else v))
      rw [mp_reshape]
      cases v.reshape (m.expShape ++ [v.shape.getD 1 0]) with
      | error e => rfl
      | ok v =>
        cases inc
        · rfl
        · show Except.ok ((mp φ v).reduceSum [v.shape.length - 1]) = _
          rw [mp_reduceSum]
          rfl

theorem mp_select [Div W] [Div V] (m : Term W) (m' : Term V) (h1 : m'.start = m.start) (h2 : m'.stop = m.stop)
    (h3 : m'.expShape = m.expShape) (h4 : m'.procIdxs = m.procIdxs) (h5 : m'.selections = m.selections)
    (h6 : m'.segments = m.segments) (h7 : m'.sumIdxs = m.sumIdxs) (t : Tensor W) (inc : Bool) :
    m'.select (mp φ t) false inc = mpR φ (m.select t false inc) := by
  unfold Term.select
  rw [mp_channel φ m m' h1 h2 h3 h4, h5, h6, h7]
  cases m.channel t inc with
  | error e => rfl
  | ok v =>
    show (match (if m.selections = [] then .ok (mp φ v) else (mp φ v).index m.selections) with
      | .error e => .error e
      | .ok v => match segmentAll v m.segments with
        | .error e => .error e
        | .ok v => _ : Res (Tensor V)) = mpR φ (match (if m.selections = [] then .ok v else v.index m.selections) with
      | .error e => .error e
      | .ok v => match segmentAll v m.segments with
        | .error e => .error e
        | .ok v => _)
    have hi : (if m.selections = [] then .ok (mp φ v) else (mp φ v).index m.selections) =
        mpR φ (if m.selections = [] then .ok v else v.index m.selections) := by
      split
      · rfl
      · rw [mp_index]
    rw [hi]
    cases (if m.selections = [] then .ok v else v.index m.selections : Res (Tensor W)) with
    | error e => rfl
    | ok v =>
      simp only [mpR, mp_segmentAll]
      cases segmentAll v m.segments with
      | error e => rfl
      | ok v =>
        simp only [Bool.false_eq_true, if_false]
        split
        · rfl
        · rw [mp_reduceSum]

theorem mp_project (p : Project W) (p' : Project V) (h1 : p'.projIdxs = p.projIdxs) (h2 : p'.transposeIdxs = p.transposeIdxs)
    (t : Tensor W) : p'.project (mp φ t) = mpR φ (p.project t) := by
  unfold Project.project
  rw [h1, h2]
  dsimp only
  rw [mp_reduceSum, mp_transpose]
  rfl

/-- what is read of a term does not depend on the type of the entries -/
def reterm (m : Term V) : Term W :=
  { start := m.start, stop := m.stop, expShape := m.expShape, hasData := m.hasData, procIdxs := m.procIdxs
    selections := m.selections, segments := m.segments, sumIdxs := m.sumIdxs, axes := [] }

/-- the vector of the bins as formal symbols -/
noncomputable def symb (nb : Nat) : Tensor (ℕ →₀ ℝ) := ⟨[nb], fun i => Finsupp.single (i.getD 0 0) 1⟩

/-- inserting numbers for the symbols -/
noncomputable def insert (y : Nat → ℝ) : (ℕ →₀ ℝ) →+ ℝ where
  toFun f := f.sum fun j c => c * y j
  map_zero' := Finsupp.sum_zero_index
  map_add' _ _ := Finsupp.sum_add_index' (fun _ => zero_mul _) fun _ _ _ => add_mul _ _ _

theorem insert_symb (nb : Nat) (y : Nat → ℝ) : mp (insert y) (symb nb) = ⟨[nb], fun i => y (i.getD 0 0)⟩ := by
  unfold mp symb insert
  simp

end Verif.LinearMapping
