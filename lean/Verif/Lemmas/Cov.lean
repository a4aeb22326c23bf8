import Verif.Model.Cov
import Mathlib.LinearAlgebra.Matrix.PosDef
import Mathlib.Analysis.Matrix.LDL
import Mathlib.LinearAlgebra.Matrix.Block
import Mathlib.Tactic.Linarith
import Mathlib.Tactic.Ring
import Mathlib.Tactic.FieldSimp
import Mathlib.Tactic.Positivity

namespace Verif.Cov

open Matrix

noncomputable section

variable {n m : ℕ}

theorem IsChol.posDef {H U : Mat n} (h : IsChol H U) : H.PosDef := by
  rw [← h.mul]
  refine PosDef.of_dotProduct_mulVec_pos ?_ ?_
  · simp [IsHermitian, conjTranspose_mul, ← conjTranspose_eq_transpose_of_trivial]
  · intro x hx
    have h1 : U.mulVec x ≠ 0 := by
      intro h0
      exact hx (Matrix.eq_zero_of_mulVec_eq_zero h.det h0)
    have : star x ⬝ᵥ (Uᵀ * U).mulVec x = U.mulVec x ⬝ᵥ U.mulVec x := by
      rw [← mulVec_mulVec, dotProduct_mulVec, ← mulVec_transpose, transpose_transpose]; simp
    rw [this]
    have h2 : 0 ≤ U.mulVec x ⬝ᵥ U.mulVec x := Finset.sum_nonneg fun i _ => mul_self_nonneg _
    refine lt_of_le_of_ne h2 fun h3 => h1 ?_
    exact dotProduct_self_eq_zero.1 h3.symm

theorem exists_chol {H : Mat n} (hH : H.PosDef) : ∃ U, IsChol H U := by
  classical
  set L := LDL.lower hH with hL
  set d := LDL.diagEntries hH with hd
  have hdet : (LDL.lowerInv hH).det ≠ 0 := by
    have := LDL.invertibleLowerInv hH
    exact (isUnit_det_of_invertible (LDL.lowerInv hH)).ne_zero
  have hdpos : ∀ i, 0 < d i := by
    have h1 : (LDL.diag hH).PosDef := by
      rw [LDL.diag_eq_lowerInv_conj]
      refine PosDef.mul_mul_conjTranspose_same hH ?_
      exact vecMul_injective_of_isUnit ((isUnit_iff_isUnit_det _).2 hdet.isUnit)
    intro i
    have := h1.diag_pos (i := i)
    simpa [LDL.diag] using this
  have hLdet : L.det ≠ 0 := by
    rw [hL, LDL.lower]
    rw [det_nonsing_inv]
    simpa using hdet
  have hLtri : ∀ i j, i < j → L i j = 0 := by
    have h0 : BlockTriangular (LDL.lowerInv hH) OrderDual.toDual := by
      intro i j hij
      exact LDL.lowerInv_triangular hH (by simpa using hij)
    have := LDL.invertibleLowerInv hH
    have h1 := blockTriangular_inv_of_blockTriangular h0
    intro i j hij
    exact h1 (by simpa using hij)
  refine ⟨diagonal (fun i => Real.sqrt (d i)) * Lᵀ, ?_, ?_, ?_⟩
  · intro i j hij
    simp [diagonal_mul, hLtri j i hij]
  · rw [det_mul, det_diagonal, det_transpose]
    exact mul_ne_zero (Finset.prod_ne_zero_iff.2 fun i _ => (Real.sqrt_pos.2 (hdpos i)).ne') hLdet
  · rw [transpose_mul, transpose_transpose, diagonal_transpose, Matrix.mul_assoc, ← Matrix.mul_assoc (diagonal _),
      diagonal_mul_diagonal]
    have : (fun i => Real.sqrt (d i) * Real.sqrt (d i)) = d := by
      funext i; exact Real.mul_self_sqrt (hdpos i).le
    rw [this, ← Matrix.mul_assoc]
    have := LDL.lower_conj_diag hH
    rw [conjTranspose_eq_transpose_of_trivial] at this
    exact this

theorem cholesky_some {H : Mat n} (hH : H.PosDef) : ∃ U, cholesky H = some U ∧ IsChol H U := by
  have h := exists_chol hH
  exact ⟨h.choose, by simp [cholesky, h], h.choose_spec⟩

theorem cholesky_none {H : Mat n} (hH : ¬ H.PosDef) : cholesky H = none := by
  unfold cholesky
  rw [dif_neg]
  rintro ⟨U, hU⟩
  exact hH hU.posDef

theorem choInv_eq {H U : Mat n} (h : IsChol H U) : choInv U = H⁻¹ := by
  rw [choInv, ← h.mul, Matrix.mul_inv_rev, transpose_nonsing_inv]

theorem choSolve_eq {H U : Mat n} (h : IsChol H U) (b : Vec n) : choSolve U b = H⁻¹.mulVec b := by
  rw [choSolve, mulVec_mulVec, ← h.mul, Matrix.mul_inv_rev]

theorem edmvalCov_ok {H : Mat n} (hH : H.PosDef) (g : Vec n) :
    edmvalCov g H = .ok ((1 / 2) * (g ⬝ᵥ H⁻¹.mulVec g), H⁻¹) := by
  obtain ⟨U, hU, hc⟩ := cholesky_some hH
  simp only [edmvalCov, hU, choInv_eq hc, choSolve_eq hc]

theorem tfEdmvalCov_eq (g : Vec n) (H : Mat n) : tfEdmvalCov g H = edmvalCov g H := by
  by_cases hH : H.PosDef
  · obtain ⟨U, hU, hc⟩ := cholesky_some hH
    simp only [edmvalCov, tfEdmvalCov, hU, choInv_eq hc, choSolve_eq hc]
    congr 2
    ext i j
    simp [mulVec, dotProduct]
  · simp only [edmvalCov, tfEdmvalCov, cholesky_none hH]

theorem mem_floatingIdx {parms : Fin n → String} {frozen : List String} {i : Fin n} :
    i ∈ floatingIdx parms frozen ↔ parms i ∉ frozen := by
  simp [floatingIdx]

theorem nodup_floatingIdx (parms : Fin n → String) (frozen : List String) :
    (floatingIdx parms frozen).Nodup := (List.nodup_finRange n).filter _

theorem posDef_iff' {H : Mat n} : H.PosDef ↔ H.IsSymm ∧ ∀ x : Vec n, x ≠ 0 → 0 < x ⬝ᵥ H.mulVec x := by
  rw [posDef_iff_dotProduct_mulVec]
  simp [IsHermitian, IsSymm, conjTranspose_eq_transpose_of_trivial]

theorem mul_inv_of_posDef {H : Mat n} (h : H.PosDef) : H * H⁻¹ = 1 := by
  exact mul_nonsing_inv _ ((isUnit_iff_isUnit_det _).1 h.isUnit)

theorem inv_mul_of_posDef {H : Mat n} (h : H.PosDef) : H⁻¹ * H = 1 := by
  exact nonsing_inv_mul _ ((isUnit_iff_isUnit_det _).1 h.isUnit)

/-- a sum over the entries of a duplicate-free index list -/
theorem sum_get {ι : Type*} [Fintype ι] [DecidableEq ι] {l : List ι} (hl : l.Nodup) (f : ι → ℝ) :
    ∑ a : Fin l.length, f (l.get a) = ∑ i, if i ∈ l then f i else 0 := by
  rw [← Finset.sum_filter]
  refine Finset.sum_bij (fun a _ => l.get a) ?_ ?_ ?_ ?_
  · intro a _; simp
  · intro a _ b _ h; exact (List.nodup_iff_injective_get.1 hl) h
  · intro i hi
    obtain ⟨a, ha⟩ := List.get_of_mem (Finset.mem_filter.1 hi).2
    exact ⟨a, Finset.mem_univ _, ha⟩
  · intros; rfl

theorem scatterM_get {cov : Mat n} {idxs : List (Fin n)} (hn : idxs.Nodup) (upd : Mat idxs.length)
    (a b : Fin idxs.length) : scatterM cov idxs upd (idxs.get a) (idxs.get b) = upd a b := by
  unfold scatterM
  rw [Matrix.of_apply, dif_pos ⟨List.get_mem _ _, List.get_mem _ _⟩]
  congr 1 <;> exact Fin.ext (by simp [hn.idxOf_getElem])

theorem scatterM_out {cov : Mat n} {idxs : List (Fin n)} (upd : Mat idxs.length) {i j : Fin n}
    (h : i ∉ idxs ∨ j ∉ idxs) : scatterM cov idxs upd i j = cov i j := by
  unfold scatterM
  rw [Matrix.of_apply, dif_neg]
  rintro ⟨h1, h2⟩
  rcases h with h | h <;> contradiction

end

end Verif.Cov

namespace Verif.Cov

open Matrix

noncomputable section

variable {n m : ℕ}

/-- the vector that has the entries of `y` at the places `l` and zero elsewhere -/
def ext (l : List (Fin n)) (y : Vec l.length) : Vec n := fun i =>
  if h : i ∈ l then y ⟨l.idxOf i, List.idxOf_lt_length_of_mem h⟩ else 0

theorem ext_get {l : List (Fin n)} (hl : l.Nodup) (y : Vec l.length) (a : Fin l.length) :
    ext l y (l.get a) = y a := by
  unfold ext
  rw [dif_pos (List.get_mem _ _)]
  congr 1
  exact Fin.ext (by simp [hl.idxOf_getElem])

theorem ext_out {l : List (Fin n)} (y : Vec l.length) {i : Fin n} (h : i ∉ l) : ext l y i = 0 := by
  unfold ext; rw [dif_neg h]

theorem gather_mulVec {l : List (Fin n)} (hl : l.Nodup) (H : Mat n) (z : Vec n) (hz : ∀ i, i ∉ l → z i = 0)
    (a : Fin l.length) : (gatherM l H).mulVec (gatherV l z) a = H.mulVec z (l.get a) := by
  have h1 := sum_get hl fun j => H (l.get a) j * z j
  simp only [mulVec, dotProduct, gatherM, gatherV, of_apply]
  rw [h1]
  refine Finset.sum_congr rfl fun j _ => ?_
  split
  · rfl
  · next h => rw [hz j h, mul_zero]

theorem gather_dot {l : List (Fin n)} (hl : l.Nodup) (u z : Vec n) (hz : ∀ i, i ∉ l → z i = 0) :
    gatherV l u ⬝ᵥ gatherV l z = u ⬝ᵥ z := by
  have h1 := sum_get hl fun j => u j * z j
  simp only [dotProduct, gatherV]
  rw [h1]
  refine Finset.sum_congr rfl fun j _ => ?_
  split
  · rfl
  · next h => rw [hz j h, mul_zero]

theorem gather_quad {l : List (Fin n)} (hl : l.Nodup) (H : Mat n) (z : Vec n) (hz : ∀ i, i ∉ l → z i = 0) :
    gatherV l z ⬝ᵥ (gatherM l H).mulVec (gatherV l z) = z ⬝ᵥ H.mulVec z := by
  have : (gatherM l H).mulVec (gatherV l z) = gatherV l (H.mulVec z) := by
    funext a; exact gather_mulVec hl H z hz a
  rw [this, dotProduct_comm, gather_dot hl _ _ hz, dotProduct_comm]

theorem gatherV_ext {l : List (Fin n)} (hl : l.Nodup) (y : Vec l.length) : gatherV l (ext l y) = y := by
  funext a; exact ext_get hl y a

theorem gatherM_posDef {l : List (Fin n)} (hl : l.Nodup) {H : Mat n} (hs : H.IsSymm) :
    (gatherM l H).PosDef ↔ ∀ z : Vec n, (∀ i, i ∉ l → z i = 0) → z ≠ 0 → 0 < z ⬝ᵥ H.mulVec z := by
  rw [posDef_iff']
  constructor
  · rintro ⟨_, h⟩ z hz hne
    rw [← gather_quad hl H z hz]
    refine h _ fun h0 => hne ?_
    funext i
    by_cases hi : i ∈ l
    · obtain ⟨a, rfl⟩ := List.get_of_mem hi
      exact congrFun h0 a
    · exact hz i hi
  · intro h
    refine ⟨?_, fun y hy => ?_⟩
    · ext a b
      exact congrFun (congrFun hs (l.get a)) (l.get b)
    · have := h (ext l y) (fun i hi => ext_out y hi) (by
        intro h0; apply hy; rw [← gatherV_ext hl y, h0]; rfl)
      rw [← gather_quad hl H _ (fun i hi => ext_out y hi), gatherV_ext hl] at this
      exact this

theorem quad_step (q : Quad n) (hs : q.H.IsSymm) (x d : Vec n) :
    q.val (x + d) = q.val x + d ⬝ᵥ (q.g + q.H.mulVec x) + (1 / 2) * (d ⬝ᵥ q.H.mulVec d) := by
  have h1 : x ⬝ᵥ q.H.mulVec d = d ⬝ᵥ q.H.mulVec x := by
    rw [dotProduct_mulVec, ← mulVec_transpose, hs.eq, dotProduct_comm]
  have h2 : q.g ⬝ᵥ d = d ⬝ᵥ q.g := dotProduct_comm _ _
  simp only [Quad.val, mulVec_add, dotProduct_add, add_dotProduct]
  rw [h1, h2]; ring

end

end Verif.Cov
