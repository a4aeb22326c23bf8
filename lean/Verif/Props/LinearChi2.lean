import Verif.Props.DataMapping
import Verif.Props.Propagation

/-
C71: the linear chi-square.

Specification: `r·C⁻¹·r` for residuals `r` with covariance `C`; in a linear Gaussian model (`Impacts.Spec.joint`) the
quantity to compare with is twice the minimum of the loss.
-/

namespace Verif.Chi2

open Verif.Cov Verif.Impacts Matrix

noncomputable section

variable {n m b p q : ℕ}

namespace Spec

/-- Moore–Penrose inverse -/
structure IsPinv (C P : Mat p) : Prop where
  c1 : C * P * C = C
  c2 : P * C * P = P
  c3 : (C * P).IsSymm
  c4 : (P * C).IsSymm

end Spec

theorem pinv_unique {C P Q : Mat p} (hP : Spec.IsPinv C P) (hQ : Spec.IsPinv C Q) : P = Q := by
  have h1 : C * P = C * Q := by
    have e : (C * Q) * (C * P) = C * P := by rw [← Matrix.mul_assoc, hQ.c1]
    have e2 : (C * P) * (C * Q) = C * Q := by rw [← Matrix.mul_assoc, hP.c1]
    have := congrArg transpose e
    rw [transpose_mul, hP.c3.eq, hQ.c3.eq, e2] at this
    exact this.symm
  have h2 : P * C = Q * C := by
    have e : (P * C) * (Q * C) = P * C := by rw [Matrix.mul_assoc, ← Matrix.mul_assoc C, hQ.c1]
    have e2 : (Q * C) * (P * C) = Q * C := by rw [Matrix.mul_assoc, ← Matrix.mul_assoc C, hP.c1]
    have := congrArg transpose e
    rw [transpose_mul, hP.c4.eq, hQ.c4.eq, e2] at this
    exact this.symm
  rw [← hP.c2, h2, Matrix.mul_assoc, h1, ← Matrix.mul_assoc, hQ.c2]

theorem pinv_symm {C P : Mat p} (hC : C.IsSymm) (hP : Spec.IsPinv C P) : P.IsSymm := by
  refine pinv_unique (C := C) ⟨?_, ?_, ?_, ?_⟩ hP
  · have := congrArg transpose hP.c1
    rw [transpose_mul, transpose_mul, hC.eq] at this
    rw [Matrix.mul_assoc]; exact this
  · have := congrArg transpose hP.c2
    rw [transpose_mul, transpose_mul, hC.eq] at this
    rw [Matrix.mul_assoc]; exact this
  · have := hP.c4
    unfold IsSymm at this ⊢
    rw [transpose_mul, hC.eq] at this
    rw [transpose_mul, transpose_transpose, hC.eq, this]
  · have := hP.c3
    unfold IsSymm at this ⊢
    rw [transpose_mul, hC.eq] at this
    rw [transpose_mul, transpose_transpose, hC.eq, this]

theorem chi2_ok {pinv : Mat p → Mat p} {r : Vec p} {C : Mat p} {k : ℕ} {v : ℝ} {ndf : ℤ}
    (h : chi2 pinv r C k = .ok (v, ndf)) :
    ndf = p - k ∧ ((0 < k ∧ v = r ⬝ᵥ (pinv C).mulVec r) ∨ (k = 0 ∧ C.det ≠ 0 ∧ v = r ⬝ᵥ C⁻¹.mulVec r)) := by
  unfold chi2 at h
  rw [Fintype.card_fin] at h
  split at h
  · next h0 => cases h; exact ⟨rfl, .inl ⟨h0, rfl⟩⟩
  · next h0 =>
    split at h
    · cases h
    · next h1 => cases h; exact ⟨rfl, .inr ⟨by omega, h1, rfl⟩⟩

/-- C71: the value is never negative for a covariance matrix; without reduction it vanishes exactly for vanishing
residuals, and the call fails exactly when the matrix is singular. -/
theorem c71_nonneg (pinv : Mat p → Mat p) (r : Vec p) (C : Mat p) (hC : C.PosSemidef) (hp : Spec.IsPinv C (pinv C)) (k : ℕ) :
    (∀ v ndf, chi2 pinv r C k = .ok (v, ndf) → 0 ≤ v ∧ ndf = p - k ∧ (k = 0 → (v = 0 ↔ r = 0))) ∧
    ((∃ e, chi2 pinv r C k = .error e) ↔ k = 0 ∧ C.det = 0) := by
  constructor
  · intro v ndf h
    obtain ⟨h1, h2⟩ := chi2_ok h
    rcases h2 with ⟨h0, rfl⟩ | ⟨rfl, hd, rfl⟩
    · refine ⟨?_, h1, fun hk => by omega⟩
      have hs := pinv_symm (posSemidef_iff'.1 hC).1 hp
      have := (posSemidef_iff'.1 hC).2 ((pinv C).mulVec r)
      have e : (pinv C).mulVec r ⬝ᵥ C.mulVec ((pinv C).mulVec r) = r ⬝ᵥ (pinv C).mulVec r := by
        rw [mulVec_mulVec, dotProduct_comm, dotProduct_mulVec, ← mulVec_transpose, hs.eq, mulVec_mulVec,
          ← Matrix.mul_assoc, hp.c2, dotProduct_comm]
      rw [← e]; exact this
    · have hpd := (posDef_of_det hC hd).inv
      refine ⟨(posSemidef_iff'.1 hpd.posSemidef).2 r, h1, fun _ => ⟨fun h0 => ?_, fun h0 => by simp [h0]⟩⟩
      by_contra hr
      exact absurd h0 ((posDef_iff'.1 hpd).2 r hr).ne'
  · unfold chi2
    constructor
    · rintro ⟨e, h⟩
      split at h
      · cases h
      · split at h
        · next h0 h1 => exact ⟨by omega, h1⟩
        · cases h
    · rintro ⟨rfl, h1⟩
      exact ⟨.exception, by rw [if_neg (by omega), if_pos h1]⟩

/-- C71: nothing depends on the coordinates in which the residuals are given. -/
theorem c71_invariant (pinv : Mat p → Mat p) (r : Vec p) (C T : Mat p) (hT : T.det ≠ 0) :
    chi2 pinv (T.mulVec r) (T * C * T.transpose) 0 = chi2 pinv r C 0 := by
  have hu : IsUnit T.det := isUnit_iff_ne_zero.2 hT
  have hu' : IsUnit T.transpose.det := by rwa [det_transpose]
  unfold chi2
  simp only [gt_iff_lt, lt_self_iff_false, if_false]
  by_cases h : C.det = 0
  · rw [if_pos h, if_pos (by rw [det_mul, det_mul, h]; ring)]
  · rw [if_neg h, if_neg (by rw [det_mul, det_mul, det_transpose]; exact mul_ne_zero (mul_ne_zero hT h) hT)]
    congr 2
    rw [Matrix.mul_inv_rev, Matrix.mul_inv_rev, mulVec_mulVec, Matrix.mul_assoc, Matrix.mul_assoc,
      nonsing_inv_mul T hu, Matrix.mul_one, ← mulVec_mulVec, ← transpose_nonsing_inv, dotProduct_mulVec, vecMul_transpose,
      mulVec_mulVec, nonsing_inv_mul T hu, one_mulVec]

/-- C71: linear combinations of the residuals never have a larger value than the residuals. -/
theorem c71_projection (pinv : Mat p → Mat p) (pinv' : Mat q → Mat q) (r : Vec p) (C : Mat p) (hC : C.PosSemidef)
    (A : Matrix (Fin q) (Fin p) ℝ) (v v' : ℝ) (d d' : ℤ) (h : chi2 pinv r C 0 = .ok (v, d))
    (h' : chi2 pinv' (A.mulVec r) (A * C * A.transpose) 0 = .ok (v', d')) : v' ≤ v := by
  obtain ⟨-, h2⟩ := chi2_ok h
  obtain ⟨-, h2'⟩ := chi2_ok h'
  rcases h2 with ⟨h0, -⟩ | ⟨-, hd, rfl⟩
  · exact absurd h0 (by omega)
  rcases h2' with ⟨h0, -⟩ | ⟨-, hd', rfl⟩
  · exact absurd h0 (by omega)
  have hC' : (A * C * A.transpose).PosSemidef := by
    have := hC.mul_mul_conjTranspose_same A
    rwa [conjTranspose_eq_transpose_of_trivial] at this
  have hG := posDef_of_det hC' hd'
  rw [← variational_eq hG]
  set a := (A * C * A.transpose)⁻¹.mulVec (A.mulVec r) with ha
  have := variational (posDef_of_det hC hd) r (A.transpose.mulVec a)
  have e1 : A.transpose.mulVec a ⬝ᵥ r = a ⬝ᵥ A.mulVec r := by
    rw [dot_mulVec_mulVec, dotProduct_comm]
  have e2 : A.transpose.mulVec a ⬝ᵥ C.mulVec (A.transpose.mulVec a) = a ⬝ᵥ (A * C * A.transpose).mulVec a := by
    rw [← mulVec_mulVec, ← mulVec_mulVec, dot_mulVec_mulVec A, dotProduct_comm]
  rw [e1, e2] at this
  exact this

/-! ### normalised histograms -/

/-- residuals without bin `k` -/
def dropV (k : Fin (p + 1)) (r : Vec (p + 1)) : Vec p := fun i => r (k.succAbove i)

/-- covariance without bin `k` -/
def dropM (k : Fin (p + 1)) (C : Mat (p + 1)) : Mat p := Matrix.of fun i j => C (k.succAbove i) (k.succAbove j)

/-- C71 for normalised histograms (the residuals sum to zero and so do the rows of the covariance): value and number of
degrees of freedom are those of the histogram with any one bin left out. -/
theorem c71_normalized (pinv : Mat (p + 1) → Mat (p + 1)) (pinv' : Mat p → Mat p) (r : Vec (p + 1)) (hr : ∑ o, r o = 0)
    (C : Mat (p + 1)) (hsym : C.IsSymm) (hC : ∀ o, ∑ o', C o o' = 0) (hp : Spec.IsPinv C (pinv C)) (k : Fin (p + 1))
    (hd : (dropM k C).det ≠ 0) :
    chi2 pinv r C 1 = chi2 pinv' (dropV k r) (dropM k C) 0 := by
  have hd' : IsUnit (dropM k C).det := isUnit_iff_ne_zero.2 hd
  set y' := (dropM k C)⁻¹.mulVec (dropV k r) with hy'
  set y : Vec (p + 1) := k.insertNth 0 y' with hy
  have hyk : y k = 0 := by simp [hy]
  have hys : ∀ i, y (k.succAbove i) = y' i := by intro i; simp [hy]
  have e0 : (dropM k C).mulVec y' = dropV k r := by rw [hy', mulVec_mulVec, mul_nonsing_inv _ hd', one_mulVec]
  have hcol : ∀ o', ∑ o, C o o' = 0 := fun o' => by
    rw [← hC o']; exact Finset.sum_congr rfl fun o _ => hsym.apply o' o
  have e1 : ∀ i, C.mulVec y (k.succAbove i) = r (k.succAbove i) := by
    intro i
    have := congrFun e0 i
    simp only [mulVec, dotProduct, dropM, of_apply, dropV] at this ⊢
    rw [Fin.sum_univ_succAbove _ k, hyk, mul_zero, zero_add, ← this]
    exact Finset.sum_congr rfl fun j _ => by rw [hys]
  have e2 : C.mulVec y = r := by
    funext o
    by_cases ho : o = k
    · subst ho
      have s1 : ∑ o', C.mulVec y o' = 0 := by
        simp only [mulVec, dotProduct]
        rw [Finset.sum_comm]
        refine Finset.sum_eq_zero fun o' _ => ?_
        rw [← Finset.sum_mul, hcol, zero_mul]
      rw [Fin.sum_univ_succAbove _ o] at s1 hr
      rw [Finset.sum_congr rfl fun i _ => e1 i] at s1
      linarith
    · obtain ⟨i, rfl⟩ := Fin.exists_succAbove_eq ho
      exact e1 i
  have e3 : r ⬝ᵥ (pinv C).mulVec r = r ⬝ᵥ y := by
    have : r ⬝ᵥ (pinv C).mulVec r = y ⬝ᵥ C.mulVec ((pinv C).mulVec (C.mulVec y)) := by
      rw [e2, symm_dot hsym, ← dotProduct_comm (C.mulVec y), e2]
    rw [this, mulVec_mulVec, mulVec_mulVec, hp.c1, e2, dotProduct_comm]
  have e4 : r ⬝ᵥ y = dropV k r ⬝ᵥ (dropM k C)⁻¹.mulVec (dropV k r) := by
    rw [← hy']
    simp only [dotProduct, dropV]
    rw [Fin.sum_univ_succAbove _ k, hyk, mul_zero, zero_add]
    exact Finset.sum_congr rfl fun j _ => by rw [hys]
  unfold chi2
  rw [if_pos (by omega), if_neg (by omega), if_neg hd, e3, e4, Fintype.card_fin, Fintype.card_fin]
  congr 2
  push_cast
  ring

end

end Verif.Chi2
