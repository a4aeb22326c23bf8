import Verif.Props.Impacts
import Verif.Props.Covariance
import Mathlib.Algebra.Order.Star.Real

/-
C38: global impacts decompose the total variance.  C44: the warm start of a contour scan lies on the contour.
C63: propagated uncertainties.
-/

namespace Verif.Impacts

open Verif.Cov Matrix

noncomputable section

variable {n m b : ℕ}

/-! ### C38, likelihood-based global impacts -/

/-- a row of a symmetric matrix -/
theorem covColumn_eq {cov : Mat n} (i : Fin n) : covColumn cov i = fun k => cov k i := by
  funext k
  simp [covColumn, mulVec, dotProduct]

theorem dot_mulVec_mulVec {p q : ℕ} (B : Matrix (Fin p) (Fin q) ℝ) (u : Vec q) (w : Vec p) :
    w ⬝ᵥ B.mulVec u = u ⬝ᵥ B.transpose.mulVec w := by
  rw [dotProduct_mulVec, ← mulVec_transpose, dotProduct_comm]

/-- C38, likelihood path with bin-by-bin statistics.  The loss has a constraint part with diagonal Hessian `cw`, a
bin-by-bin part with diagonal Hessian `l2` and a data part whose joint Hessian in parameters and `β` has the blocks
`Dxx`, `Dxb`, `Dbb` and is positive semidefinite; `B` is the response of the profiled `β`, so that the
Hessian of the profiled loss is `cw + Dxx + Dxb B`.  The covariance satisfies `C H C = C`, which covers frozen
parameters with zero rows.  Then the squared impacts of the constraints, of the bin-by-bin statistics and of
the data are non-negative and sum to the variance. -/
theorem c38_likelihood (cov : Mat n) (hsym : cov.IsSymm) (cw : Vec n) (hcw : ∀ j, 0 ≤ cw j) (l2 : Vec b)
    (hl2 : ∀ k, 0 ≤ l2 k) (Dxx : Mat n) (Dxb : Matrix (Fin n) (Fin b) ℝ) (Dbb : Mat b)
    (hD : ∀ (u : Vec n) (w : Vec b), 0 ≤ u ⬝ᵥ Dxx.mulVec u + 2 * (u ⬝ᵥ Dxb.mulVec w) + w ⬝ᵥ Dbb.mulVec w)
    (B : Matrix (Fin b) (Fin n) ℝ) (hB : (Dbb + diagonal l2) * B = -Dxb.transpose)
    (hC : cov * (diagonal cw + Dxx + Dxb * B) * cov = cov) (i : Fin n) :
    0 ≤ varNobs (cov i i) (impactsX0 cw (covColumn cov i)) (some (impactsBeta0 l2 B (covColumn cov i))) ∧
    (∀ j, 0 ≤ impactsX0 cw (covColumn cov i) j ^ 2) ∧
    Real.sqrt (varNobs (cov i i) (impactsX0 cw (covColumn cov i)) (some (impactsBeta0 l2 B (covColumn cov i)))) ^ 2 +
      (∑ j, impactsX0 cw (covColumn cov i) j ^ 2) + (∑ k, impactsBeta0 l2 B (covColumn cov i) k ^ 2) = cov i i ∧
    (∑ j, impactsX0 cw (covColumn cov i) j ^ 2) + (∑ k, impactsBeta0 l2 B (covColumn cov i) k ^ 2) ≤ cov i i := by
  set c := covColumn cov i with hc
  have hce : c = cov.mulVec (Pi.single i 1) := by rw [hc, covColumn_eq, mulVec_single_one]; rfl
  -- the variance as a quadratic form of the Hessian
  have hq : cov i i = c ⬝ᵥ (diagonal cw + Dxx + Dxb * B).mulVec c := by
    have h1 : cov i i = Pi.single i 1 ⬝ᵥ cov.mulVec (Pi.single i 1) := (single_quad cov i i).symm
    rw [h1]
    conv_lhs => rw [← hC, ← mulVec_mulVec, ← mulVec_mulVec, ← hce]
    rw [dotProduct_mulVec, ← mulVec_transpose, hsym.eq, ← hce]
  have hx0 : ∑ j, impactsX0 cw c j ^ 2 = c ⬝ᵥ (diagonal cw).mulVec c := by
    simp only [impactsX0, mul_pow, Real.sq_sqrt (hcw _), dotProduct, mulVec_diagonal]
    exact Finset.sum_congr rfl fun j _ => by ring
  have hb0 : ∑ k, impactsBeta0 l2 B c k ^ 2 = B.mulVec c ⬝ᵥ (diagonal l2).mulVec (B.mulVec c) := by
    simp only [impactsBeta0, mul_pow, Real.sq_sqrt (hl2 _), dotProduct, mulVec_diagonal]
    exact Finset.sum_congr rfl fun j _ => by ring
  -- the response equation
  have hresp : B.mulVec c ⬝ᵥ Dbb.mulVec (B.mulVec c) + B.mulVec c ⬝ᵥ (diagonal l2).mulVec (B.mulVec c) =
      -(c ⬝ᵥ Dxb.mulVec (B.mulVec c)) := by
    rw [← dotProduct_add, ← add_mulVec, mulVec_mulVec, hB, neg_mulVec, dotProduct_neg, ← dot_mulVec_mulVec]
  have hv : varNobs (cov i i) (impactsX0 cw c) (some (impactsBeta0 l2 B c)) =
      c ⬝ᵥ Dxx.mulVec c + 2 * (c ⬝ᵥ Dxb.mulVec (B.mulVec c)) + B.mulVec c ⬝ᵥ Dbb.mulVec (B.mulVec c) := by
    unfold varNobs
    dsimp only
    rw [hx0, hb0, hq]
    simp only [add_mulVec, dotProduct_add, ← mulVec_mulVec]
    linarith
  have hnn : 0 ≤ varNobs (cov i i) (impactsX0 cw c) (some (impactsBeta0 l2 B c)) := by rw [hv]; exact hD _ _
  refine ⟨hnn, fun j => sq_nonneg _, ?_, ?_⟩
  · rw [Real.sq_sqrt hnn]; unfold varNobs; dsimp only; ring
  · unfold varNobs at hnn; dsimp only at hnn; linarith

/-- the same without bin-by-bin statistics -/
theorem c38_likelihood_no_bbb (cov : Mat n) (hsym : cov.IsSymm) (cw : Vec n) (hcw : ∀ j, 0 ≤ cw j) (Dxx : Mat n)
    (hD : ∀ u : Vec n, 0 ≤ u ⬝ᵥ Dxx.mulVec u) (hC : cov * (diagonal cw + Dxx) * cov = cov) (i : Fin n) :
    0 ≤ varNobs (K := Empty) (cov i i) (impactsX0 cw (covColumn cov i)) none ∧
    Real.sqrt (varNobs (K := Empty) (cov i i) (impactsX0 cw (covColumn cov i)) none) ^ 2 +
      (∑ j, impactsX0 cw (covColumn cov i) j ^ 2) = cov i i := by
  have h := c38_likelihood (b := 0) cov hsym cw hcw 0 (fun k => k.elim0) Dxx 0 0
    (fun u w => by simpa using hD u) 0 (by ext k; exact k.elim0) (by simpa using hC) i
  have he : ∀ (t : ℝ) (x0 : Vec n) (bb : Fin 0 → ℝ), varNobs (K := Empty) t x0 none = varNobs t x0 (some bb) := by
    intro t x0 bb; simp [varNobs]
  rw [he _ _ (impactsBeta0 0 0 (covColumn cov i))]
  refine ⟨h.1, ?_⟩
  have := h.2.2.1
  simpa using this

/-! ### C38, gaussian global impacts -/

namespace Spec

/-- a quadratic loss of parameters `x` and bin-by-bin variables `β`: constraints with centres `x0`, data `N` with
inverse covariance `Vi` and linear prediction `J x + K β`, bin-by-bin constraints with centres `β0`, and
external terms `E` -/
def joint (cw : Vec n) (J : Matrix (Fin m) (Fin n) ℝ) (K : Matrix (Fin m) (Fin b) ℝ) (Vi : Mat m) (s : Vec b)
    (E : Mat n) (x x0 : Vec n) (N : Vec m) (β0 β : Vec b) : ℝ :=
  (1 / 2) * (∑ j, cw j * (x j - x0 j) ^ 2) +
  (1 / 2) * ((J.mulVec x + K.mulVec β - N) ⬝ᵥ Vi.mulVec (J.mulVec x + K.mulVec β - N)) +
  (1 / 2) * (∑ k, s k * (β k - β0 k) ^ 2) + (1 / 2) * (x ⬝ᵥ E.mulVec x)

/-- mixed second difference; for a quadratic function it is the mixed second derivative -/
def mixed {A B : Type} [Add A] [Add B] (f : A → B → ℝ) (P : A → B → ℝ) : Prop :=
  ∀ x w d e, f (x + d) (w + e) - f (x + d) w - f x (w + e) + f x w = P d e

end Spec

theorem bil_ext {p q : ℕ} {P Q : Matrix (Fin p) (Fin q) ℝ}
    (h : ∀ u v, u ⬝ᵥ P.mulVec v = u ⬝ᵥ Q.mulVec v) : P = Q := by
  ext i j
  simpa using h (Pi.single i 1) (Pi.single j 1)

/-- covariance of the residuals before the fit: data plus bin-by-bin statistics -/
def resCov (K : Matrix (Fin m) (Fin b) ℝ) (V : Mat m) (s : Vec b) : Mat m :=
  V + K * diagonal (fun k => (s k)⁻¹) * K.transpose

theorem resCov_posDef {K : Matrix (Fin m) (Fin b) ℝ} {V : Mat m} (hV : V.PosDef) {s : Vec b} (hs : ∀ k, 0 < s k) :
    (resCov K V s).PosDef := by
  rw [posDef_iff'] at hV ⊢
  refine ⟨?_, fun x hx => ?_⟩
  · unfold resCov IsSymm
    rw [transpose_add, transpose_mul, transpose_mul, transpose_transpose, diagonal_transpose, hV.1.eq,
      Matrix.mul_assoc]
  · unfold resCov
    have h2 : ∀ z : Vec b, x ⬝ᵥ K.mulVec z = K.transpose.mulVec x ⬝ᵥ z := fun z => by
      rw [dot_mulVec_mulVec, dotProduct_comm]
    rw [add_mulVec, dotProduct_add, ← mulVec_mulVec, ← mulVec_mulVec, h2]
    have : 0 ≤ K.transpose.mulVec x ⬝ᵥ (diagonal fun k => (s k)⁻¹).mulVec (K.transpose.mulVec x) := by
      simp only [dotProduct, mulVec_diagonal]
      refine Finset.sum_nonneg fun k _ => ?_
      rw [mul_left_comm]
      exact mul_nonneg (inv_nonneg.2 (hs k).le) (mul_self_nonneg _)
    have := hV.2 x hx
    linarith

/-- the quadratic loss around the profiled bin-by-bin variables `β0 + δ` -/
theorem joint_expand (cw : Vec n) (J : Matrix (Fin m) (Fin n) ℝ) (K : Matrix (Fin m) (Fin b) ℝ) (Vi : Mat m)
    (hVi : Vi.PosDef) (s : Vec b) (hs : ∀ k, 0 < s k) (E : Mat n) (x x0 : Vec n) (N : Vec m) (β0 : Vec b) :
    ∃ δ : Vec b, J.mulVec x + K.mulVec (β0 + δ) - N =
        Vi⁻¹.mulVec ((resCov K Vi⁻¹ s)⁻¹.mulVec (J.mulVec x + K.mulVec β0 - N)) ∧
      ∀ η : Vec b, Spec.joint cw J K Vi s E x x0 N β0 (β0 + (δ + η)) =
        ((1 / 2) * (∑ j, cw j * (x j - x0 j) ^ 2) +
          (1 / 2) * ((J.mulVec x + K.mulVec β0 - N) ⬝ᵥ (resCov K Vi⁻¹ s)⁻¹.mulVec (J.mulVec x + K.mulVec β0 - N)) +
          (1 / 2) * (x ⬝ᵥ E.mulVec x)) +
        (1 / 2) * (K.mulVec η ⬝ᵥ Vi.mulVec (K.mulVec η)) + (1 / 2) * (η ⬝ᵥ (diagonal s).mulVec η) := by
  have hM := resCov_posDef (K := K) hVi.inv hs
  have hsVi := (posDef_iff'.1 hVi).1
  set r0 := J.mulVec x + K.mulVec β0 - N with hr0
  set t := (resCov K Vi⁻¹ s)⁻¹.mulVec r0 with ht
  have e1 : (resCov K Vi⁻¹ s).mulVec t = r0 := by rw [ht, mulVec_mulVec, mul_inv_of_posDef hM, one_mulVec]
  clear_value t
  set δ : Vec b := -((diagonal fun k => (s k)⁻¹).mulVec (K.transpose.mulVec t)) with hδ
  have e2 : r0 + K.mulVec δ = Vi⁻¹.mulVec t := by
    rw [← e1, resCov, add_mulVec, hδ, mulVec_neg, mulVec_mulVec, mulVec_mulVec]
    abel
  have e3 : (diagonal s).mulVec δ = -(K.transpose.mulVec t) := by
    rw [hδ, mulVec_neg, mulVec_mulVec, diagonal_mul_diagonal]
    have : (diagonal fun k => s k * (s k)⁻¹) = (1 : Mat b) := by
      rw [← diagonal_one]; congr 1; funext k; exact mul_inv_cancel₀ (hs k).ne'
    rw [this, one_mulVec]
  have e4 : Vi.mulVec (Vi⁻¹.mulVec t) = t := by rw [mulVec_mulVec, mul_inv_of_posDef hVi, one_mulVec]
  refine ⟨δ, by rw [← e2, hr0, mulVec_add]; abel, fun η => ?_⟩
  unfold Spec.joint
  have f1 : J.mulVec x + K.mulVec (β0 + (δ + η)) - N = Vi⁻¹.mulVec t + K.mulVec η := by
    rw [← e2, hr0, mulVec_add, mulVec_add]; abel
  have f2 : ∑ k, s k * ((β0 + (δ + η)) k - β0 k) ^ 2 = (δ + η) ⬝ᵥ (diagonal s).mulVec (δ + η) := by
    simp only [dotProduct, mulVec_diagonal, Pi.add_apply]
    exact Finset.sum_congr rfl fun k _ => by ring
  have hsd : (diagonal s).IsSymm := diagonal_transpose s
  rw [f1, f2, quad_add hsVi, quad_add hsd, e4, symm_dot hsVi (Vi⁻¹.mulVec t), e4, symm_dot hsd δ η, e3]
  have f3 : η ⬝ᵥ -(K.transpose.mulVec t) = -(K.mulVec η ⬝ᵥ t) := by
    rw [dotProduct_neg, ← dot_mulVec_mulVec, dotProduct_comm]
  have f4 : δ ⬝ᵥ -(K.transpose.mulVec t) = -(K.mulVec δ ⬝ᵥ t) := by
    rw [dotProduct_neg, ← dot_mulVec_mulVec, dotProduct_comm]
  have f5 : r0 ⬝ᵥ t = Vi⁻¹.mulVec t ⬝ᵥ t - K.mulVec δ ⬝ᵥ t := by
    rw [← e2, add_dotProduct]; ring
  rw [f3, f4, f5]
  ring

/-- the profiled quadratic loss in closed form -/
theorem profiled (cw : Vec n) (J : Matrix (Fin m) (Fin n) ℝ) (K : Matrix (Fin m) (Fin b) ℝ) (Vi : Mat m)
    (hVi : Vi.PosDef) (s : Vec b) (hs : ∀ k, 0 < s k) (E : Mat n) (x x0 : Vec n) (N : Vec m) (β0 : Vec b) :
    IsLeast (Set.range (Spec.joint cw J K Vi s E x x0 N β0))
      ((1 / 2) * (∑ j, cw j * (x j - x0 j) ^ 2) +
        (1 / 2) * ((J.mulVec x + K.mulVec β0 - N) ⬝ᵥ (resCov K Vi⁻¹ s)⁻¹.mulVec (J.mulVec x + K.mulVec β0 - N)) +
        (1 / 2) * (x ⬝ᵥ E.mulVec x)) := by
  obtain ⟨δ, -, key⟩ := joint_expand cw J K Vi hVi s hs E x x0 N β0
  constructor
  · refine ⟨β0 + (δ + 0), ?_⟩
    rw [key]; simp
  · rintro y ⟨β, rfl⟩
    have hβ : β = β0 + (δ + (β - β0 - δ)) := by abel
    rw [hβ, key]
    have h1 := (posSemidef_iff'.1 hVi.posSemidef).2 (K.mulVec (β - β0 - δ))
    have h2 : 0 ≤ (β - β0 - δ) ⬝ᵥ (diagonal s).mulVec (β - β0 - δ) := by
      simp only [dotProduct, mulVec_diagonal]
      refine Finset.sum_nonneg fun k _ => ?_
      have := mul_nonneg (hs k).le (mul_self_nonneg ((β - β0 - δ) k))
      linarith
    linarith

theorem mixed_quad {p : ℕ} {M : Mat p} (hs : M.IsSymm) (r u w : Vec p) :
    (r + u + w) ⬝ᵥ M.mulVec (r + u + w) - (r + u) ⬝ᵥ M.mulVec (r + u) - (r + w) ⬝ᵥ M.mulVec (r + w) + r ⬝ᵥ M.mulVec r =
      2 * (u ⬝ᵥ M.mulVec w) := by
  simp only [mulVec_add, dotProduct_add, add_dotProduct]
  rw [symm_dot hs w u, symm_dot hs w r, symm_dot hs u r]
  ring

/-- the second derivatives of the profiled quadratic loss -/
theorem gaussian_blocks (cw : Vec n) (J : Matrix (Fin m) (Fin n) ℝ) (K : Matrix (Fin m) (Fin b) ℝ)
    (Vi : Mat m) (hVi : Vi.PosDef) (s : Vec b) (hs : ∀ k, 0 < s k) (E : Mat n) (hE : E.IsSymm)
    (L : Vec n → Vec n → Vec m → Vec b → ℝ)
    (hL : ∀ x x0 N β0, IsLeast (Set.range (Spec.joint cw J K Vi s E x x0 N β0)) (L x x0 N β0))
    (H Px : Mat n) (Pn : Matrix (Fin n) (Fin m) ℝ) (Pb : Matrix (Fin n) (Fin b) ℝ)
    (hH : Spec.mixed (fun x e => L (x + e) 0 0 0) fun d e => d ⬝ᵥ H.mulVec e)
    (hPx : Spec.mixed (fun x x0 => L x x0 0 0) fun d e => d ⬝ᵥ Px.mulVec e)
    (hPn : Spec.mixed (fun x N => L x 0 N 0) fun d e => d ⬝ᵥ Pn.mulVec e)
    (hPb : Spec.mixed (fun x β0 => L x 0 0 β0) fun d e => d ⬝ᵥ Pb.mulVec e) :
    H = diagonal cw + J.transpose * (resCov K Vi⁻¹ s)⁻¹ * J + E ∧ Px = -diagonal cw ∧
      Pn = -(J.transpose * (resCov K Vi⁻¹ s)⁻¹) ∧ Pb = J.transpose * (resCov K Vi⁻¹ s)⁻¹ * K := by
  set M := (resCov K Vi⁻¹ s)⁻¹ with hMdef
  have hRpd := resCov_posDef (K := K) hVi.inv hs
  have hMs : M.IsSymm := (posDef_iff'.1 hRpd.inv).1
  have hF : ∀ x x0 N β0, L x x0 N β0 = (1 / 2) * ((x - x0) ⬝ᵥ (diagonal cw).mulVec (x - x0)) +
        (1 / 2) * ((J.mulVec x + K.mulVec β0 - N) ⬝ᵥ M.mulVec (J.mulVec x + K.mulVec β0 - N)) +
        (1 / 2) * (x ⬝ᵥ E.mulVec x) := by
    intro x x0 N β0
    rw [(hL x x0 N β0).unique (profiled cw J K Vi hVi s hs E x x0 N β0)]
    congr 3
    simp only [dotProduct, mulVec_diagonal, Pi.sub_apply]
    exact Finset.sum_congr rfl fun j _ => by ring
  have hds : (diagonal cw).IsSymm := diagonal_transpose cw
  have eH : H = diagonal cw + J.transpose * M * J + E := by
    refine bil_ext fun u v => ?_
    refine Eq.trans (hH 0 0 u v).symm ?_
    dsimp only
    simp only [hF]
    have q1 := mixed_quad hds 0 u v
    have q2 := mixed_quad hMs 0 (J.mulVec u) (J.mulVec v)
    have q3 := mixed_quad hE 0 u v
    simp only [zero_add, add_zero, sub_zero, mulVec_zero, mulVec_add, zero_dotProduct, mul_zero] at q1 q2 q3 ⊢
    simp only [add_mulVec, dotProduct_add, ← mulVec_mulVec, ← dot_mulVec_mulVec] at q1 q2 q3 ⊢
    rw [dotProduct_comm (M.mulVec (J.mulVec v)) (J.mulVec u)]
    linarith
  have ePx : Px = -diagonal cw := by
    refine bil_ext fun u v => ?_
    refine Eq.trans (hPx 0 0 u v).symm ?_
    dsimp only
    simp only [hF]
    have q1 := mixed_quad hds 0 u (-v)
    simp only [zero_add, add_zero, sub_zero, zero_sub, mulVec_zero, zero_dotProduct, mul_zero,
      ← sub_eq_add_neg] at q1 ⊢
    rw [neg_mulVec, dotProduct_neg, ← dotProduct_neg, ← mulVec_neg]
    linarith
  have ePn : Pn = -(J.transpose * M) := by
    refine bil_ext fun u v => ?_
    refine Eq.trans (hPn 0 0 u v).symm ?_
    dsimp only
    simp only [hF]
    have q2 := mixed_quad hMs 0 (J.mulVec u) (-v)
    simp only [zero_add, add_zero, sub_zero, zero_sub, mulVec_zero, zero_dotProduct, mul_zero,
      ← sub_eq_add_neg] at q2 ⊢
    rw [neg_mulVec, dotProduct_neg, ← mulVec_mulVec, ← dot_mulVec_mulVec,
      dotProduct_comm (M.mulVec v) (J.mulVec u), ← dotProduct_neg, ← mulVec_neg]
    linarith
  have ePb : Pb = J.transpose * M * K := by
    refine bil_ext fun u v => ?_
    refine Eq.trans (hPb 0 0 u v).symm ?_
    dsimp only
    simp only [hF]
    have q2 := mixed_quad hMs 0 (J.mulVec u) (K.mulVec v)
    simp only [zero_add, add_zero, sub_zero, mulVec_zero, zero_dotProduct, mul_zero] at q2 ⊢
    rw [← mulVec_mulVec, ← mulVec_mulVec, ← dot_mulVec_mulVec,
      dotProduct_comm (M.mulVec (K.mulVec v)) (J.mulVec u)]
    linarith
  exact ⟨eH, ePx, ePn, ePb⟩

/-- C38 for gaussian global impacts, with external terms of Hessian `E`.  `L` is the loss after profiling the
bin-by-bin variables; `H`, `Px`, `Pn`, `Pb` are its second derivatives (Hessian and mixed derivatives
with the constraint centres, the data and the bin-by-bin centres) as automatic differentiation delivers
them; the covariance satisfies `C H C = C`.  The variances of the sources are `1/cw` (zero without constraint),
the covariance of the data and `1/s`.  The squared impacts of all sources sum to the variance minus the part that the
external terms contribute. -/
theorem gaussian_sum (cw : Vec n) (J : Matrix (Fin m) (Fin n) ℝ) (K : Matrix (Fin m) (Fin b) ℝ)
    (Vi : Mat m) (hVi : Vi.PosDef) (s : Vec b) (hs : ∀ k, 0 < s k) (E : Mat n) (hE : E.IsSymm)
    (L : Vec n → Vec n → Vec m → Vec b → ℝ)
    (hL : ∀ x x0 N β0, IsLeast (Set.range (Spec.joint cw J K Vi s E x x0 N β0)) (L x x0 N β0))
    (H Px : Mat n) (Pn : Matrix (Fin n) (Fin m) ℝ) (Pb : Matrix (Fin n) (Fin b) ℝ)
    (hH : Spec.mixed (fun x e => L (x + e) 0 0 0) fun d e => d ⬝ᵥ H.mulVec e)
    (hPx : Spec.mixed (fun x x0 => L x x0 0 0) fun d e => d ⬝ᵥ Px.mulVec e)
    (hPn : Spec.mixed (fun x N => L x 0 N 0) fun d e => d ⬝ᵥ Pn.mulVec e)
    (hPb : Spec.mixed (fun x β0 => L x 0 0 β0) fun d e => d ⬝ᵥ Pb.mulVec e)
    (cov : Mat n) (hsym : cov.IsSymm) (hC : cov * H * cov = cov) (i : Fin n) :
    gaussSq (dxdvar cov Px i) (fun j => if cw j = 0 then 0 else (cw j)⁻¹) + gaussCov (dxdvar cov Pn i) Vi +
      gaussSq (dxdvar cov Pb i) (fun k => (s k)⁻¹) = cov i i - cov i ⬝ᵥ E.mulVec (cov i) := by
  obtain ⟨eH, ePx, ePn, ePb⟩ := gaussian_blocks cw J K Vi hVi s hs E hE L hL H Px Pn Pb hH hPx hPn hPb
  set M := (resCov K Vi⁻¹ s)⁻¹ with hMdef
  have hRpd := resCov_posDef (K := K) hVi.inv hs
  have hMs : M.IsSymm := (posDef_iff'.1 hRpd.inv).1
  set c : Vec n := cov i with hc
  have hci : c = cov.mulVec (Pi.single i 1) := by
    rw [mulVec_single_one]; funext k; exact hsym.apply k i
  -- the three contributions as quadratic forms
  have t1 : gaussSq (dxdvar cov Px i) (fun j => if cw j = 0 then 0 else (cw j)⁻¹) = c ⬝ᵥ (diagonal cw).mulVec c := by
    unfold gaussSq
    simp only [dotProduct, mulVec_diagonal]
    refine Finset.sum_congr rfl fun j _ => ?_
    have : dxdvar cov Px i j = c j * cw j := by
      rw [dxdvar, ePx, Matrix.mul_neg, neg_neg, mul_diagonal]
    rw [this]
    split
    · next h => rw [h]; ring
    · next h => field_simp
  have t2 : gaussCov (dxdvar cov Pn i) Vi = M.mulVec (J.mulVec c) ⬝ᵥ Vi⁻¹.mulVec (M.mulVec (J.mulVec c)) := by
    have : dxdvar cov Pn i = M.mulVec (J.mulVec c) := by
      rw [dxdvar, ePn, Matrix.mul_neg, neg_neg]
      funext k
      have : (cov * (J.transpose * M)) i = vecMul c (J.transpose * M) := rfl
      rw [this, ← vecMul_vecMul, vecMul_transpose, ← mulVec_transpose, hMs.eq]
    rw [this]; rfl
  have t3 : gaussSq (dxdvar cov Pb i) (fun k => (s k)⁻¹) =
      K.transpose.mulVec (M.mulVec (J.mulVec c)) ⬝ᵥ
        (diagonal fun k => (s k)⁻¹).mulVec (K.transpose.mulVec (M.mulVec (J.mulVec c))) := by
    have : dxdvar cov Pb i = -(K.transpose.mulVec (M.mulVec (J.mulVec c))) := by
      rw [dxdvar, ePb]
      funext k
      have : (-(cov * (J.transpose * M * K))) i = -(vecMul c (J.transpose * M * K)) := rfl
      rw [this, ← vecMul_vecMul, ← vecMul_vecMul, vecMul_transpose, ← mulVec_transpose, ← mulVec_transpose, hMs.eq]
    unfold gaussSq
    simp only [dotProduct, mulVec_diagonal]
    refine Finset.sum_congr rfl fun j _ => ?_
    rw [this, Pi.neg_apply]; ring
  have t4 : M.mulVec (J.mulVec c) ⬝ᵥ Vi⁻¹.mulVec (M.mulVec (J.mulVec c)) +
      K.transpose.mulVec (M.mulVec (J.mulVec c)) ⬝ᵥ
        (diagonal fun k => (s k)⁻¹).mulVec (K.transpose.mulVec (M.mulVec (J.mulVec c))) =
      J.mulVec c ⬝ᵥ M.mulVec (J.mulVec c) := by
    set y := M.mulVec (J.mulVec c) with hy
    have h1 : (resCov K Vi⁻¹ s).mulVec y = J.mulVec c := by
      rw [hy, hMdef, mulVec_mulVec, mul_inv_of_posDef hRpd, one_mulVec]
    have h2 : ∀ z : Vec b, K.mulVec z ⬝ᵥ y = K.transpose.mulVec y ⬝ᵥ z := fun z => by
      rw [dotProduct_comm, dot_mulVec_mulVec, dotProduct_comm]
    rw [← h1, resCov, add_mulVec, add_dotProduct, ← mulVec_mulVec, ← mulVec_mulVec, h2,
      dotProduct_comm (Vi⁻¹.mulVec y) y]
  have hq : c i = c ⬝ᵥ H.mulVec c := by
    have h1 : c i = Pi.single i 1 ⬝ᵥ cov.mulVec (Pi.single i 1) := (single_quad cov i i).symm
    rw [h1]
    conv_lhs => rw [← hC, ← mulVec_mulVec, ← mulVec_mulVec, ← hci]
    rw [dotProduct_mulVec, ← mulVec_transpose, hsym.eq, ← hci]
  rw [t1, t2, t3, add_assoc, t4, hq, eH]
  simp only [add_mulVec, dotProduct_add, ← mulVec_mulVec, ← dot_mulVec_mulVec]
  rw [dotProduct_comm (M.mulVec (J.mulVec c)) (J.mulVec c)]
  ring

/-- the derivatives used above exist: for every choice of the inputs the profiled loss and its second derivatives
are there -/
theorem gaussian_derivatives (cw : Vec n) (J : Matrix (Fin m) (Fin n) ℝ) (K : Matrix (Fin m) (Fin b) ℝ)
    (Vi : Mat m) (hVi : Vi.PosDef) (s : Vec b) (hs : ∀ k, 0 < s k) (E : Mat n) (hE : E.IsSymm) :
    ∃ (L : Vec n → Vec n → Vec m → Vec b → ℝ) (H Px : Mat n) (Pn : Matrix (Fin n) (Fin m) ℝ)
      (Pb : Matrix (Fin n) (Fin b) ℝ),
      (∀ x x0 N β0, IsLeast (Set.range (Spec.joint cw J K Vi s E x x0 N β0)) (L x x0 N β0)) ∧
      (Spec.mixed (fun x e => L (x + e) 0 0 0) fun d e => d ⬝ᵥ H.mulVec e) ∧
      (Spec.mixed (fun x x0 => L x x0 0 0) fun d e => d ⬝ᵥ Px.mulVec e) ∧
      (Spec.mixed (fun x N => L x 0 N 0) fun d e => d ⬝ᵥ Pn.mulVec e) ∧
      (Spec.mixed (fun x β0 => L x 0 0 β0) fun d e => d ⬝ᵥ Pb.mulVec e) ∧
      H = diagonal cw + J.transpose * (resCov K Vi⁻¹ s)⁻¹ * J + E := by
  set M := (resCov K Vi⁻¹ s)⁻¹ with hMdef
  have hMs : M.IsSymm := (posDef_iff'.1 (resCov_posDef (K := K) hVi.inv hs).inv).1
  have hds : (diagonal cw).IsSymm := diagonal_transpose cw
  refine ⟨fun x x0 N β0 => (1 / 2) * ((x - x0) ⬝ᵥ (diagonal cw).mulVec (x - x0)) +
        (1 / 2) * ((J.mulVec x + K.mulVec β0 - N) ⬝ᵥ M.mulVec (J.mulVec x + K.mulVec β0 - N)) +
        (1 / 2) * (x ⬝ᵥ E.mulVec x), diagonal cw + J.transpose * M * J + E, -diagonal cw, -(J.transpose * M),
    J.transpose * M * K, ?_, ?_, ?_, ?_, ?_, rfl⟩
  · intro x x0 N β0
    have := profiled cw J K Vi hVi s hs E x x0 N β0
    convert this using 4
    simp only [dotProduct, mulVec_diagonal, Pi.sub_apply]
    exact Finset.sum_congr rfl fun j _ => by ring
  · intro x w u v
    dsimp only
    have a1 : x + u + (w + v) = (x + w) + u + v := by abel
    have a2 : x + u + w = (x + w) + u := by abel
    have a3 : x + (w + v) = (x + w) + v := by abel
    have q1 := mixed_quad hds (x + w) u v
    have q2 := mixed_quad hMs (J.mulVec (x + w)) (J.mulVec u) (J.mulVec v)
    have q3 := mixed_quad hE (x + w) u v
    rw [a1, a2, a3]
    simp only [sub_zero, mulVec_zero, add_zero, mulVec_add J (x + w + u) v, mulVec_add J (x + w) u,
      mulVec_add J (x + w) v]
    rw [add_mulVec, add_mulVec, dotProduct_add, dotProduct_add, ← mulVec_mulVec, ← mulVec_mulVec,
      ← dot_mulVec_mulVec, dotProduct_comm (M.mulVec (J.mulVec v)) (J.mulVec u)]
    linarith
  · intro x w u v
    dsimp only
    have q1 := mixed_quad hds (x - w) u (-v)
    have a1 : x + u - (w + v) = (x - w) + u + -v := by abel
    have a2 : x + u - w = (x - w) + u := by abel
    have a3 : x - (w + v) = (x - w) + -v := by abel
    rw [a1, a2, a3, neg_mulVec, dotProduct_neg, ← dotProduct_neg, ← mulVec_neg]
    linarith
  · intro x w u v
    dsimp only
    have q1 := mixed_quad hMs (J.mulVec x - w) (J.mulVec u) (-v)
    simp only [mulVec_zero, add_zero, mulVec_add J x u]
    have a1 : J.mulVec x + J.mulVec u - (w + v) = (J.mulVec x - w) + J.mulVec u + -v := by abel
    have a2 : J.mulVec x + J.mulVec u - w = (J.mulVec x - w) + J.mulVec u := by abel
    have a3 : J.mulVec x - (w + v) = (J.mulVec x - w) + -v := by abel
    rw [a1, a2, a3, neg_mulVec, dotProduct_neg, ← mulVec_mulVec, ← dot_mulVec_mulVec,
      dotProduct_comm (M.mulVec v) (J.mulVec u), ← dotProduct_neg, ← mulVec_neg]
    linarith
  · intro x w u v
    dsimp only
    have q1 := mixed_quad hMs (J.mulVec x + K.mulVec w) (J.mulVec u) (K.mulVec v)
    simp only [sub_zero, mulVec_add J x u, mulVec_add K w v]
    have a1 : J.mulVec x + J.mulVec u + (K.mulVec w + K.mulVec v) =
      (J.mulVec x + K.mulVec w) + J.mulVec u + K.mulVec v := by abel
    have a2 : J.mulVec x + J.mulVec u + K.mulVec w = (J.mulVec x + K.mulVec w) + J.mulVec u := by abel
    have a3 : J.mulVec x + (K.mulVec w + K.mulVec v) = (J.mulVec x + K.mulVec w) + K.mulVec v := by abel
    rw [a1, a2, a3, ← mulVec_mulVec, ← mulVec_mulVec, ← dot_mulVec_mulVec,
      dotProduct_comm (M.mulVec (K.mulVec v)) (J.mulVec u)]
    linarith

/-- C38, gaussian global impacts: constraints, data and bin-by-bin statistics are non-negative and sum exactly to the
variance of every parameter. -/
theorem c38_gaussian (cw : Vec n) (hcw : ∀ j, 0 ≤ cw j) (J : Matrix (Fin m) (Fin n) ℝ) (K : Matrix (Fin m) (Fin b) ℝ)
    (Vi : Mat m) (hVi : Vi.PosDef) (s : Vec b) (hs : ∀ k, 0 < s k)
    (L : Vec n → Vec n → Vec m → Vec b → ℝ)
    (hL : ∀ x x0 N β0, IsLeast (Set.range (Spec.joint cw J K Vi s 0 x x0 N β0)) (L x x0 N β0))
    (H Px : Mat n) (Pn : Matrix (Fin n) (Fin m) ℝ) (Pb : Matrix (Fin n) (Fin b) ℝ)
    (hH : Spec.mixed (fun x e => L (x + e) 0 0 0) fun d e => d ⬝ᵥ H.mulVec e)
    (hPx : Spec.mixed (fun x x0 => L x x0 0 0) fun d e => d ⬝ᵥ Px.mulVec e)
    (hPn : Spec.mixed (fun x N => L x 0 N 0) fun d e => d ⬝ᵥ Pn.mulVec e)
    (hPb : Spec.mixed (fun x β0 => L x 0 0 β0) fun d e => d ⬝ᵥ Pb.mulVec e)
    (cov : Mat n) (hsym : cov.IsSymm) (hC : cov * H * cov = cov) (i : Fin n) :
    gaussSq (dxdvar cov Px i) (fun j => if cw j = 0 then 0 else (cw j)⁻¹) + gaussCov (dxdvar cov Pn i) Vi +
      gaussSq (dxdvar cov Pb i) (fun k => (s k)⁻¹) = cov i i ∧
    0 ≤ gaussSq (dxdvar cov Px i) (fun j => if cw j = 0 then 0 else (cw j)⁻¹) ∧ 0 ≤ gaussCov (dxdvar cov Pn i) Vi ∧
    0 ≤ gaussSq (dxdvar cov Pb i) (fun k => (s k)⁻¹) := by
  refine ⟨?_, ?_, ?_, ?_⟩
  · rw [gaussian_sum cw J K Vi hVi s hs 0 (by simp [IsSymm]) L hL H Px Pn Pb hH hPx hPn hPb cov hsym hC i]
    simp
  · refine Finset.sum_nonneg fun j _ => mul_nonneg (sq_nonneg _) ?_
    dsimp only
    split
    · exact le_rfl
    · exact inv_nonneg.2 (hcw j)
  · exact (posSemidef_iff'.1 hVi.inv.posSemidef).2 _
  · exact Finset.sum_nonneg fun k _ => mul_nonneg (sq_nonneg _) (inv_nonneg.2 (hs k).le)

/-- uncorrelated data: the sum over bins with the variances of the data is the same as the form of the covariance
matrix -/
theorem c38_gaussian_uncorrelated (d var : Vec m) (hvar : ∀ k, 0 < var k) :
    (diagonal fun k => (var k)⁻¹ : Mat m).PosDef ∧ gaussCov d (diagonal fun k => (var k)⁻¹) = gaussSq d var := by
  constructor
  · rw [posDef_iff']
    refine ⟨diagonal_transpose _, fun z hz => ?_⟩
    obtain ⟨k, hk⟩ := Function.ne_iff.1 hz
    simp only [dotProduct, mulVec_diagonal]
    have hnn : ∀ j, 0 ≤ z j * ((var j)⁻¹ * z j) := fun j => by
      rw [mul_left_comm]; exact mul_nonneg (inv_nonneg.2 (hvar j).le) (mul_self_nonneg _)
    refine Finset.sum_pos' (fun j _ => hnn j) ⟨k, Finset.mem_univ _, ?_⟩
    rw [mul_left_comm]
    exact mul_pos (inv_pos.2 (hvar k)) (mul_self_pos.2 hk)
  · have : (diagonal fun k => (var k)⁻¹ : Mat m)⁻¹ = diagonal var := by
      refine inv_eq_left_inv ?_
      rw [diagonal_mul_diagonal, ← diagonal_one]; congr 1; funext k; exact mul_inv_cancel₀ (hvar k).ne'
    unfold gaussCov gaussSq
    rw [this]
    simp only [dotProduct, mulVec_diagonal]
    exact Finset.sum_congr rfl fun k _ => by ring

/-- C38 does not hold with external likelihood terms: their information enters the covariance but no impact accounts
for it, so the gaussian impacts of a parameter the external terms constrain fall short of its variance. -/
theorem c38_external_violated (cw : Vec n) (J : Matrix (Fin m) (Fin n) ℝ) (K : Matrix (Fin m) (Fin b) ℝ)
    (Vi : Mat m) (hVi : Vi.PosDef) (s : Vec b) (hs : ∀ k, 0 < s k) (E : Mat n) (hE : E.PosSemidef)
    (L : Vec n → Vec n → Vec m → Vec b → ℝ)
    (hL : ∀ x x0 N β0, IsLeast (Set.range (Spec.joint cw J K Vi s E x x0 N β0)) (L x x0 N β0))
    (H Px : Mat n) (Pn : Matrix (Fin n) (Fin m) ℝ) (Pb : Matrix (Fin n) (Fin b) ℝ)
    (hH : Spec.mixed (fun x e => L (x + e) 0 0 0) fun d e => d ⬝ᵥ H.mulVec e)
    (hPx : Spec.mixed (fun x x0 => L x x0 0 0) fun d e => d ⬝ᵥ Px.mulVec e)
    (hPn : Spec.mixed (fun x N => L x 0 N 0) fun d e => d ⬝ᵥ Pn.mulVec e)
    (hPb : Spec.mixed (fun x β0 => L x 0 0 β0) fun d e => d ⬝ᵥ Pb.mulVec e)
    (cov : Mat n) (hsym : cov.IsSymm) (hC : cov * H * cov = cov) (i : Fin n) (hne : cov i ⬝ᵥ E.mulVec (cov i) ≠ 0) :
    gaussSq (dxdvar cov Px i) (fun j => if cw j = 0 then 0 else (cw j)⁻¹) + gaussCov (dxdvar cov Pn i) Vi +
      gaussSq (dxdvar cov Pb i) (fun k => (s k)⁻¹) < cov i i := by
  rw [gaussian_sum cw J K Vi hVi s hs E (posSemidef_iff'.1 hE).1 L hL H Px Pn Pb hH hPx hPn hPb cov hsym hC i]
  have := lt_of_le_of_ne ((posSemidef_iff'.1 hE).2 (cov i)) (Ne.symm hne)
  linarith

/-- C38: the squared impact of a group is the sum of the squared impacts of its members; the bin-by-bin statistics
per process sum to the total. -/
theorem c38_groups (sq : Vec n) (hsq : ∀ i, 0 ≤ sq i) (l : List (Fin n)) (hl : l.Nodup) :
    globalGroup sq l ^ 2 = ∑ i ∈ l.toFinset, sq i := by
  rw [globalGroup, Real.sq_sqrt, List.sum_toFinset _ hl]
  exact List.sum_nonneg fun x hx => by
    obtain ⟨j, _, rfl⟩ := List.mem_map.1 hx
    exact hsq j

theorem c38_processes {B : Type} [Fintype B] {np : ℕ} (f : B × Fin np → ℝ) :
    ∃ l, (betaImpacts true f).2 = some l ∧ l.length = np ∧ (l.map (· ^ 2)).sum = (betaImpacts true f).1 ^ 2 ∧
      (betaImpacts true f).1 ^ 2 = ∑ k, f k ^ 2 ∧ (betaImpacts false f).1 = (betaImpacts true f).1 := by
  have hnn : ∀ p : Fin np, 0 ≤ ∑ i, f (i, p) ^ 2 := fun p => Finset.sum_nonneg fun i _ => sq_nonneg _
  refine ⟨_, rfl, by simp, ?_, ?_, rfl⟩
  · simp only [betaImpacts, List.map_ofFn, List.sum_ofFn, Function.comp]
    rw [Real.sq_sqrt (Finset.sum_nonneg fun p _ => hnn p)]
    exact Finset.sum_congr rfl fun p _ => Real.sq_sqrt (hnn p)
  · simp only [betaImpacts]
    rw [Real.sq_sqrt (Finset.sum_nonneg fun p _ => hnn p), Fintype.sum_prod_type_right]

/-! ### C44 -/

/-- C44.  For a quadratic loss at its minimum with respect to the floating parameters, with the covariance computed
for the same frozen parameters, the warm start for a floating parameter and either side leaves frozen parameters where they
are, lies on the requested level (`nll - nll_min = q/2`), and no point of the region inside the level that keeps
the frozen parameters goes further in the scanned parameter. -/
theorem c44_warm_start (parms : Fin n → String) (frozen : List String) (prev : Mat n) (quad : Quad n)
    (hs : quad.H.IsSymm) (hpos : Spec.posOnFloating (fun i => parms i ∈ frozen) quad.H) (x : Vec n)
    (hmin : ∀ i, parms i ∉ frozen → (quad.g + quad.H.mulVec x) i = 0) (grad : Vec n) (idx : Fin n)
    (hidx : parms idx ∉ frozen) (q sign : ℝ) (hq : 0 ≤ q) (hsign : sign = 1 ∨ sign = -1) (fi : List (Fin n))
    (hfi : ∀ i, i ∈ fi ↔ parms i ∈ frozen) :
    ∃ edm cov, fitterEdmvalCov parms frozen prev grad quad.H = .ok (edm, cov) ∧
      (∀ i, parms i ∈ frozen → warmStart cov idx q sign fi x i = x i) ∧
      quad.val (warmStart cov idx q sign fi x) = quad.val x + q / 2 ∧
      (∀ z, (∀ i, parms i ∈ frozen → z i = x i) → quad.val z ≤ quad.val x + q / 2 →
        sign * (z idx - x idx) ≤ sign * (warmStart cov idx q sign fi x idx - x idx)) := by
  obtain ⟨edm, cov, hcov, hinv, hsy, _⟩ := c35_covariance_partial parms frozen prev grad quad.H hs hpos
  refine ⟨edm, cov, hcov, ?_⟩
  have hgd : ∀ i, parms i ∈ frozen → gaussDx cov idx q fi i = 0 := by
    intro i hi
    unfold gaussDx
    rw [if_pos (by simpa using (hfi i).2 hi)]
  set c : Vec n := fun j => if parms j ∈ frozen then 0 else cov j idx with hc
  have hHc : ∀ e : Vec n, (∀ j, parms j ∈ frozen → e j = 0) → e ⬝ᵥ quad.H.mulVec c = e idx := by
    intro e he
    have h1 : ∀ j, parms j ∉ frozen → quad.H.mulVec c j = if idx = j then 1 else 0 := by
      intro j hj
      rw [← hinv idx j hidx hj]
      simp only [mulVec, dotProduct, hc]
      refine Finset.sum_congr rfl fun k _ => ?_
      by_cases hk : parms k ∈ frozen
      · simp [hk]
      · rw [if_neg hk, if_pos hk, hs.apply, hsy idx k hidx hk, mul_comm]
    simp only [dotProduct]
    rw [Finset.sum_eq_single idx]
    · rw [h1 idx hidx, if_pos rfl, mul_one]
    · intro j _ hj
      by_cases hf : parms j ∈ frozen
      · rw [he j hf, zero_mul]
      · rw [h1 j hf, if_neg (Ne.symm hj), mul_zero]
    · intro h; exact absurd (Finset.mem_univ _) h
  have hc0 : ∀ j, parms j ∈ frozen → c j = 0 := fun j hj => by simp only [hc, if_pos hj]
  have hcc : c ⬝ᵥ quad.H.mulVec c = cov idx idx := by rw [hHc c hc0]; simp only [hc, if_neg hidx]
  have hpos' : ∀ z : Vec n, (∀ j, parms j ∈ frozen → z j = 0) → 0 ≤ z ⬝ᵥ quad.H.mulVec z := by
    intro z hz
    by_cases h0 : z = 0
    · subst h0; simp
    · rw [quadForm_eq]; exact (hpos z hz h0).le
  have hσ : 0 < cov idx idx := by
    rw [← hcc, quadForm_eq]
    refine hpos c hc0 fun h0 => ?_
    have := hHc (Pi.single idx 1) (fun j hj => by
      rw [Pi.single_eq_of_ne]; rintro rfl; exact hidx hj)
    rw [h0] at this
    simp at this
  have hσ' := Real.sqrt_pos.2 hσ
  -- displacement
  set k : ℝ := sign * (Real.sqrt q / Real.sqrt (cov idx idx)) with hk
  have hw : warmStart cov idx q sign fi x = x + k • c := by
    funext j
    simp only [warmStart, Pi.add_apply, Pi.smul_apply, smul_eq_mul]
    by_cases hj : parms j ∈ frozen
    · rw [hgd j hj, hc0 j hj]; ring
    · have : fi.contains j = false := by
        rw [Bool.eq_false_iff]; intro h; exact hj ((hfi j).1 (by simpa using h))
      simp only [gaussDx, this, hc, if_neg hj, hk]
      simp only [Bool.false_eq_true, if_false]
      ring
  have hexp : ∀ e : Vec n, (∀ j, parms j ∈ frozen → e j = 0) →
      quad.val (x + e) = quad.val x + (1 / 2) * (e ⬝ᵥ quad.H.mulVec e) := by
    intro e he
    have hlin : e ⬝ᵥ (quad.g + quad.H.mulVec x) = 0 := by
      simp only [dotProduct]
      refine Finset.sum_eq_zero fun j _ => ?_
      by_cases hj : parms j ∈ frozen
      · rw [he j hj, zero_mul]
      · rw [hmin j hj, mul_zero]
    rw [dotProduct_add] at hlin
    unfold Quad.val
    rw [quad_add hs, symm_dot hs x e, dotProduct_add, dotProduct_comm quad.g e]
    linarith
  have hsign2 : sign * sign = 1 := by rcases hsign with rfl | rfl <;> norm_num
  have hkk : k * k * cov idx idx = q := by
    rw [hk]
    have h1 := Real.mul_self_sqrt hq
    have h2 := Real.mul_self_sqrt hσ.le
    field_simp
    rw [pow_two, pow_two, pow_two, hsign2, h1, h2]
    ring
  refine ⟨fun i hi => ?_, ?_, ?_⟩
  · rw [hw]; simp [hc0 i hi]
  · rw [hw, hexp _ (fun j hj => by simp [hc0 j hj]), mulVec_smul, dotProduct_smul, smul_dotProduct, hcc]
    simp only [smul_eq_mul]
    linarith
  · intro z hz hzv
    set e := z - x with he
    have he0 : ∀ j, parms j ∈ frozen → e j = 0 := fun j hj => by simp [he, hz j hj]
    have hzx : z = x + e := by rw [he]; abel
    rw [hzx, hexp e he0] at hzv
    have hcs := cs_of hs e c fun t => hpos' _ fun j hj => by simp [he0 j hj, hc0 j hj]
    rw [hHc e he0, hcc] at hcs
    have hb : e idx ^ 2 ≤ q * cov idx idx := hcs.trans (mul_le_mul_of_nonneg_right (by linarith) hσ.le)
    have habs : |e idx| ≤ Real.sqrt q * Real.sqrt (cov idx idx) := by
      rw [← Real.sqrt_mul hq]; exact Real.abs_le_sqrt hb
    have hgoal : sign * (warmStart cov idx q sign fi x idx - x idx) = Real.sqrt q * Real.sqrt (cov idx idx) := by
      rw [hw]
      simp only [Pi.add_apply, Pi.smul_apply, smul_eq_mul, add_sub_cancel_left, hk, hc, if_neg hidx]
      have h2 := Real.mul_self_sqrt hσ.le
      field_simp
      rw [pow_two, pow_two, hsign2, h2, one_mul]
    rw [hgoal]
    refine le_trans ?_ habs
    have : z idx - x idx = e idx := rfl
    rw [this]
    rcases hsign with rfl | rfl
    · rw [one_mul]; exact le_abs_self _
    · rw [neg_one_mul]; exact neg_le_abs _

/-! ### C63 -/

section Propagated

variable {O K : Type} [Fintype K] [DecidableEq K]

/-- C63: the diagonal of the covariance of the predictions equals the variances computed without it, and both
computations fail together. -/
theorem c63_diagonal (cov : Mat n) (J : Matrix O (Fin n) ℝ) (bb : Option (BetaPart O K)) :
    (∀ M, expCov cov J bb = .ok M → expVar cov J bb = .ok fun o => M o o) ∧
    (∀ e, expCov cov J bb = .error e → expVar cov J bb = .error e) := by
  have h1 : ∀ o, (J * (cov * J.transpose)) o o = ∑ j, ∑ k, J o j * cov j k * J o k := by
    intro o
    simp only [mul_apply, transpose_apply, Finset.mul_sum, mul_assoc]
  unfold expCov expVar
  cases bb with
  | none =>
    refine ⟨fun M h => ?_, nofun⟩
    cases h
    simp only [h1]
  | some b =>
    dsimp only
    cases hs : b.solve with
    | error e => exact ⟨nofun, fun e' h => by cases h; rfl⟩
    | ok s =>
      refine ⟨fun M h => ?_, nofun⟩
      cases h
      refine congrArg Except.ok (funext fun o => ?_)
      rw [Matrix.add_apply, h1, mul_apply]

namespace Spec

/-- second derivative of the loss with respect to the bin-by-bin variables that are varied, as needed: positive -/
def betaPositive : BetaPart O K → Prop
  | .diag mask l2 _ => ∀ k, mask k = false → 0 < l2 k
  | .full S _ => S.PosDef

/-- the prediction depends on no bin-by-bin variable that is varied -/
def betaIndependent (o : O) : BetaPart O K → Prop
  | .diag mask _ Jb => ∀ k, mask k = false → Jb o k = 0
  | .full _ Jb => ∀ k, Jb o k = 0

end Spec

/-- C63: variances are non-negative. -/
theorem c63_nonneg (cov : Mat n) (hC : cov.PosSemidef) (J : Matrix O (Fin n) ℝ) (bb : Option (BetaPart O K))
    (hb : ∀ b ∈ bb, Spec.betaPositive b) : ∃ v, expVar cov J bb = .ok v ∧ ∀ o, 0 ≤ v o := by
  have h1 : ∀ o, 0 ≤ ∑ j, ∑ k, J o j * cov j k * J o k := by
    intro o
    have := (posSemidef_iff'.1 hC).2 (J o)
    rwa [quadForm_eq] at this
  unfold expVar
  cases bb with
  | none => exact ⟨_, rfl, h1⟩
  | some b =>
    have hb := hb b rfl
    cases b with
    | diag mask l2 Jb =>
      refine ⟨_, rfl, fun o => add_nonneg (h1 o) (Finset.sum_nonneg fun k _ => ?_)⟩
      simp only [BetaPart.jac, of_apply]
      split
      · simp
      · next hm =>
        rw [← mul_div_assoc]
        exact div_nonneg (mul_self_nonneg _) (hb k (by simpa using hm)).le
    | full S Jb =>
      have hS : S.PosDef := hb
      have hd : S.det ≠ 0 := ((isUnit_iff_isUnit_det _).1 hS.isUnit).ne_zero
      dsimp only [BetaPart.solve]
      rw [if_neg hd]
      refine ⟨_, rfl, fun o => add_nonneg (h1 o) ?_⟩
      have := hS.inv.posSemidef.dotProduct_mulVec_nonneg (Jb o)
      simpa only [BetaPart.jac, mul_apply, transpose_apply, dotProduct, mulVec, star_trivial] using this

/-- C63: reordering the parameters changes nothing. -/
theorem c63_reorder (cov : Mat n) (J : Matrix O (Fin n) ℝ) (bb : Option (BetaPart O K)) (e : Fin n ≃ Fin n) :
    expVar (cov.submatrix e e) (J.submatrix id e) bb = expVar cov J bb ∧
    expCov (cov.submatrix e e) (J.submatrix id e) bb = expCov cov J bb := by
  have h1 : ∀ o, ∑ j, ∑ k, (J.submatrix id e) o j * (cov.submatrix e e) j k * (J.submatrix id e) o k =
      ∑ j, ∑ k, J o j * cov j k * J o k := by
    intro o
    simp only [submatrix_apply, id]
    rw [Equiv.sum_comp e fun j => ∑ k, J o j * cov j (e k) * J o (e k)]
    exact Finset.sum_congr rfl fun j _ => Equiv.sum_comp e fun k => J o j * cov j k * J o k
  have h2 : J.submatrix id e * (cov.submatrix e e * (J.submatrix id e).transpose) = J * (cov * J.transpose) := by
    rw [transpose_submatrix, submatrix_mul_equiv, submatrix_mul_equiv, submatrix_id_id]
  unfold expVar expCov
  cases bb with
  | none => simp only [h1, h2, and_self]
  | some b =>
    dsimp only
    cases b.solve <;> simp only [h1, h2, and_self]

/-- C63, predictions without floating dependence, for a covariance whose rows and columns of frozen parameters are
zero (missing part: the reported covariance is not of this form, see `c63_frozen_violated`). -/
theorem c63_zero_partial (cov : Mat n) (frozen : Fin n → Prop)
    (hf : ∀ j, frozen j → ∀ k, cov j k = 0) (J : Matrix O (Fin n) ℝ)
    (bb : Option (BetaPart O K)) (o : O) (hJ : ∀ j, ¬ frozen j → J o j = 0)
    (hb : ∀ b ∈ bb, Spec.betaIndependent o b) (v : O → ℝ) (h : expVar cov J bb = .ok v) : v o = 0 := by
  have h1 : ∑ j, ∑ k, J o j * cov j k * J o k = 0 := by
    refine Finset.sum_eq_zero fun j _ => Finset.sum_eq_zero fun k _ => ?_
    by_cases hj : frozen j
    · rw [hf j hj]; ring
    · rw [hJ j hj]; ring
  unfold expVar at h
  cases bb with
  | none => cases h; exact h1
  | some b =>
    have hb := hb b rfl
    dsimp only at h
    cases b with
    | diag mask l2 Jb =>
      cases h
      dsimp only
      rw [h1, zero_add]
      refine Finset.sum_eq_zero fun k _ => ?_
      simp only [BetaPart.jac, of_apply]
      split
      · simp
      · next hm => rw [hb k (by simpa using hm)]; simp
    | full S Jb =>
      dsimp only [BetaPart.solve] at h
      split at h
      · cases h
      · next s hs =>
        cases h
        dsimp only
        rw [h1, zero_add]
        refine Finset.sum_eq_zero fun k _ => ?_
        have : (BetaPart.full S Jb).jac o k = 0 := hb k
        rw [this, zero_mul]

/-- C63 does not hold for frozen parameters with a constraint: after a fit that started from the defaults a
prediction that depends only on such a parameter gets the variance `J² / cw`. -/
theorem c63_frozen_violated (parms : Fin n → String) (frozen : List String) (cw : Vec n) (hcw : ∀ j, 0 ≤ cw j)
    (grad : Vec n) (err : ℝ) (H : Mat n) (hs : H.IsSymm)
    (hpos : Spec.posOnFloating (fun i => parms i ∈ frozen) H) (i : Fin n) (hi : parms i ∈ frozen) (hi0 : cw i ≠ 0)
    (J : Matrix O (Fin n) ℝ) (o : O) (hJ : ∀ j, j ≠ i → J o j = 0) (hJi : J o i ≠ 0) :
    ∃ edm cov v, fitterEdmvalCov parms frozen (diagonal fun i => if cw i = 0 then err ^ 2 else (cw i)⁻¹) grad H =
      .ok (edm, cov) ∧ expVar (K := K) cov J none = .ok v ∧ v o = J o i ^ 2 / cw i ∧ 0 < v o := by
  obtain ⟨edm, cov, h, h2, _⟩ := c35_frozen_violated parms frozen cw grad err H hs hpos i hi hi0
  have hv : ∑ j, ∑ k, J o j * cov j k * J o k = J o i ^ 2 / cw i := by
    rw [Finset.sum_eq_single i, Finset.sum_eq_single i, h2]
    · field_simp
    · intro k _ hk; rw [hJ k hk, mul_zero]
    · intro hh; exact absurd (Finset.mem_univ _) hh
    · intro j _ hj; exact Finset.sum_eq_zero fun k _ => by rw [hJ j hj]; ring
    · intro hh; exact absurd (Finset.mem_univ _) hh
  refine ⟨edm, cov, _, h, rfl, hv, ?_⟩
  rw [hv]
  exact div_pos (sq_pos_of_ne_zero hJi) (lt_of_le_of_ne (hcw i) (Ne.symm hi0))

/-- C63: the variation of a prediction along one parameter with its correlations never exceeds the uncertainty of the
prediction from the parameters. -/
theorem c63_variations (cov : Mat n) (hC : cov.PosSemidef) (J : Matrix O (Fin n) ℝ) (o : O) (j : Fin n) (d : ℝ)
    (h : variation true cov J o j = some d) (v : O → ℝ) (hv : expVar (K := K) cov J none = .ok v) :
    |d| ≤ Real.sqrt (v o) ∧ downUp 0 d = (-d, d) := by
  refine ⟨?_, by simp [downUp]⟩
  unfold variation at h
  rw [if_pos rfl] at h
  split at h
  · cases h
  · next hne =>
    cases h
    cases hv
    have hs := (posSemidef_iff'.1 hC).1
    have hpos : 0 < Real.sqrt (cov j j) := lt_of_le_of_ne (Real.sqrt_nonneg _) (Ne.symm hne)
    have h1 : ∑ k, J o k * (cov k j / Real.sqrt (cov j j)) = (J o ⬝ᵥ cov.mulVec (Pi.single j 1)) / Real.sqrt (cov j j) := by
      rw [mulVec_single_one, dotProduct, Finset.sum_div]
      exact Finset.sum_congr rfl fun k _ => by rw [col_apply]; ring
    rw [h1, abs_div, abs_of_pos hpos, div_le_iff₀ hpos]
    have h2 := cs hC (J o) (Pi.single j 1)
    rw [single_quad, quadForm_eq (z := J o)] at h2
    have hnn : 0 ≤ ∑ i, ∑ k, J o i * cov i k * J o k := by
      rw [← quadForm_eq]; exact (posSemidef_iff'.1 hC).2 _
    rw [← Real.sqrt_mul hnn]
    exact Real.abs_le_sqrt h2

/-- a parameter without variance makes its column of variations NaN -/
theorem c63_variation_nan (cov : Mat n) (J : Matrix O (Fin n) ℝ) (o : O) (j : Fin n) (h : cov j j = 0) :
    variation true cov J o j = none := by
  simp [variation, h]

end Propagated

/-! ### examples -/

namespace Ex

def cov : Mat 2 := !![2, 1; 1, 2]

theorem cov_posDef : cov.PosDef := by
  rw [posDef_iff']
  refine ⟨Verif.Cov.Ex.H_symm, fun z hz => ?_⟩
  rw [quadForm_eq]
  exact Verif.Cov.Ex.H_pos (fun _ => False) z (fun _ h => h.elim) hz

end Ex

/-- one POI and one nuisance with correlated covariance, a systematic group of the nuisance and a parameter group
of both: the call succeeds, and its single-member group has the absolute individual impact -/
example : ∃ imp cols, impactsParms (ns := 1) Ex.cov (Matrix.diagonal fun _ => 1) none 1 [] [[0]] 1 [[0, 1]] = .ok (imp, cols) ∧
    ∃ col x v, cols[0]? = some col ∧ col[0]? = some x ∧ imp[0]? = some v ∧ x = |v 1| ∧ v 0 = Real.sqrt 2 := by
  obtain ⟨imp, cols, h⟩ := impactsParms_succeeds (ns := 1) Ex.cov Ex.cov_posDef (Matrix.diagonal fun _ => 1) none 1 []
    [[0]] 1 [[0, 1]] (.inl rfl) (by simp) (by simp)
  refine ⟨imp, cols, h, ?_⟩
  have hr : Spec.reports (n := 2) 1 1 [] 0 0 := .inl ⟨by norm_num, rfl⟩
  obtain ⟨col, x, h1, h2, _, _, h5, _⟩ := c37_groups Ex.cov Ex.cov_posDef.posSemidef (Matrix.diagonal fun _ => 1) none 1 []
    [[0]] 1 [[0, 1]] (by norm_num) imp cols h 0 0 hr 0 (fun i => i = 1)
    (.inl ⟨[0], rfl, fun i => by fin_cases i <;> simp⟩)
  obtain ⟨v, hv, _, h4, _⟩ := c37_single Ex.cov Ex.cov_posDef.posSemidef (Matrix.diagonal fun _ => 1) none 1 []
    [[0]] 1 [[0, 1]] (by norm_num) imp cols h 0 0 hr
  exact ⟨col, x, v, h1, h2, hv, h5 1 v (fun k => Iff.rfl) hv, by rw [h4]; simp [Ex.cov]⟩

/-- the gaussian decomposition for two parameters, two bins and two bin-by-bin variables; all hypotheses are met -/
example : ∃ (Px : Mat 2) (Pn Pb C : Mat 2), C.PosDef ∧ ∀ i,
    gaussSq (dxdvar C Px i) (fun j => if (![1, 0] : Vec 2) j = 0 then 0 else ((![1, 0] : Vec 2) j)⁻¹) +
      gaussCov (dxdvar C Pn i) Ex.cov + gaussSq (dxdvar C Pb i) (fun k => ((fun _ => 3 : Vec 2) k)⁻¹) = C i i := by
  obtain ⟨L, H, Px, Pn, Pb, hL, hH, hx, hn, hb, hHe⟩ := gaussian_derivatives (n := 2) (m := 2) (b := 2) ![1, 0] 1 1 Ex.cov
    Ex.cov_posDef (fun _ => 3) (fun _ => by norm_num) 0 (by simp [IsSymm])
  have hR := resCov_posDef (K := (1 : Mat 2)) Ex.cov_posDef.inv (s := fun _ => 3) (fun _ => by norm_num)
  have hHp : H.PosDef := by
    rw [hHe, transpose_one, one_mul, mul_one, add_zero]
    refine PosDef.posSemidef_add ?_ hR.inv
    rw [posSemidef_iff']
    refine ⟨diagonal_transpose _, fun z => ?_⟩
    simp only [dotProduct, mulVec_diagonal, Fin.sum_univ_two]
    simp
    exact mul_self_nonneg _
  refine ⟨Px, Pn, Pb, H⁻¹, hHp.inv, fun i => ?_⟩
  refine (c38_gaussian ![1, 0] (fun j => by fin_cases j <;> simp) 1 1 Ex.cov Ex.cov_posDef (fun _ => 3)
    (fun _ => by norm_num) L hL H Px Pn Pb hH hx hn hb H⁻¹ (posDef_iff'.1 hHp.inv).1 ?_ i).1
  rw [inv_mul_of_posDef hHp, one_mul]

/-- an external term on a single parameter -/
example : ∃ (L : Vec 1 → Vec 1 → Vec 1 → Vec 0 → ℝ) (H Px Pn : Mat 1) (Pb : Matrix (Fin 1) (Fin 0) ℝ) (C : Mat 1),
    (∀ x x0 N β0, IsLeast (Set.range (Spec.joint (fun _ => 1) 1 0 1 (fun _ => 1) 1 x x0 N β0)) (L x x0 N β0)) ∧
    C * H * C = C ∧
    gaussSq (dxdvar C Px 0) (fun j => if (fun _ => 1 : Vec 1) j = 0 then 0 else ((fun _ => 1 : Vec 1) j)⁻¹) +
      gaussCov (dxdvar C Pn 0) 1 + gaussSq (dxdvar C Pb 0) (fun k => ((fun _ => 1 : Vec 0) k)⁻¹) < C 0 0 := by
  obtain ⟨L, H, Px, Pn, Pb, hL, hH, hx, hn, hb, hHe⟩ := gaussian_derivatives (n := 1) (m := 1) (b := 0) (fun _ => 1) 1 0 1
    PosDef.one (fun _ => 1) (fun k => k.elim0) 1 (by simp [IsSymm])
  have hHp : H.PosDef := by
    rw [hHe, transpose_one, one_mul, mul_one]
    refine PosDef.posSemidef_add ?_ PosDef.one
    refine PosSemidef.add ?_ (resCov_posDef (K := (0 : Matrix (Fin 1) (Fin 0) ℝ)) PosDef.one.inv (fun k => k.elim0)).inv.posSemidef
    have : (diagonal fun _ => 1 : Mat 1) = 1 := diagonal_one
    rw [this]; exact PosDef.one.posSemidef
  have hC : H⁻¹ * H * H⁻¹ = H⁻¹ := by rw [inv_mul_of_posDef hHp, one_mul]
  refine ⟨L, H, Px, Pn, Pb, H⁻¹, hL, hC, ?_⟩
  refine c38_external_violated (fun _ => 1) 1 0 1 PosDef.one (fun _ => 1) (fun k => k.elim0) 1 PosDef.one.posSemidef L hL H Px Pn
    Pb hH hx hn hb H⁻¹ (posDef_iff'.1 hHp.inv).1 hC 0 ?_
  have := hHp.inv.diag_pos (i := (0 : Fin 1))
  simp only [one_mulVec, dotProduct, Finset.univ_unique, Finset.sum_singleton, Fin.default_eq_zero]
  exact (mul_pos this this).ne'

/-- warm start of a scan of `mu` with `theta` frozen -/
example : ∃ edm cov, fitterEdmvalCov Verif.Cov.Ex.parms ["theta"] 0 0 Verif.Cov.Ex.H = .ok (edm, cov) ∧
    Quad.val ⟨0, ![-2, 0], Verif.Cov.Ex.H⟩ (warmStart cov 0 4 (-1) [1] ![1, 0]) =
      Quad.val ⟨0, ![-2, 0], Verif.Cov.Ex.H⟩ ![1, 0] + 4 / 2 := by
  obtain ⟨edm, cov, h, _, h2, _⟩ := c44_warm_start Verif.Cov.Ex.parms ["theta"] 0 ⟨0, ![-2, 0], Verif.Cov.Ex.H⟩
    Verif.Cov.Ex.H_symm (Verif.Cov.Ex.H_pos _) ![1, 0]
    (by intro i hi; fin_cases i
        · simp [Verif.Cov.Ex.H]
        · simp [Verif.Cov.Ex.parms] at hi) 0 0 (by simp [Verif.Cov.Ex.parms]) 4 (-1) (by norm_num) (.inr rfl) [1]
    (by intro i; fin_cases i <;> simp [Verif.Cov.Ex.parms])
  exact ⟨edm, cov, h, h2⟩

/-- a prediction of two correlated parameters and a masked bin-by-bin variable -/
example : ∃ v, expVar (K := Fin 2) Ex.cov (Matrix.of fun (_ : Unit) => ![1, -1])
    (some (.diag ![false, true] ![2, 0] (Matrix.of fun _ => ![1, 5]))) = .ok v ∧ 0 ≤ v () := by
  obtain ⟨v, h, h2⟩ := c63_nonneg (K := Fin 2) Ex.cov Ex.cov_posDef.posSemidef (Matrix.of fun (_ : Unit) => ![1, -1])
    (some (.diag ![false, true] ![2, 0] (Matrix.of fun _ => ![1, 5]))) (by
      intro b hb; cases hb; intro k hk; fin_cases k
      · simp
      · simp at hk)
  exact ⟨v, h, h2 ()⟩

/-- labels of a traditional table with a systematic group, bin-by-bin statistics and a parameter group -/
example : ∃ imp cols, impactsParms (ns := 1) Ex.cov 1 (some 1) 1 [] [[0]] 1
      ((resolvedParamGroups ![ "mu", "theta"] [] [("model", ["mu", "unknown"]), ("none", ["unknown"])]).map Prod.snd) =
        .ok (imp, cols) ∧ cols.length = 4 ∧
    groupedAxis ["lumi"] ["sig", "bkg"] true false
      ((resolvedParamGroups ![ "mu", "theta"] ([] : List (Fin 2)) [("model", ["mu", "unknown"]), ("none", ["unknown"])]).map Prod.fst) =
        ["lumi", "stat", "binByBinStat", "model"] := by
  have hres : resolvedParamGroups ![ "mu", "theta"] ([] : List (Fin 2)) [("model", ["mu", "unknown"]), ("none", ["unknown"])] =
      [("model", [0])] := by decide +kernel
  obtain ⟨imp, cols, h⟩ := impactsParms_succeeds (ns := 1) Ex.cov Ex.cov_posDef 1 (some 1) 1 []
    [[0]] 1 ((resolvedParamGroups ![ "mu", "theta"] ([] : List (Fin 2)) [("model", ["mu", "unknown"]), ("none", ["unknown"])]).map Prod.snd)
    (.inl rfl) (by simp) (by rw [hres]; simp)
  refine ⟨imp, cols, h, ?_, by rw [hres]; rfl⟩
  have hinj : Function.Injective ![ "mu", "theta"] := by
    intro a b hab
    fin_cases a <;> fin_cases b <;> simp at hab ⊢
  have := (c39_traditional Ex.cov Ex.cov_posDef.posSemidef 1 (some 1) 1 [] ["lumi"] [[0]] rfl 1 ![ "mu", "theta"] hinj []
    [("model", ["mu", "unknown"]), ("none", ["unknown"])] ["sig", "bkg"] (by norm_num) (by norm_num) imp cols h)
  rw [← this.2.length_eq, ← List.length_map (f := Prod.fst), ← this.1, hres]
  rfl

end

end Verif.Impacts
