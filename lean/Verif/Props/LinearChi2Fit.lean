import Verif.Props.LinearChi2

/-
C71: the linear chi-square before and after the fit of a linear Gaussian model.
-/

namespace Verif.Chi2

open Verif.Cov Verif.Impacts Matrix

noncomputable section

variable {n m b p : ℕ}

namespace Spec

/-- Fit of a linear Gaussian model.  `L` is the loss after profiling the bin-by-bin variables, which take the values
`bh`; `H`, `Px`, `Pn`, `Pb` are its second derivatives; `Rx`, `Rn`, `Rb` are the partial derivatives of the
residuals `A (J x + K bh − N)`. -/
structure Fit (cw : Vec n) (J : Matrix (Fin m) (Fin n) ℝ) (K : Matrix (Fin m) (Fin b) ℝ) (Vi : Mat m) (s : Vec b)
    (L : Vec n → Vec n → Vec m → Vec b → ℝ) (H Px : Mat n) (Pn : Matrix (Fin n) (Fin m) ℝ) (Pb : Matrix (Fin n) (Fin b) ℝ)
    (bh : Vec n → Vec m → Vec b → Vec b) (A : Matrix (Fin p) (Fin m) ℝ) (Rx : Matrix (Fin p) (Fin n) ℝ)
    (Rn : Matrix (Fin p) (Fin m) ℝ) (Rb : Matrix (Fin p) (Fin b) ℝ) : Prop where
  least : ∀ x x0 N β0, IsLeast (Set.range (Impacts.Spec.joint cw J K Vi s 0 x x0 N β0)) (L x x0 N β0)
  attained : ∀ x x0 N β0, Impacts.Spec.joint cw J K Vi s 0 x x0 N β0 (bh x N β0) = L x x0 N β0
  hess : Impacts.Spec.mixed (fun x e => L (x + e) 0 0 0) fun d e => d ⬝ᵥ H.mulVec e
  dx0 : Impacts.Spec.mixed (fun x x0 => L x x0 0 0) fun d e => d ⬝ᵥ Px.mulVec e
  dn : Impacts.Spec.mixed (fun x N => L x 0 N 0) fun d e => d ⬝ᵥ Pn.mulVec e
  db : Impacts.Spec.mixed (fun x β0 => L x 0 0 β0) fun d e => d ⬝ᵥ Pb.mulVec e
  res : ∀ x N β0 dx dN dβ, A.mulVec (J.mulVec (x + dx) + K.mulVec (bh (x + dx) (N + dN) (β0 + dβ)) - (N + dN)) =
    A.mulVec (J.mulVec x + K.mulVec (bh x N β0) - N) + Rx.mulVec dx + Rn.mulVec dN + Rb.mulVec dβ

/-- how a chi-square fit or a covariance fit stores the inverse covariance `Vi` of the data -/
def Stored (Vi : Mat m) : DataUnc (Fin m) → Prop
  | .covInv W => W = Vi
  | .var v => (∀ k, v k ≠ 0) ∧ Vi = diagonal fun k => (v k)⁻¹

end Spec

theorem mulVec_ext {A B : Matrix (Fin p) (Fin n) ℝ} (h : ∀ v, A.mulVec v = B.mulVec v) : A = B := by
  ext i j
  have := congrFun (h (Pi.single j 1)) i
  simpa using this

/-- the residuals after profiling the bin-by-bin variables -/
theorem bh_res {cw : Vec n} {J : Matrix (Fin m) (Fin n) ℝ} {K : Matrix (Fin m) (Fin b) ℝ} {Vi : Mat m} (hVi : Vi.PosDef)
    {s : Vec b} (hs : ∀ k, 0 < s k) {x x0 : Vec n} {N : Vec m} {β0 β : Vec b} {l : ℝ}
    (hl : IsLeast (Set.range (Impacts.Spec.joint cw J K Vi s 0 x x0 N β0)) l)
    (hβ : Impacts.Spec.joint cw J K Vi s 0 x x0 N β0 β = l) :
    J.mulVec x + K.mulVec β - N = Vi⁻¹.mulVec ((resCov K Vi⁻¹ s)⁻¹.mulVec (J.mulVec x + K.mulVec β0 - N)) := by
  obtain ⟨δ, h1, h2⟩ := joint_expand cw J K Vi hVi s hs 0 x x0 N β0
  have hu := hl.unique (profiled cw J K Vi hVi s hs 0 x x0 N β0)
  have he : β = β0 + (δ + (β - β0 - δ)) := by abel
  rw [he, h2, hu] at hβ
  set η := β - β0 - δ with hη
  have q1 := (posSemidef_iff'.1 hVi.posSemidef).2 (K.mulVec η)
  have q2 : η ⬝ᵥ (diagonal s).mulVec η = ∑ k, s k * η k ^ 2 := by
    simp only [dotProduct, mulVec_diagonal]
    exact Finset.sum_congr rfl fun k _ => by ring
  have q3 : ∑ k, s k * η k ^ 2 = 0 := by
    refine le_antisymm (by linarith) (Finset.sum_nonneg fun k _ => mul_nonneg (hs k).le (sq_nonneg _))
  have q4 : η = 0 := by
    funext k
    have := (Finset.sum_eq_zero_iff_of_nonneg fun k _ => mul_nonneg (hs k).le (sq_nonneg (η k))).1 q3 k (Finset.mem_univ _)
    rcases mul_eq_zero.1 this with h | h
    · exact absurd h (hs k).ne'
    · exact pow_eq_zero_iff (two_ne_zero) |>.1 h
  rw [← h1, he, q4, add_zero]

/-- the matrix that turns prefit residuals into the gradient of the fitted loss -/
def qMat (J : Matrix (Fin m) (Fin n) ℝ) (M : Mat m) (cov : Mat n) : Mat m := M - M * J * cov * J.transpose * M

section blocks

variable {cw : Vec n} {J : Matrix (Fin m) (Fin n) ℝ} {K : Matrix (Fin m) (Fin b) ℝ} {Vi : Mat m} {s : Vec b}
  {L : Vec n → Vec n → Vec m → Vec b → ℝ} {H Px : Mat n} {Pn : Matrix (Fin n) (Fin m) ℝ} {Pb : Matrix (Fin n) (Fin b) ℝ}
  {bh : Vec n → Vec m → Vec b → Vec b} {A : Matrix (Fin p) (Fin m) ℝ} {Rx : Matrix (Fin p) (Fin n) ℝ}
  {Rn : Matrix (Fin p) (Fin m) ℝ} {Rb : Matrix (Fin p) (Fin b) ℝ}

/-- partial derivatives of the residuals -/
theorem res_blocks (hf : Spec.Fit cw J K Vi s L H Px Pn Pb bh A Rx Rn Rb) (hVi : Vi.PosDef) (hs : ∀ k, 0 < s k) :
    Rx = A * Vi⁻¹ * (resCov K Vi⁻¹ s)⁻¹ * J ∧ Rn = -(A * Vi⁻¹ * (resCov K Vi⁻¹ s)⁻¹) ∧
      Rb = A * Vi⁻¹ * (resCov K Vi⁻¹ s)⁻¹ * K := by
  have hr : ∀ x N β0, J.mulVec x + K.mulVec (bh x N β0) - N =
      Vi⁻¹.mulVec ((resCov K Vi⁻¹ s)⁻¹.mulVec (J.mulVec x + K.mulVec β0 - N)) :=
    fun x N β0 => bh_res hVi hs (hf.least x 0 N β0) (hf.attained x 0 N β0)
  have h := fun dx dN dβ => hf.res 0 0 0 dx dN dβ
  simp only [hr] at h
  simp only [zero_add, mulVec_zero, sub_zero] at h
  refine ⟨mulVec_ext fun v => ?_, mulVec_ext fun v => ?_, mulVec_ext fun v => ?_⟩
  · have := h v 0 0
    simp only [mulVec_zero, add_zero, sub_zero] at this
    rw [← this]; simp only [mulVec_mulVec, Matrix.mul_assoc]
  · have := h 0 v 0
    simp only [mulVec_zero, add_zero, zero_add, zero_sub] at this
    rw [← this]; simp only [mulVec_neg, neg_mulVec, mulVec_mulVec, Matrix.mul_assoc]
  · have := h 0 0 v
    simp only [mulVec_zero, add_zero, zero_add, sub_zero] at this
    rw [← this]; simp only [mulVec_mulVec, Matrix.mul_assoc]

/-- total derivatives of the residuals as the code forms them -/
theorem total_blocks (hf : Spec.Fit cw J K Vi s L H Px Pn Pb bh A Rx Rn Rb) (hVi : Vi.PosDef) (hs : ∀ k, 0 < s k)
    (cov : Mat n) :
    dndvar 0 Rx (dxdvar cov Px) = A * Vi⁻¹ * ((resCov K Vi⁻¹ s)⁻¹ * J * cov * diagonal cw) ∧
    dndvar Rn Rx (dxdvar cov Pn) = -(A * Vi⁻¹ * qMat J (resCov K Vi⁻¹ s)⁻¹ cov) ∧
    dndvar Rb Rx (dxdvar cov Pb) = A * Vi⁻¹ * (qMat J (resCov K Vi⁻¹ s)⁻¹ cov * K) := by
  obtain ⟨-, ePx, ePn, ePb⟩ := gaussian_blocks cw J K Vi hVi s hs 0 (by simp [IsSymm]) L hf.least H Px Pn Pb
    hf.hess hf.dx0 hf.dn hf.db
  obtain ⟨e1, e2, e3⟩ := res_blocks hf hVi hs
  unfold dndvar dxdvar qMat
  rw [ePx, ePn, ePb, e1, e2, e3]
  refine ⟨?_, ?_, ?_⟩
  · simp only [Matrix.mul_neg, neg_neg, zero_add, Matrix.mul_assoc]
  · simp only [Matrix.mul_neg, neg_neg, Matrix.mul_sub, Matrix.mul_assoc]
    abel
  · simp only [Matrix.mul_neg, Matrix.mul_sub, Matrix.sub_mul, Matrix.mul_assoc]
    abel

end blocks

theorem sandwich_eq {V : Type} [Fintype V] [DecidableEq V] {O : Type} (D : Matrix O V ℝ) (v : V → ℝ) :
    sandwich D v = D * diagonal v * D.transpose := by
  unfold sandwich
  rw [Matrix.mul_assoc]
  congr 1
  ext a o
  rw [diagonal_mul, of_apply, transpose_apply]

theorem resCovProfiled_eq {Vi : Mat m} (hVi : Vi.PosDef) {unc : DataUnc (Fin m)} (hu : Spec.Stored Vi unc)
    (D0 : Matrix (Fin p) (Fin n) ℝ) (v0 : Vec n) (D : Matrix (Fin p) (Fin m) ℝ) (Db : Matrix (Fin p) (Fin b) ℝ)
    (bb : BetaUnc (Fin b)) :
    resCovProfiled D0 v0 D unc Db (some bb) =
      .ok (sandwich D0 v0 + D * Vi⁻¹ * D.transpose + sandwich Db bb.varBeta0) := by
  cases unc with
  | covInv W =>
    replace hu : W = Vi := hu
    subst hu
    have hd : W.det ≠ 0 := ((isUnit_iff_isUnit_det _).1 hVi.isUnit).ne_zero
    simp only [resCovProfiled, solve, if_neg hd, Matrix.mul_assoc]
  | var v =>
    obtain ⟨h1, h2⟩ := hu
    have : Vi⁻¹ = diagonal v := by
      refine inv_eq_left_inv ?_
      rw [h2, diagonal_mul_diagonal, ← diagonal_one]
      congr 1; funext k; exact mul_inv_cancel₀ (h1 k)
    simp only [resCovProfiled, sandwich_eq D v, this]

section fit

variable {cw : Vec n} {J : Matrix (Fin m) (Fin n) ℝ} {K : Matrix (Fin m) (Fin b) ℝ} {Vi : Mat m} {s : Vec b}

/-- `M J C W C Jᵀ M + Q R Q = Q` -/
theorem q_identity (hVi : Vi.PosDef) (hs : ∀ k, 0 < s k) {H cov : Mat n} (hC : cov * H * cov = cov)
    (hH : H = diagonal cw + J.transpose * (resCov K Vi⁻¹ s)⁻¹ * J) :
    (resCov K Vi⁻¹ s)⁻¹ * J * cov * diagonal cw * cov * J.transpose * (resCov K Vi⁻¹ s)⁻¹ +
      qMat J (resCov K Vi⁻¹ s)⁻¹ cov * resCov K Vi⁻¹ s * qMat J (resCov K Vi⁻¹ s)⁻¹ cov =
      qMat J (resCov K Vi⁻¹ s)⁻¹ cov := by
  have hR := resCov_posDef (K := K) hVi.inv hs
  set R := resCov K Vi⁻¹ s
  have h1 : R⁻¹ * R = 1 := inv_mul_of_posDef hR
  have h2 : R * R⁻¹ = 1 := mul_inv_of_posDef hR
  set M := R⁻¹
  set X := M * J * cov * J.transpose * M with hX
  have hXRM : X * R * M = X := by rw [Matrix.mul_assoc, h2, Matrix.mul_one]
  have hMRX : M * R * X = X := by rw [h1, Matrix.one_mul]
  have hMRM : M * R * M = M := by rw [h1, Matrix.one_mul]
  have hXRX : X * R * X = X - M * J * cov * diagonal cw * cov * J.transpose * M := by
    have e : X * R = M * J * cov * J.transpose := by rw [hX, Matrix.mul_assoc _ M R, h1, Matrix.mul_one]
    have e2 : J.transpose * M * J = H - diagonal cw := by rw [hH]; abel
    calc X * R * X = M * J * cov * (J.transpose * M * J) * cov * J.transpose * M := by
          rw [e, hX]; simp only [Matrix.mul_assoc]
      _ = M * J * (cov * H * cov) * J.transpose * M - M * J * cov * diagonal cw * cov * J.transpose * M := by
          rw [e2]; simp only [Matrix.mul_sub, Matrix.sub_mul, Matrix.mul_assoc]
      _ = X - M * J * cov * diagonal cw * cov * J.transpose * M := by rw [hC]
  unfold qMat
  rw [← hX, Matrix.sub_mul, Matrix.sub_mul, Matrix.mul_sub, Matrix.mul_sub, hMRM, hMRX, hXRM, hXRX]
  abel

theorem qMat_symm (hVi : Vi.PosDef) (hs : ∀ k, 0 < s k) {cov : Mat n} (hsym : cov.IsSymm) :
    (qMat J (resCov K Vi⁻¹ s)⁻¹ cov).transpose = qMat J (resCov K Vi⁻¹ s)⁻¹ cov := by
  have hMs : (resCov K Vi⁻¹ s)⁻¹.transpose = (resCov K Vi⁻¹ s)⁻¹ :=
    (posDef_iff'.1 (resCov_posDef (K := K) hVi.inv hs).inv).1
  unfold qMat
  rw [transpose_sub, transpose_mul, transpose_mul, transpose_mul, transpose_mul, transpose_transpose, hMs, hsym.eq]
  simp only [Matrix.mul_assoc]

variable {L : Vec n → Vec n → Vec m → Vec b → ℝ} {H Px : Mat n} {Pn : Matrix (Fin n) (Fin m) ℝ} {Pb : Matrix (Fin n) (Fin b) ℝ}
  {bh : Vec n → Vec m → Vec b → Vec b} {A : Matrix (Fin p) (Fin m) ℝ} {Rx : Matrix (Fin p) (Fin n) ℝ}
  {Rn : Matrix (Fin p) (Fin m) ℝ} {Rb : Matrix (Fin p) (Fin b) ℝ}

/-- prefit variances of the parameters: zero without constraint -/
def varX0 (cw : Vec n) : Vec n := fun j => if cw j = 0 then 0 else (cw j)⁻¹

theorem cw_var (cw : Vec n) : diagonal cw * diagonal (varX0 cw) * diagonal cw = diagonal cw := by
  rw [diagonal_mul_diagonal, diagonal_mul_diagonal]
  congr 1
  funext j
  unfold varX0
  by_cases h : cw j = 0
  · rw [if_pos h, h]; ring
  · rw [if_neg h]; field_simp

/-- covariance of the postfit residuals in closed form -/
theorem resCov_closed (hf : Spec.Fit cw J K Vi s L H Px Pn Pb bh A Rx Rn Rb) (hVi : Vi.PosDef) (hs : ∀ k, 0 < s k)
    (cov : Mat n) (hsym : cov.IsSymm) (hC : cov * H * cov = cov) (unc : DataUnc (Fin m)) (hu : Spec.Stored Vi unc)
    (mask : Option (Fin b → Bool)) (hmask : ∀ f, mask = some f → ∀ k, f k = false) :
    resCovProfiled (dndvar 0 Rx (dxdvar cov Px)) (varX0 cw) (dndvar Rn Rx (dxdvar cov Pn)) unc
      (dndvar Rb Rx (dxdvar cov Pb)) (some ⟨s, fun k => -s k, mask⟩) =
      .ok (A * Vi⁻¹ * qMat J (resCov K Vi⁻¹ s)⁻¹ cov * (A * Vi⁻¹).transpose) := by
  obtain ⟨eH, -, -, -⟩ := gaussian_blocks cw J K Vi hVi s hs 0 (by simp [IsSymm]) L hf.least H Px Pn Pb
    hf.hess hf.dx0 hf.dn hf.db
  rw [add_zero] at eH
  obtain ⟨t1, t2, t3⟩ := total_blocks hf hVi hs cov
  have hMs : (resCov K Vi⁻¹ s)⁻¹.transpose = (resCov K Vi⁻¹ s)⁻¹ :=
    (posDef_iff'.1 (resCov_posDef (K := K) hVi.inv hs).inv).1
  have hq := q_identity (J := J) (K := K) hVi hs hC eH
  have hqs := qMat_symm (J := J) (K := K) hVi hs hsym
  have hvb : (BetaUnc.varBeta0 ⟨s, fun k => -s k, mask⟩ : Fin b → ℝ) = fun k => (s k)⁻¹ := by
    funext k
    have hk := (hs k).ne'
    have : s k / (-s k) ^ 2 = (s k)⁻¹ := by field_simp
    unfold BetaUnc.varBeta0
    cases mask with
    | none => exact this
    | some f => dsimp only; rw [hmask f rfl k]; simpa using this
  rw [resCovProfiled_eq hVi hu, hvb, sandwich_eq, sandwich_eq, t1, t2, t3]
  set M := (resCov K Vi⁻¹ s)⁻¹
  set Q := qMat J M cov
  set G := A * Vi⁻¹
  congr 1
  have hRexp : resCov K Vi⁻¹ s = Vi⁻¹ + K * diagonal (fun k => (s k)⁻¹) * K.transpose := rfl
  have f1 : G * (M * J * cov * diagonal cw) * diagonal (varX0 cw) * (G * (M * J * cov * diagonal cw)).transpose =
      G * (M * J * cov * diagonal cw * cov * J.transpose * M) * G.transpose := by
    rw [transpose_mul, transpose_mul, transpose_mul, transpose_mul, hMs, hsym.eq, diagonal_transpose]
    calc _ = G * (M * J * cov * (diagonal cw * diagonal (varX0 cw) * diagonal cw) * cov * J.transpose * M) * G.transpose := by
          simp only [Matrix.mul_assoc]
      _ = _ := by rw [cw_var]
  have f2 : -(G * Q) * Vi⁻¹ * (-(G * Q)).transpose = G * (Q * Vi⁻¹ * Q) * G.transpose := by
    rw [transpose_neg, transpose_mul, hqs]
    simp only [Matrix.mul_neg, Matrix.neg_mul, neg_neg, Matrix.mul_assoc]
  have f3 : G * (Q * K) * diagonal (fun k => (s k)⁻¹) * (G * (Q * K)).transpose =
      G * (Q * (K * diagonal (fun k => (s k)⁻¹) * K.transpose) * Q) * G.transpose := by
    rw [transpose_mul, transpose_mul, hqs]
    simp only [Matrix.mul_assoc]
  rw [f1, f2, f3]
  conv_rhs => rw [← hq, hRexp]
  simp only [Matrix.mul_add, Matrix.add_mul]
  abel

/-- position of the minimum -/
theorem minimum_closed (hf : Spec.Fit cw J K Vi s L H Px Pn Pb bh A Rx Rn Rb) (hVi : Vi.PosDef) (hs : ∀ k, 0 < s k)
    (hcw : ∀ j, 0 ≤ cw j) (cov : Mat n) (hC : cov * H = 1) (x0 : Vec n) (N : Vec m) (β0 : Vec b) (x : Vec n)
    (hx : ∀ y, L x x0 N β0 ≤ L y x0 N β0) :
    cov.IsSymm ∧
    x = x0 - cov.mulVec (J.transpose.mulVec ((resCov K Vi⁻¹ s)⁻¹.mulVec (J.mulVec x0 + K.mulVec β0 - N))) ∧
    (resCov K Vi⁻¹ s)⁻¹.mulVec (J.mulVec x + K.mulVec β0 - N) =
      (qMat J (resCov K Vi⁻¹ s)⁻¹ cov).mulVec (J.mulVec x0 + K.mulVec β0 - N) := by
  obtain ⟨eH, -, -, -⟩ := gaussian_blocks cw J K Vi hVi s hs 0 (by simp [IsSymm]) L hf.least H Px Pn Pb
    hf.hess hf.dx0 hf.dn hf.db
  rw [add_zero] at eH
  have hRpd := resCov_posDef (K := K) hVi.inv hs
  set M := (resCov K Vi⁻¹ s)⁻¹ with hM
  have hMs : M.IsSymm := (posDef_iff'.1 hRpd.inv).1
  have hds : (diagonal cw).IsSymm := diagonal_transpose cw
  have hHs : H.IsSymm := by
    rw [eH]
    unfold IsSymm
    rw [transpose_add, transpose_mul, transpose_mul, transpose_transpose, hMs.eq, diagonal_transpose, Matrix.mul_assoc]
  have hquad : ∀ η : Vec n, η ⬝ᵥ H.mulVec η = (∑ j, cw j * η j ^ 2) + J.mulVec η ⬝ᵥ M.mulVec (J.mulVec η) := by
    intro η
    rw [eH, add_mulVec, dotProduct_add, ← mulVec_mulVec, ← mulVec_mulVec, ← dot_mulVec_mulVec,
      dotProduct_comm (M.mulVec (J.mulVec η))]
    congr 1
    simp only [dotProduct, mulVec_diagonal]
    exact Finset.sum_congr rfl fun j _ => by ring
  have hHp : H.PosSemidef := posSemidef_iff'.2 ⟨hHs, fun η => by
    rw [hquad]
    exact add_nonneg (Finset.sum_nonneg fun j _ => mul_nonneg (hcw j) (sq_nonneg _))
      ((posSemidef_iff'.1 hRpd.inv.posSemidef).2 _)⟩
  have hdet : H.det ≠ 0 := by
    intro h0
    have := congrArg det hC
    rw [det_mul, h0, mul_zero, det_one] at this
    exact zero_ne_one this
  have hHC : H * cov = 1 := mul_eq_one_comm.1 hC
  have hpd := posDef_of_det hHp hdet
  have hcovs : cov.IsSymm := by
    have : cov = H⁻¹ := (inv_eq_left_inv hC).symm
    rw [this]; exact (posDef_iff'.1 hpd.inv).1
  set e0 := J.mulVec x0 + K.mulVec β0 - N with he0
  set g := J.transpose.mulVec (M.mulVec e0) with hg
  set xs := x0 - cov.mulVec g with hxs
  have hF : ∀ y, L y x0 N β0 = (1 / 2) * (∑ j, cw j * (y j - x0 j) ^ 2) +
      (1 / 2) * ((J.mulVec y + K.mulVec β0 - N) ⬝ᵥ M.mulVec (J.mulVec y + K.mulVec β0 - N)) := by
    intro y
    rw [(hf.least y x0 N β0).unique (profiled cw J K Vi hVi s hs 0 y x0 N β0), zero_mulVec, dotProduct_zero]
    ring
  have hes : J.mulVec xs + K.mulVec β0 - N = e0 - J.mulVec (cov.mulVec g) := by
    rw [hxs, mulVec_sub, he0]; abel
  have hexp : ∀ η, L (xs + η) x0 N β0 = L xs x0 N β0 + (1 / 2) * (η ⬝ᵥ H.mulVec η) := by
    intro η
    rw [hF, hF, hquad]
    have a1 : J.mulVec (xs + η) + K.mulVec β0 - N = (e0 - J.mulVec (cov.mulVec g)) + J.mulVec η := by
      rw [mulVec_add, ← hes]; abel
    rw [a1, hes, quad_add hMs]
    have a2 : ∑ j, cw j * ((xs + η) j - x0 j) ^ 2 =
        ∑ j, cw j * (xs j - x0 j) ^ 2 - 2 * (η ⬝ᵥ (diagonal cw).mulVec (cov.mulVec g)) + ∑ j, cw j * η j ^ 2 := by
      simp only [dotProduct, mulVec_diagonal, Finset.mul_sum, ← Finset.sum_sub_distrib, ← Finset.sum_add_distrib, hxs,
        Pi.add_apply, Pi.sub_apply]
      exact Finset.sum_congr rfl fun j _ => by ring
    have a3 : (e0 - J.mulVec (cov.mulVec g)) ⬝ᵥ M.mulVec (J.mulVec η) =
        η ⬝ᵥ (diagonal cw).mulVec (cov.mulVec g) := by
      have hgeq : H.mulVec (cov.mulVec g) = g := by rw [mulVec_mulVec, hHC, one_mulVec]
      have b1 : (e0 - J.mulVec (cov.mulVec g)) ⬝ᵥ M.mulVec (J.mulVec η) =
          η ⬝ᵥ (g - (J.transpose * M * J).mulVec (cov.mulVec g)) := by
        rw [symm_dot hMs, mulVec_sub, dotProduct_sub, dotProduct_sub, hg, ← mulVec_mulVec, ← mulVec_mulVec,
          ← dot_mulVec_mulVec, ← dot_mulVec_mulVec, dotProduct_comm, dotProduct_comm (J.mulVec η)]
      rw [b1]
      congr 1
      have : (J.transpose * M * J).mulVec (cov.mulVec g) = g - (diagonal cw).mulVec (cov.mulVec g) := by
        have h5 : (diagonal cw).mulVec (cov.mulVec g) + (J.transpose * M * J).mulVec (cov.mulVec g) = g := by
          rw [← add_mulVec, ← eH, hgeq]
        rw [eq_sub_iff_add_eq, add_comm]; exact h5
      rw [this]; abel
    rw [a2, a3]; ring
  have hx0 : x = xs := by
    have h1 := hx xs
    have h2 := hexp (x - xs)
    rw [add_sub_cancel] at h2
    by_contra hne
    have h3 := (posDef_iff'.1 hpd).2 (x - xs) (sub_ne_zero.2 hne)
    linarith
  refine ⟨hcovs, hx0, ?_⟩
  rw [hx0, hes, hg]
  unfold qMat
  rw [sub_mulVec, mulVec_sub]
  simp only [mulVec_mulVec, Matrix.mul_assoc]

/-- C71: the derivatives that the code combines are those of the postfit residuals.  When constraint centres, data and
bin-by-bin centres move, the residuals at the new minimum move by the computed matrices times the shifts. -/
theorem c71_response (hf : Spec.Fit cw J K Vi s L H Px Pn Pb bh A Rx Rn Rb) (hVi : Vi.PosDef) (hs : ∀ k, 0 < s k)
    (hcw : ∀ j, 0 ≤ cw j) (cov : Mat n) (hC : cov * H = 1) (xh : Vec n → Vec m → Vec b → Vec n)
    (hx : ∀ x0 N β0 y, L (xh x0 N β0) x0 N β0 ≤ L y x0 N β0) (x0 dx : Vec n) (N dN : Vec m) (β0 dβ : Vec b) :
    let ρ := fun x0 N β0 => A.mulVec (J.mulVec (xh x0 N β0) + K.mulVec (bh (xh x0 N β0) N β0) - N)
    ρ (x0 + dx) (N + dN) (β0 + dβ) = ρ x0 N β0 + (dndvar 0 Rx (dxdvar cov Px)).mulVec dx +
      (dndvar Rn Rx (dxdvar cov Pn)).mulVec dN + (dndvar Rb Rx (dxdvar cov Pb)).mulVec dβ := by
  intro ρ
  obtain ⟨eH, -, -, -⟩ := gaussian_blocks cw J K Vi hVi s hs 0 (by simp [IsSymm]) L hf.least H Px Pn Pb
    hf.hess hf.dx0 hf.dn hf.db
  rw [add_zero] at eH
  obtain ⟨t1, t2, t3⟩ := total_blocks hf hVi hs cov
  have hρ : ∀ x0 N β0, ρ x0 N β0 = (A * Vi⁻¹).mulVec ((qMat J (resCov K Vi⁻¹ s)⁻¹ cov).mulVec
      (J.mulVec x0 + K.mulVec β0 - N)) := by
    intro x0 N β0
    obtain ⟨-, -, h⟩ := minimum_closed hf hVi hs hcw cov hC x0 N β0 _ (hx x0 N β0)
    show A.mulVec _ = _
    rw [bh_res hVi hs (hf.least _ x0 N β0) (hf.attained _ x0 N β0), h, mulVec_mulVec]
  have hQJ : qMat J (resCov K Vi⁻¹ s)⁻¹ cov * J = (resCov K Vi⁻¹ s)⁻¹ * J * cov * diagonal cw := by
    unfold qMat
    have : J.transpose * (resCov K Vi⁻¹ s)⁻¹ * J = H - diagonal cw := by rw [eH]; abel
    calc _ = (resCov K Vi⁻¹ s)⁻¹ * J - (resCov K Vi⁻¹ s)⁻¹ * J * cov * (J.transpose * (resCov K Vi⁻¹ s)⁻¹ * J) := by
          simp only [Matrix.sub_mul, Matrix.mul_assoc]
      _ = (resCov K Vi⁻¹ s)⁻¹ * J - ((resCov K Vi⁻¹ s)⁻¹ * J * (cov * H) -
          (resCov K Vi⁻¹ s)⁻¹ * J * cov * diagonal cw) := by
          rw [this]; simp only [Matrix.mul_sub, Matrix.mul_assoc]
      _ = _ := by rw [hC, Matrix.mul_one]; abel
  rw [hρ, hρ, t1, t2, t3, ← hQJ]
  have e : J.mulVec (x0 + dx) + K.mulVec (β0 + dβ) - (N + dN) =
      (J.mulVec x0 + K.mulVec β0 - N) + J.mulVec dx - dN + K.mulVec dβ := by
    rw [mulVec_add, mulVec_add]; abel
  rw [e]
  simp only [mulVec_add, mulVec_sub, neg_mulVec, mulVec_mulVec, Matrix.mul_assoc]
  abel

/-- C71: a linear Gaussian fit in which every parameter is constrained.  For the histogram of all bins (`A = 1`) the linear
chi-square computed before the fit from the prediction at the constraint centres, and the one computed after the
fit from the profiled residuals, agree; both are twice the minimum of the loss, with as many degrees of freedom as
bins. -/
theorem c71_gaussian {Rx : Matrix (Fin m) (Fin n) ℝ} {Rn : Mat m} {Rb : Matrix (Fin m) (Fin b) ℝ}
    (hf : Spec.Fit cw J K Vi s L H Px Pn Pb bh (1 : Mat m) Rx Rn Rb) (hVi : Vi.PosDef) (hs : ∀ k, 0 < s k)
    (hcw : ∀ j, 0 < cw j) (cov : Mat n) (hC : cov * H = 1) (unc : DataUnc (Fin m)) (hu : Spec.Stored Vi unc)
    (mask : Option (Fin b → Bool)) (hmask : ∀ f, mask = some f → ∀ k, f k = false)
    (x0 : Vec n) (N : Vec m) (β0 : Vec b) (x : Vec n) (hx : ∀ y, L x x0 N β0 ≤ L y x0 N β0)
    (var : Option (Vec m)) (covInv : Option (Mat m))
    (hin : (var, covInv) = match (unc : DataUnc (Fin m)) with | .covInv W => (none, some W) | .var v => (some v, none))
    (pinv : Mat m → Mat m) :
    ∃ r0 C0 C1, residuals id N var covInv (J.mulVec x0 + K.mulVec β0) (diagonal fun j => (cw j)⁻¹) J
        (some (.diag (fun _ => false) s K)) = .ok (r0, C0) ∧
      resCovProfiled (dndvar 0 Rx (dxdvar cov Px)) (varX0 cw) (dndvar Rn Rx (dxdvar cov Pn)) unc
        (dndvar Rb Rx (dxdvar cov Pb)) (some ⟨s, fun k => -s k, mask⟩) = .ok C1 ∧
      chi2 pinv r0 C0 0 = .ok (2 * L x x0 N β0, m) ∧
      chi2 pinv (J.mulVec x + K.mulVec (bh x N β0) - N) C1 0 = .ok (2 * L x x0 N β0, m) := by
  obtain ⟨hsym, hxs, hmq⟩ := minimum_closed hf hVi hs (fun j => (hcw j).le) cov hC x0 N β0 x hx
  have hCHC : cov * H * cov = cov := by rw [hC, Matrix.one_mul]
  obtain ⟨eH, -, -, -⟩ := gaussian_blocks cw J K Vi hVi s hs 0 (by simp [IsSymm]) L hf.least H Px Pn Pb
    hf.hess hf.dx0 hf.dn hf.db
  rw [add_zero] at eH
  have hclosed := resCov_closed hf hVi hs cov hsym hCHC unc hu mask hmask
  have hRpd := resCov_posDef (K := K) hVi.inv hs
  have hMs : (resCov K Vi⁻¹ s)⁻¹.IsSymm := (posDef_iff'.1 hRpd.inv).1
  have hqi := q_identity (J := J) (K := K) hVi hs hCHC eH
  have hqs : (qMat J (resCov K Vi⁻¹ s)⁻¹ cov).IsSymm := qMat_symm (J := J) (K := K) hVi hs hsym
  have hrm : (resCov K Vi⁻¹ s) * (resCov K Vi⁻¹ s)⁻¹ = 1 := mul_inv_of_posDef hRpd
  have hmr : (resCov K Vi⁻¹ s)⁻¹ * (resCov K Vi⁻¹ s) = 1 := inv_mul_of_posDef hRpd
  -- the prefit covariance is the inverse of `Q`
  have hQ : qMat J (resCov K Vi⁻¹ s)⁻¹ cov *
      (resCov K Vi⁻¹ s + J * diagonal (fun j => (cw j)⁻¹) * J.transpose) = 1 := by
    set R := resCov K Vi⁻¹ s
    set M := R⁻¹
    set Wi := diagonal fun j => (cw j)⁻¹ with hWi
    have hw : diagonal cw * Wi = 1 := by
      rw [hWi, diagonal_mul_diagonal, ← diagonal_one]
      congr 1; funext j; exact mul_inv_cancel₀ (hcw j).ne'
    have e2 : J.transpose * M * J = H - diagonal cw := by rw [eH]; abel
    unfold qMat
    have a1 : (M - M * J * cov * J.transpose * M) * R = 1 - M * J * cov * J.transpose := by
      rw [Matrix.sub_mul, hmr, Matrix.mul_assoc _ M R, hmr, Matrix.mul_one]
    have a2 : (M - M * J * cov * J.transpose * M) * (J * Wi * J.transpose) = M * J * cov * J.transpose := by
      calc _ = M * J * Wi * J.transpose - M * J * cov * (J.transpose * M * J) * Wi * J.transpose := by
            simp only [Matrix.sub_mul, Matrix.mul_assoc]
        _ = M * J * Wi * J.transpose - (M * J * (cov * H) * Wi * J.transpose -
            M * J * cov * (diagonal cw * Wi) * J.transpose) := by
            rw [e2]; simp only [Matrix.mul_sub, Matrix.sub_mul, Matrix.mul_assoc]
        _ = _ := by rw [hC, hw, Matrix.mul_one, Matrix.mul_one]; abel
    rw [Matrix.mul_add, a1, a2]; abel
  set Q := qMat J (resCov K Vi⁻¹ s)⁻¹ cov with hQdef
  set e0 := J.mulVec x0 + K.mulVec β0 - N with he0
  -- the minimum of the loss
  have hmin : 2 * L x x0 N β0 = e0 ⬝ᵥ Q.mulVec e0 := by
    rw [(hf.least x x0 N β0).unique (profiled cw J K Vi hVi s hs 0 x x0 N β0), zero_mulVec, dotProduct_zero]
    set M := (resCov K Vi⁻¹ s)⁻¹
    set R := resCov K Vi⁻¹ s
    have h1 : J.mulVec x + K.mulVec β0 - N = R.mulVec (Q.mulVec e0) := by
      rw [← hmq, mulVec_mulVec, hrm, one_mulVec]
    have h2 : ∑ j, cw j * (x j - x0 j) ^ 2 = e0 ⬝ᵥ (M * J * cov * diagonal cw * cov * J.transpose * M).mulVec e0 := by
      have : ∀ j, x j - x0 j = -(cov.mulVec (J.transpose.mulVec (M.mulVec e0)) j) := by
        intro j; rw [hxs]; simp
      simp only [this, neg_sq]
      set w := cov.mulVec (J.transpose.mulVec (M.mulVec e0)) with hw
      have e1 : ∑ j, cw j * w j ^ 2 = w ⬝ᵥ (diagonal cw).mulVec w := by
        simp only [dotProduct, mulVec_diagonal]
        exact Finset.sum_congr rfl fun j _ => by ring
      rw [e1]
      simp only [← mulVec_mulVec, ← hw]
      rw [symm_dot hMs e0, dotProduct_comm (J.mulVec _), dot_mulVec_mulVec J,
        dotProduct_comm (cov.mulVec ((diagonal cw).mulVec w)), symm_dot hsym (J.transpose.mulVec (M.mulVec e0)), ← hw,
        dotProduct_comm w]
    rw [h2, hmq, h1]
    have h3 : R.mulVec (Q.mulVec e0) ⬝ᵥ Q.mulVec e0 = e0 ⬝ᵥ (Q * R * Q).mulVec e0 := by
      rw [symm_dot hqs]
      simp only [mulVec_mulVec, Matrix.mul_assoc]
    rw [h3]
    conv_rhs => rw [← hqi, add_mulVec, dotProduct_add]
    ring
  have hdQ : Q.det ≠ 0 := by
    intro h0
    have := congrArg det hQ
    rw [det_mul, h0, zero_mul, det_one] at this
    exact zero_ne_one this
  have hQu : IsUnit Q.det := isUnit_iff_ne_zero.2 hdQ
  have hV : Spec.IsDataCov N var covInv Vi⁻¹ := by
    cases unc with
    | covInv W =>
      replace hu : W = Vi := hu
      subst hu
      cases hin
      exact mul_inv_of_posDef hVi
    | var v =>
      obtain ⟨h1, h2⟩ := hu
      cases hin
      intro k k'
      have : Vi⁻¹ = diagonal v := by
        refine inv_eq_left_inv ?_
        rw [h2, diagonal_mul_diagonal, ← diagonal_one]
        congr 1; funext k; exact mul_inv_cancel₀ (h1 k)
      rw [this]; exact diagonal_apply v k k'
  have hjac : jac id N = (1 : Mat m) := by
    ext o k
    rw [jac_eq (hasFDerivAt_id N)]
    simp [Pi.single_apply, one_apply]
  refine ⟨e0, resCov K Vi⁻¹ s + J * diagonal (fun j => (cw j)⁻¹) * J.transpose, _, ?_, hclosed, ?_, ?_⟩
  · unfold residuals
    rw [getData_eq id N var covInv Vi⁻¹ hV]
    dsimp only [expCov, BetaPart.solve, BetaPart.jac, Out.of]
    rw [hjac, transpose_one, Matrix.mul_one, Matrix.one_mul]
    congr 2
    have : (Matrix.of fun k o => if (false = true) then 0 else K o k / s k : Matrix (Fin b) (Fin m) ℝ) =
        diagonal (fun k => (s k)⁻¹) * K.transpose := by
      ext k o
      rw [diagonal_mul]
      simp [div_eq_inv_mul]
    rw [this]
    unfold resCov
    simp only [Matrix.mul_assoc]
    abel
  · have hi : (resCov K Vi⁻¹ s + J * diagonal (fun j => (cw j)⁻¹) * J.transpose)⁻¹ = Q := inv_eq_left_inv hQ
    unfold chi2
    rw [if_neg (by omega), if_neg, hi, hmin, Fintype.card_fin]
    · simp
    · intro h0
      have := congrArg det hQ
      rw [det_mul, h0, mul_zero, det_one] at this
      exact zero_ne_one this
  · have hVd : Vi⁻¹.det ≠ 0 := ((isUnit_iff_isUnit_det _).1 hVi.inv.isUnit).ne_zero
    rw [bh_res hVi hs (hf.least x x0 N β0) (hf.attained x x0 N β0), hmq, Matrix.one_mul,
      c71_invariant pinv (Q.mulVec e0) Q Vi⁻¹ hVd, hmin]
    unfold chi2
    rw [if_neg (by omega), if_neg hdQ, mulVec_mulVec, nonsing_inv_mul Q hQu, one_mulVec, dotProduct_comm, Fintype.card_fin]
    simp

/-- C71 does not hold with a floating parameter without constraint: the covariance of the postfit residuals of all bins is
then singular (the fit uses up a degree of freedom that the number of bins still counts), and the call fails. -/
theorem c71_free_violated {Rx : Matrix (Fin m) (Fin n) ℝ} {Rn : Mat m} {Rb : Matrix (Fin m) (Fin b) ℝ}
    (hf : Spec.Fit cw J K Vi s L H Px Pn Pb bh (1 : Mat m) Rx Rn Rb) (hVi : Vi.PosDef) (hs : ∀ k, 0 < s k)
    (cov : Mat n) (hC : cov * H = 1) (unc : DataUnc (Fin m)) (hu : Spec.Stored Vi unc)
    (mask : Option (Fin b → Bool)) (hmask : ∀ f, mask = some f → ∀ k, f k = false) (j : Fin n) (hj : cw j = 0)
    (r : Vec m) (pinv : Mat m → Mat m) :
    ∃ C1, resCovProfiled (dndvar 0 Rx (dxdvar cov Px)) (varX0 cw) (dndvar Rn Rx (dxdvar cov Pn)) unc
        (dndvar Rb Rx (dxdvar cov Pb)) (some ⟨s, fun k => -s k, mask⟩) = .ok C1 ∧
      chi2 pinv r C1 0 = .error .exception := by
  have hCHC : cov * H * cov = cov := by rw [hC, Matrix.one_mul]
  obtain ⟨eH, -, -, -⟩ := gaussian_blocks cw J K Vi hVi s hs 0 (by simp [IsSymm]) L hf.least H Px Pn Pb
    hf.hess hf.dx0 hf.dn hf.db
  rw [add_zero] at eH
  have hMs : (resCov K Vi⁻¹ s)⁻¹.transpose = (resCov K Vi⁻¹ s)⁻¹ :=
    (posDef_iff'.1 (resCov_posDef (K := K) hVi.inv hs).inv).1
  have hHs : H.transpose = H := by
    rw [eH, transpose_add, transpose_mul, transpose_mul, transpose_transpose, hMs, diagonal_transpose, Matrix.mul_assoc]
  have hsym : cov.IsSymm := by
    have : cov = H⁻¹ := (inv_eq_left_inv hC).symm
    unfold IsSymm
    rw [this, transpose_nonsing_inv, hHs]
  refine ⟨_, resCov_closed hf hVi hs cov hsym hCHC unc hu mask hmask, ?_⟩
  set M := (resCov K Vi⁻¹ s)⁻¹
  have hWj : (diagonal cw).mulVec (Pi.single j 1) = 0 := by
    funext k
    rw [mulVec_diagonal, Pi.single_apply, Pi.zero_apply]
    split
    · next h => rw [h, hj, zero_mul]
    · exact mul_zero _
  have hJj : J.mulVec (Pi.single j 1) ≠ 0 := by
    intro h0
    have h1 : H.mulVec (Pi.single j 1) = 0 := by
      rw [eH, add_mulVec, hWj, ← mulVec_mulVec, h0, mulVec_zero, add_zero]
    have h2 : (cov * H).mulVec (Pi.single j 1) = 0 := by rw [← mulVec_mulVec, h1, mulVec_zero]
    rw [hC, one_mulVec] at h2
    have := congrFun h2 j
    simp at this
  have hQ0 : (qMat J M cov).mulVec (J.mulVec (Pi.single j 1)) = 0 := by
    unfold qMat
    have e2 : J.transpose * M * J = H - diagonal cw := by rw [eH]; abel
    have e3 : (M - M * J * cov * J.transpose * M) * J = M * J * cov * diagonal cw := by
      calc _ = M * J - M * J * cov * (J.transpose * M * J) := by
            simp only [Matrix.sub_mul, Matrix.mul_assoc]
        _ = M * J - (M * J * (cov * H) - M * J * cov * diagonal cw) := by
            rw [e2]; simp only [Matrix.mul_sub, Matrix.mul_assoc]
        _ = _ := by rw [hC, Matrix.mul_one]; abel
    rw [mulVec_mulVec, e3, ← mulVec_mulVec, hWj, mulVec_zero]
  have hd : (qMat J M cov).det = 0 := by
    by_contra h
    exact hJj (Matrix.eq_zero_of_mulVec_eq_zero h hQ0)
  unfold chi2
  rw [if_neg (by omega), if_pos (by rw [det_mul, det_mul, hd]; ring)]

end fit

/-- every linear Gaussian model has such a fit -/
theorem fit_exists (cw : Vec n) (J : Matrix (Fin m) (Fin n) ℝ) (K : Matrix (Fin m) (Fin b) ℝ) (Vi : Mat m)
    (hVi : Vi.PosDef) (s : Vec b) (hs : ∀ k, 0 < s k) (A : Matrix (Fin p) (Fin m) ℝ) :
    ∃ L H Px Pn Pb bh Rx Rn Rb, Spec.Fit cw J K Vi s L H Px Pn Pb bh A Rx Rn Rb ∧
      H = diagonal cw + J.transpose * (resCov K Vi⁻¹ s)⁻¹ * J := by
  obtain ⟨L, H, Px, Pn, Pb, h1, h2, h3, h4, h5, h6⟩ := gaussian_derivatives cw J K Vi hVi s hs 0 (by simp [IsSymm])
  have hat : ∀ x N β0, ∃ β, Impacts.Spec.joint cw J K Vi s 0 x 0 N β0 β = L x 0 N β0 := fun x N β0 => (h1 x 0 N β0).1
  choose bh hbh using hat
  have hr : ∀ x N β0, J.mulVec x + K.mulVec (bh x N β0) - N =
      Vi⁻¹.mulVec ((resCov K Vi⁻¹ s)⁻¹.mulVec (J.mulVec x + K.mulVec β0 - N)) :=
    fun x N β0 => bh_res hVi hs (h1 x 0 N β0) (hbh x N β0)
  refine ⟨L, H, Px, Pn, Pb, bh, A * Vi⁻¹ * (resCov K Vi⁻¹ s)⁻¹ * J, -(A * Vi⁻¹ * (resCov K Vi⁻¹ s)⁻¹),
    A * Vi⁻¹ * (resCov K Vi⁻¹ s)⁻¹ * K, ⟨h1, ?_, h2, h3, h4, h5, ?_⟩, by rw [h6, add_zero]⟩
  · intro x x0 N β0
    have e1 := (h1 x x0 N β0).unique (profiled cw J K Vi hVi s hs 0 x x0 N β0)
    have e2 := (h1 x 0 N β0).unique (profiled cw J K Vi hVi s hs 0 x 0 N β0)
    have e3 := hbh x N β0
    unfold Impacts.Spec.joint at e3 ⊢
    linarith
  · intro x N β0 dx dN dβ
    rw [hr, hr]
    have e : J.mulVec (x + dx) + K.mulVec (β0 + dβ) - (N + dN) =
        (J.mulVec x + K.mulVec β0 - N) + J.mulVec dx - dN + K.mulVec dβ := by
      rw [mulVec_add, mulVec_add]; abel
    rw [e]
    simp only [mulVec_add, mulVec_sub, neg_mulVec, mulVec_mulVec, Matrix.mul_assoc]
    abel

/-- the hypotheses of `c71_gaussian` and `c71_response` are met: any prediction `J`, `K`, correlated data, all parameters
constrained; the data are fluctuated or not -/
example (J : Matrix (Fin 2) (Fin 3) ℝ) (K : Matrix (Fin 2) (Fin 2) ℝ) (N : Vec 2) :
    ∃ L H Px Pn Pb bh Rx Rn Rb cov, ∃ xh : Vec 3 → Vec 2 → Vec 3,
      Spec.Fit (fun _ => 1) J K !![2, 1; 1, 2] (fun _ => 3) L H Px Pn Pb bh (1 : Mat 2) Rx Rn Rb ∧
      cov * H = 1 ∧ Spec.Stored !![2, 1; 1, 2] (.covInv !![2, 1; 1, 2]) ∧
      ∀ x0 β0 y, L (xh x0 β0) x0 N β0 ≤ L y x0 N β0 := by
  have hVi : (!![2, 1; 1, 2] : Mat 2).PosDef := Impacts.Ex.cov_posDef
  obtain ⟨L, H, Px, Pn, Pb, bh, Rx, Rn, Rb, hf, hH⟩ :=
    fit_exists (fun _ => 1) J K !![2, 1; 1, 2] hVi (fun _ => 3) (fun _ => by norm_num) (1 : Mat 2)
  have hR := resCov_posDef (K := K) (s := fun _ => 3) hVi.inv (fun _ => by norm_num)
  have hpd : H.PosDef := by
    rw [posDef_iff', hH]
    refine ⟨?_, fun x hx => ?_⟩
    · unfold IsSymm
      rw [transpose_add, transpose_mul, transpose_mul, transpose_transpose, (posDef_iff'.1 hR.inv).1.eq, diagonal_transpose,
        Matrix.mul_assoc]
    · rw [add_mulVec, dotProduct_add, ← mulVec_mulVec, ← mulVec_mulVec, ← dot_mulVec_mulVec,
        dotProduct_comm (mulVec _ (J.mulVec x))]
      have h1 := (posSemidef_iff'.1 hR.inv.posSemidef).2 (J.mulVec x)
      have h2 : 0 < x ⬝ᵥ (diagonal fun _ => (1 : ℝ)).mulVec x := by
        rw [diagonal_one, one_mulVec]
        exact lt_of_le_of_ne (Finset.sum_nonneg fun i _ => mul_self_nonneg _) fun h => hx (dotProduct_self_eq_zero.1 h.symm)
      linarith
  have hmin : ∀ x0 β0, ∃ x, ∀ y, L x x0 N β0 ≤ L y x0 N β0 := by
    intro x0 β0
    have hC := inv_mul_of_posDef hpd
    set M := (resCov K !![2, 1; 1, 2]⁻¹ fun _ => 3)⁻¹ with hM
    have hMs : M.IsSymm := (posDef_iff'.1 hR.inv).1
    set e0 := J.mulVec x0 + K.mulVec β0 - N with he0
    set g := J.transpose.mulVec (M.mulVec e0) with hg
    have hF : ∀ y, L (x0 + y) x0 N β0 = (1 / 2) * (y ⬝ᵥ H.mulVec y) + y ⬝ᵥ g + (1 / 2) * (e0 ⬝ᵥ M.mulVec e0) := by
      intro y
      rw [(hf.least (x0 + y) x0 N β0).unique (profiled _ J K _ hVi _ (fun _ => by norm_num) 0 (x0 + y) x0 N β0),
        zero_mulVec, dotProduct_zero]
      have a1 : J.mulVec (x0 + y) + K.mulVec β0 - N = J.mulVec y + e0 := by rw [mulVec_add, he0]; abel
      rw [a1, ← hM, quad_add hMs, hH, add_mulVec, dotProduct_add, ← mulVec_mulVec, ← mulVec_mulVec, ← dot_mulVec_mulVec,
        dotProduct_comm (M.mulVec (J.mulVec y)), hg, ← dot_mulVec_mulVec, dotProduct_comm (M.mulVec e0) (J.mulVec y)]
      have a2 : y ⬝ᵥ (diagonal fun _ => (1 : ℝ)).mulVec y = ∑ j, 1 * ((x0 + y) j - x0 j) ^ 2 := by
        simp only [dotProduct, mulVec_diagonal, Pi.add_apply]
        exact Finset.sum_congr rfl fun j _ => by ring
      rw [a2]; ring
    refine ⟨x0 + -(H⁻¹.mulVec g), fun y => ?_⟩
    have hy : y = x0 + (y - x0) := by abel
    rw [hy, hF, hF]
    have v := variational hpd g (-(y - x0))
    have w := variational_eq hpd g
    simp only [mulVec_neg, neg_dotProduct, dotProduct_neg, neg_neg] at v ⊢
    linarith
  choose xh hxh using hmin
  exact ⟨L, H, Px, Pn, Pb, bh, Rx, Rn, Rb, H⁻¹, xh, hf, inv_mul_of_posDef hpd, rfl, hxh⟩

/-- the hypotheses of `c71_free_violated` are met: one free normalisation of two bins -/
example : ∃ L H Px Pn Pb bh Rx Rn Rb cov,
    Spec.Fit (fun _ : Fin 1 => 0) !![1; 2] (0 : Matrix (Fin 2) (Fin 1) ℝ) !![2, 1; 1, 2] (fun _ => 3) L H Px Pn Pb bh (1 : Mat 2) Rx Rn Rb ∧
      cov * H = 1 := by
  have hVi : (!![2, 1; 1, 2] : Mat 2).PosDef := Impacts.Ex.cov_posDef
  obtain ⟨L, H, Px, Pn, Pb, bh, Rx, Rn, Rb, hf, hH⟩ :=
    fit_exists (fun _ : Fin 1 => 0) !![1; 2] (0 : Matrix (Fin 2) (Fin 1) ℝ) !![2, 1; 1, 2] hVi (fun _ => 3) (fun _ => by norm_num) (1 : Mat 2)
  refine ⟨L, H, Px, Pn, Pb, bh, Rx, Rn, Rb, !![14⁻¹], hf, ?_⟩
  have : resCov (0 : Matrix (Fin 2) (Fin 1) ℝ) (!![2, 1; 1, 2] : Mat 2)⁻¹ (fun _ => 3) = (!![2, 1; 1, 2] : Mat 2)⁻¹ := by
    simp [resCov]
  rw [hH, this, nonsing_inv_nonsing_inv _ ((isUnit_iff_isUnit_det _).1 hVi.isUnit)]
  ext i j
  fin_cases i; fin_cases j
  norm_num [Matrix.mul_apply, Fin.sum_univ_two, transpose_apply]

end

end Verif.Chi2
