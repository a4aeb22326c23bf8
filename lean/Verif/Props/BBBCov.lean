import Verif.Props.BBBFull
import Mathlib.Algebra.Order.Star.Real

/-!
C31/C32 for the covariance data term: the linear systems solved by the code give the exact minimiser of
the likelihood over the β of all bins at once.
-/

namespace Verif.BBB

noncomputable section

open Matrix

/-! ### Specification -/

/-- minus log-likelihood of correlated Gaussian data with inverse covariance `W` -/
def Spec.covDataNll {B : Type*} [Fintype B] (W : Matrix B B ℝ) (n μ : B → ℝ) : ℝ :=
  (∑ i, ∑ j, (μ i - n i) * W i j * (μ j - n j)) / 2

open Classical in
/-- lite, multiplicative: one β per bin, bins without template statistics have none -/
def Spec.covLiteMultNll {B : Type*} [Fintype B] (c : CovLite B) (β : B → ℝ) : ℝ :=
  Spec.covDataNll c.W c.nobs (fun i => if c.masked i then c.nexp i else c.nZero i + c.nActive i * β i) +
    ∑ i, if c.masked i then 0 else c.k i * (β i - c.beta0 i) ^ 2 / 2

/-- lite, additive -/
def Spec.covLiteAddNll {B : Type*} [Fintype B] (c : CovLite B) (β : B → ℝ) : ℝ :=
  Spec.covDataNll c.W c.nobs (fun i => c.nexp i + √(c.varbeta i) * β i) + ∑ i, (β i - c.beta0 i) ^ 2 / 2

open Classical in
/-- full, multiplicative: one β per bin and process with template statistics -/
def Spec.covFullMultNll {B P : Type*} [Fintype B] [Fintype P] (c : CovFull B P) (β : B → P → ℝ) : ℝ :=
  Spec.covDataNll c.W c.nobs (fun i => ∑ p, (if c.masked i p then 1 else β i p) * c.norm i p) +
    ∑ i, ∑ p, if c.masked i p then 0 else c.k i p * (β i p - c.beta0 i p) ^ 2 / 2

/-- full, additive -/
def Spec.covFullAddNll {B P : Type*} [Fintype B] [Fintype P] (c : CovFull B P) (β : B → P → ℝ) : ℝ :=
  Spec.covDataNll c.W c.nobs (fun i => ∑ p, (c.norm i p + √(c.varbeta i p) * β i p)) +
    ∑ i, ∑ p, (β i p - c.beta0 i p) ^ 2 / 2

/-- The data term of the specification is the one of the code (`_compute_ln`). -/
theorem c31_covariance_data_term {B : Type*} [Fintype B] (W : Matrix B B ℝ) (n μ : B → ℝ) :
    lnCov W n μ = Spec.covDataNll W n μ := by
  unfold lnCov Spec.covDataNll
  simp only [dotProduct, mulVec, Pi.sub_apply, Finset.mul_sum, Finset.sum_div]
  refine Finset.sum_congr rfl fun i _ => Finset.sum_congr rfl fun j _ => ?_
  ring

/-! ### generic step -/

variable {B J : Type*} [Fintype B] [Fintype J]

/-- quadratic data term with linear response `A` and independent Gaussian constraints: a solution of the
stationarity equations is a minimiser, unique in the constrained directions. -/
private theorem cov_step (W : Matrix B B ℝ) (hW : W.PosSemidef) (A : Matrix B J ℝ) (k β0 β' β : J → ℝ)
    (N0 n : B → ℝ) (hst : ∀ j, k j * (β' j - β0 j) = -(Aᵀ *ᵥ (W *ᵥ (N0 + A *ᵥ β' - n))) j) :
    lnCov W n (N0 + A *ᵥ β') + ∑ j, k j * (β' j - β0 j) ^ 2 / 2 + ∑ j, k j * (β j - β' j) ^ 2 / 2
      ≤ lnCov W n (N0 + A *ᵥ β) + ∑ j, k j * (β j - β0 j) ^ 2 / 2 := by
  have hsymm : Wᵀ = W := by have := hW.isHermitian; rwa [IsHermitian, conjTranspose_eq_transpose_of_trivial] at this
  set d : J → ℝ := β - β' with hd
  set r : B → ℝ := N0 + A *ᵥ β' - n with hr
  have e1 : ∀ μ, lnCov W n μ = 1 / 2 * ((μ - n) ⬝ᵥ (W *ᵥ (μ - n))) := by
    intro μ
    unfold lnCov
    rw [show n - μ = -(μ - n) by abel, mulVec_neg, neg_dotProduct_neg]
  have e2 : N0 + A *ᵥ β - n = r + A *ᵥ d := by
    rw [hr, hd, mulVec_sub]; abel
  have hcross : r ⬝ᵥ (W *ᵥ (A *ᵥ d)) = (A *ᵥ d) ⬝ᵥ (W *ᵥ r) := by
    rw [dotProduct_comm, dotProduct_mulVec, ← mulVec_transpose, hsymm]
  have hgrad : (A *ᵥ d) ⬝ᵥ (W *ᵥ r) = -∑ j, k j * (β' j - β0 j) * d j := by
    rw [dotProduct_comm, dotProduct_mulVec, ← mulVec_transpose]
    simp only [dotProduct]
    rw [← Finset.sum_neg_distrib]
    refine Finset.sum_congr rfl fun j _ => ?_
    rw [hst j]; ring
  have hpsd : 0 ≤ (A *ᵥ d) ⬝ᵥ (W *ᵥ (A *ᵥ d)) := by
    have := hW.dotProduct_mulVec_nonneg (A *ᵥ d)
    simpa using this
  have hsum : ∑ j, k j * (β j - β0 j) ^ 2 / 2 =
      ∑ j, k j * (β' j - β0 j) ^ 2 / 2 + ∑ j, k j * (β j - β' j) ^ 2 / 2 + ∑ j, k j * (β' j - β0 j) * d j := by
    rw [← Finset.sum_add_distrib, ← Finset.sum_add_distrib]
    refine Finset.sum_congr rfl fun j _ => ?_
    simp only [hd, Pi.sub_apply]; ring
  rw [e1, e1, e2, ← hr]
  simp only [mulVec_add, dotProduct_add, add_dotProduct]
  rw [hcross, hgrad, hsum]
  linarith

private theorem cov_gap (k β' β : J → ℝ) (hk : ∀ j, 0 ≤ k j) :
    0 ≤ ∑ j, k j * (β j - β' j) ^ 2 / 2 ∧
      (∑ j, k j * (β j - β' j) ^ 2 / 2 ≤ 0 → ∀ j, 0 < k j → β j = β' j) := by
  have hnn : ∀ j ∈ Finset.univ, 0 ≤ k j * (β j - β' j) ^ 2 / 2 := fun j _ => by have := hk j; positivity
  refine ⟨Finset.sum_nonneg hnn, fun h j hj => ?_⟩
  have h0 := le_antisymm h (Finset.sum_nonneg hnn)
  have := (Finset.sum_eq_zero_iff_of_nonneg hnn).1 h0 j (Finset.mem_univ j)
  have h2 : (β j - β' j) ^ 2 = 0 := by
    have : k j * (β j - β' j) ^ 2 = 0 := by linarith
    exact (mul_eq_zero.1 this).resolve_left hj.ne'
  nlinarith [pow_eq_zero_iff (two_ne_zero) |>.1 h2]

variable [DecidableEq B]

/-- `a W a + diag k` is invertible -/
theorem lite_mat_unit (W : Matrix B B ℝ) (hW : W.PosSemidef) (a k : B → ℝ) (hk : ∀ i, 0 < k i) :
    IsUnit (diagonal a * W * diagonal a + diagonal k).det := by
  have h1 : (diagonal a * W * diagonal a).PosSemidef := by
    have := hW.mul_mul_conjTranspose_same (diagonal a)
    simpa using this
  have h2 : (diagonal k).PosDef := PosDef.diagonal hk
  exact (PosDef.posSemidef_add h1 h2).isUnit.map Matrix.detMonoidHom

/-- `diag s · W + 1` is invertible -/
theorem full_mat_unit (W : Matrix B B ℝ) (hW : W.PosSemidef) (s : B → ℝ) (hs : ∀ i, 0 ≤ s i) :
    IsUnit (diagonal s * W + 1).det := by
  rw [isUnit_iff_ne_zero]
  intro h0
  obtain ⟨x, hx, hx0⟩ := Matrix.exists_mulVec_eq_zero_iff.2 h0
  rw [add_mulVec, one_mulVec, ← mulVec_mulVec] at hx0
  set y := W *ᵥ x with hy
  have hxi : ∀ i, x i = -(s i * y i) := fun i => by
    have := congrFun hx0 i
    simp only [Pi.add_apply, mulVec_diagonal, Pi.zero_apply] at this
    linarith
  have hpsd : 0 ≤ x ⬝ᵥ y := by have := hW.dotProduct_mulVec_nonneg x; simpa using this
  have hsum : x ⬝ᵥ y = -∑ i, s i * y i ^ 2 := by
    simp only [dotProduct]
    rw [← Finset.sum_neg_distrib]
    exact Finset.sum_congr rfl fun i _ => by rw [hxi i]; ring
  have hnn : ∀ i ∈ Finset.univ, 0 ≤ s i * y i ^ 2 := fun i _ => by have := hs i; positivity
  have hz : ∑ i, s i * y i ^ 2 = 0 := le_antisymm (by linarith) (Finset.sum_nonneg hnn)
  apply hx
  funext i
  have := (Finset.sum_eq_zero_iff_of_nonneg hnn).1 hz i (Finset.mem_univ i)
  rw [hxi i]
  have : s i * y i = 0 := by
    rcases mul_eq_zero.1 this with h | h
    · simp [h]
    · simp [pow_eq_zero_iff (two_ne_zero) |>.1 h]
  rw [this]; simp

private theorem solve_eq (A : Matrix B B ℝ) (hA : IsUnit A.det) (v : B → ℝ) : A *ᵥ (A⁻¹ *ᵥ v) = v := by
  rw [mulVec_mulVec, mul_nonsing_inv _ hA, one_mulVec]

/-! ### C31, C32 -/

/-- C31: covariance data, lite multiplicative type, every bin with template statistics. -/
theorem c31_normal_mult_lite_covariance_minimises (c : CovLite B) (hW : c.W.PosSemidef) (hk : ∀ i, 0 < c.k i)
    (hm : ∀ i, ¬ c.masked i) (β : B → ℝ) :
    Spec.covLiteMultNll c c.profileMult ≤ Spec.covLiteMultNll c β ∧
      (Spec.covLiteMultNll c β = Spec.covLiteMultNll c c.profileMult → β = c.profileMult) := by
  classical
  have hA := lite_mat_unit c.W hW c.nActive c.k hk
  have hprof : c.profileMult = c.matMult⁻¹ *ᵥ c.rhsMult := by
    funext i; simp [CovLite.profileMult, hm]
  have hsol : c.matMult *ᵥ c.profileMult = c.rhsMult := by rw [hprof]; exact solve_eq _ hA _
  set β' := c.profileMult
  have hst : ∀ j, c.k j * (β' j - c.beta0 j) =
      -((diagonal c.nActive)ᵀ *ᵥ (c.W *ᵥ (c.nZero + diagonal c.nActive *ᵥ β' - c.nobs))) j := by
    intro j
    have h1 := congrFun hsol j
    simp only [CovLite.matMult, CovLite.rhsMult, add_mulVec, ← mulVec_mulVec, Pi.add_apply, mulVec_diagonal,
      mulVec_sub, Pi.sub_apply] at h1
    simp only [diagonal_transpose, mulVec_diagonal, mulVec_sub, mulVec_add, Pi.sub_apply, Pi.add_apply]
    linear_combination h1
  have hmean : ∀ γ : B → ℝ, (fun i => if c.masked i then c.nexp i else c.nZero i + c.nActive i * γ i) =
      c.nZero + diagonal c.nActive *ᵥ γ := by
    intro γ; funext i; simp [hm, mulVec_diagonal]
  have hdef : ∀ γ, Spec.covLiteMultNll c γ = lnCov c.W c.nobs (c.nZero + diagonal c.nActive *ᵥ γ) +
      ∑ i, c.k i * (γ i - c.beta0 i) ^ 2 / 2 := by
    intro γ; unfold Spec.covLiteMultNll; rw [hmean, ← c31_covariance_data_term]; simp [hm]
  have h := cov_step c.W hW (diagonal c.nActive) c.k c.beta0 β' β c.nZero c.nobs hst
  obtain ⟨hg, hu⟩ := cov_gap c.k β' β fun j => (hk j).le
  rw [hdef, hdef]
  exact ⟨by linarith, fun he => funext fun j => hu (by linarith) j (hk j)⟩

/-- C31: covariance data, lite additive type. -/
theorem c31_normal_add_lite_covariance_minimises (c : CovLite B) (hW : c.W.PosSemidef) (β : B → ℝ) :
    Spec.covLiteAddNll c c.profileAdd ≤ Spec.covLiteAddNll c β ∧
      (Spec.covLiteAddNll c β = Spec.covLiteAddNll c c.profileAdd → β = c.profileAdd) := by
  set s : B → ℝ := fun i => √(c.varbeta i) with hs
  have hA : IsUnit c.matAdd.det := by
    have := lite_mat_unit c.W hW s (fun _ => 1) (fun _ => one_pos)
    rwa [show (diagonal fun _ : B => (1 : ℝ)) = 1 from diagonal_one] at this
  have hsol : c.matAdd *ᵥ c.profileAdd = diagonal s *ᵥ (c.W *ᵥ (c.nobs - c.nexp)) + c.beta0 := solve_eq _ hA _
  set β' := c.profileAdd
  have hst : ∀ j, (1 : ℝ) * (β' j - c.beta0 j) =
      -((diagonal s)ᵀ *ᵥ (c.W *ᵥ (c.nexp + diagonal s *ᵥ β' - c.nobs))) j := by
    intro j
    have h1 := congrFun hsol j
    simp only [CovLite.matAdd, add_mulVec, ← mulVec_mulVec, Pi.add_apply, mulVec_diagonal, one_mulVec,
      mulVec_sub, Pi.sub_apply] at h1
    simp only [diagonal_transpose, mulVec_diagonal, mulVec_sub, mulVec_add, Pi.sub_apply, Pi.add_apply]
    linear_combination h1
  have hdef : ∀ γ, Spec.covLiteAddNll c γ = lnCov c.W c.nobs (c.nexp + diagonal s *ᵥ γ) +
      ∑ i, (1 : ℝ) * (γ i - c.beta0 i) ^ 2 / 2 := by
    intro γ; unfold Spec.covLiteAddNll; rw [c31_covariance_data_term]
    congr 1
    · congr 1; funext i; simp [mulVec_diagonal, hs]
    · simp
  have h := cov_step c.W hW (diagonal s) (fun _ => 1) c.beta0 β' β c.nexp c.nobs hst
  obtain ⟨hg, hu⟩ := cov_gap (fun _ => 1) β' β fun _ => zero_le_one
  rw [hdef, hdef]
  exact ⟨by linarith, fun he => funext fun j => hu (by linarith) j one_pos⟩

variable {P : Type*} [Fintype P]

/-- response matrix of the full mode -/
private def resp (w : B → P → ℝ) : Matrix B (B × P) ℝ := fun i j => if i = j.1 then w j.1 j.2 else 0

omit [Fintype B] in
private theorem resp_mulVec [Fintype B] (w : B → P → ℝ) (β : B × P → ℝ) (i : B) :
    (resp w *ᵥ β) i = ∑ p, w i p * β (i, p) := by
  simp only [mulVec, dotProduct, resp, Fintype.sum_prod_type]
  rw [Finset.sum_eq_single i]
  · simp
  · intro j _ hj; simp [Ne.symm hj]
  · simp

omit [Fintype P] in
private theorem resp_transpose_mulVec (w : B → P → ℝ) (y : B → ℝ) (j : B × P) :
    ((resp w)ᵀ *ᵥ y) j = w j.1 j.2 * y j.1 := by
  simp [mulVec, dotProduct, resp, transpose_apply]

/-- C32: covariance data, full multiplicative type. -/
theorem c32_normal_mult_full_covariance_minimises (c : CovFull B P) (hW : c.W.PosSemidef)
    (hk : ∀ i p, 0 < c.k i p) (hb : ∀ i p, c.masked i p → c.beta0 i p = 1 ∨ c.norm i p = 0) (β : B → P → ℝ) :
    Spec.covFullMultNll c c.profileMult ≤ Spec.covFullMultNll c β ∧
      (Spec.covFullMultNll c β = Spec.covFullMultNll c c.profileMult →
        ∀ i p, ¬ c.masked i p → β i p = c.profileMult i p) := by
  classical
  have hn2k : ∀ i, 0 ≤ c.n2k i := fun i => Finset.sum_nonneg fun p _ => by
    have := hk i p
    split_ifs
    · exact le_refl 0
    · positivity
  have hA := full_mat_unit c.W hW c.n2k hn2k
  set T : B → ℝ := (diagonal c.n2k * c.W + 1)⁻¹ *ᵥ
    (diagonal c.n2k *ᵥ (c.W *ᵥ c.nobs) + fun i => ∑ p, c.norm i p * c.beta0 i p) with hT
  have hsol : (diagonal c.n2k * c.W + 1) *ᵥ T =
      diagonal c.n2k *ᵥ (c.W *ᵥ c.nobs) + fun i => ∑ p, c.norm i p * c.beta0 i p := solve_eq _ hA _
  set g : B → ℝ := c.W *ᵥ (T - c.nobs) with hg
  have hprof : ∀ i p, c.profileMult i p = if c.masked i p then c.beta0 i p else c.beta0 i p - c.norm i p / c.k i p * g i :=
    fun i p => rfl
  set w : B → P → ℝ := fun i p => if c.masked i p then 0 else c.norm i p with hw
  set N0 : B → ℝ := fun i => ∑ p, if c.masked i p then c.norm i p else 0 with hN0
  have hmean : ∀ γ : B → P → ℝ, (fun i => ∑ p, (if c.masked i p then 1 else γ i p) * c.norm i p) =
      N0 + resp w *ᵥ (fun j => γ j.1 j.2) := by
    intro γ; funext i
    rw [Pi.add_apply, resp_mulVec, hN0, ← Finset.sum_add_distrib]
    refine Finset.sum_congr rfl fun p _ => ?_
    simp only [hw]
    by_cases h : c.masked i p <;> simp [h, mul_comm]
  -- the profiled mean is the solution of the linear system
  have hTmean : N0 + resp w *ᵥ (fun j => c.profileMult j.1 j.2) = T := by
    rw [← hmean]; funext i
    have h1 := congrFun hsol i
    simp only [add_mulVec, ← mulVec_mulVec, Pi.add_apply, mulVec_diagonal, one_mulVec] at h1
    have h2 : ∑ p, (if c.masked i p then 1 else c.profileMult i p) * c.norm i p =
        (∑ p, c.norm i p * c.beta0 i p) - c.n2k i * g i := by
      unfold CovFull.n2k
      rw [Finset.sum_mul, ← Finset.sum_sub_distrib]
      refine Finset.sum_congr rfl fun p _ => ?_
      rw [hprof]
      by_cases h : c.masked i p
      · rcases hb i p h with h' | h' <;> simp [h, h']
      · have := hk i p
        simp only [h, if_false]; ring
    rw [h2]
    simp only [hg, mulVec_sub, Pi.sub_apply]
    linear_combination -h1
  set k : B × P → ℝ := fun j => if c.masked j.1 j.2 then 0 else c.k j.1 j.2 with hkd
  have hst : ∀ j, k j * (c.profileMult j.1 j.2 - c.beta0 j.1 j.2) =
      -((resp w)ᵀ *ᵥ (c.W *ᵥ (N0 + resp w *ᵥ (fun j => c.profileMult j.1 j.2) - c.nobs))) j := by
    rintro ⟨i, p⟩
    rw [hTmean, resp_transpose_mulVec, ← hg, hprof]
    simp only [hkd, hw]
    by_cases h : c.masked i p
    · simp [h]
    · have := hk i p
      simp only [h, if_false]; field_simp; ring
  have hdef : ∀ γ : B → P → ℝ, Spec.covFullMultNll c γ =
      lnCov c.W c.nobs (N0 + resp w *ᵥ (fun j => γ j.1 j.2)) +
        ∑ j : B × P, k j * (γ j.1 j.2 - c.beta0 j.1 j.2) ^ 2 / 2 := by
    intro γ; unfold Spec.covFullMultNll; rw [hmean, ← c31_covariance_data_term, Fintype.sum_prod_type]
    congr 1
    refine Finset.sum_congr rfl fun i _ => Finset.sum_congr rfl fun p _ => ?_
    simp only [hkd]; by_cases h : c.masked i p <;> simp [h]
  have h := cov_step c.W hW (resp w) k (fun j => c.beta0 j.1 j.2) (fun j => c.profileMult j.1 j.2)
    (fun j => β j.1 j.2) N0 c.nobs hst
  obtain ⟨hgap, hu⟩ := cov_gap k (fun j => c.profileMult j.1 j.2) (fun j => β j.1 j.2) fun j => by
    simp only [hkd]; split_ifs
    · exact le_refl 0
    · exact (hk _ _).le
  rw [hdef, hdef]
  refine ⟨by linarith, fun he i p hm => hu (by linarith) (i, p) ?_⟩
  simp only [hkd, hm, if_false]; exact hk i p

/-- C32: covariance data, full additive type. -/
theorem c32_normal_add_full_covariance_minimises (c : CovFull B P) (hW : c.W.PosSemidef)
    (hv : ∀ i p, 0 ≤ c.varbeta i p) (β : B → P → ℝ) :
    Spec.covFullAddNll c c.profileAdd ≤ Spec.covFullAddNll c β ∧
      (Spec.covFullAddNll c β = Spec.covFullAddNll c c.profileAdd → β = c.profileAdd) := by
  set V : B → ℝ := fun i => ∑ p, c.varbeta i p with hV
  set N : B → ℝ := fun i => ∑ p, c.norm i p with hN
  have hA := full_mat_unit c.W hW V fun i => Finset.sum_nonneg fun p _ => hv i p
  set T : B → ℝ := (diagonal V * c.W + 1)⁻¹ *ᵥ
    (diagonal V *ᵥ (c.W *ᵥ (c.nobs - N)) + fun i => ∑ p, √(c.varbeta i p) * c.beta0 i p) with hT
  have hsol : (diagonal V * c.W + 1) *ᵥ T =
      diagonal V *ᵥ (c.W *ᵥ (c.nobs - N)) + fun i => ∑ p, √(c.varbeta i p) * c.beta0 i p := solve_eq _ hA _
  set g : B → ℝ := c.W *ᵥ (T + N - c.nobs) with hg
  have hprof : ∀ i p, c.profileAdd i p = c.beta0 i p - √(c.varbeta i p) * g i := fun i p => rfl
  set w : B → P → ℝ := fun i p => √(c.varbeta i p) with hw
  have hmean : ∀ γ : B → P → ℝ, (fun i => ∑ p, (c.norm i p + √(c.varbeta i p) * γ i p)) =
      N + resp w *ᵥ (fun j => γ j.1 j.2) := by
    intro γ; funext i
    rw [Pi.add_apply, resp_mulVec, Finset.sum_add_distrib]
  have hTmean : N + resp w *ᵥ (fun j => c.profileAdd j.1 j.2) = T + N := by
    rw [← hmean]; funext i
    have h1 := congrFun hsol i
    simp only [add_mulVec, ← mulVec_mulVec, Pi.add_apply, mulVec_diagonal, one_mulVec, mulVec_sub, Pi.sub_apply] at h1
    have h2 : ∑ p, (c.norm i p + √(c.varbeta i p) * c.profileAdd i p) =
        N i + (∑ p, √(c.varbeta i p) * c.beta0 i p) - V i * g i := by
      simp only [hN, hV]
      rw [Finset.sum_mul, ← Finset.sum_add_distrib, ← Finset.sum_sub_distrib]
      refine Finset.sum_congr rfl fun p _ => ?_
      rw [hprof]
      have := Real.mul_self_sqrt (hv i p)
      linear_combination -(g i) * this
    rw [h2]
    simp only [hg, mulVec_sub, mulVec_add, Pi.sub_apply, Pi.add_apply]
    linear_combination -h1
  have hst : ∀ j : B × P, (1 : ℝ) * (c.profileAdd j.1 j.2 - c.beta0 j.1 j.2) =
      -((resp w)ᵀ *ᵥ (c.W *ᵥ (N + resp w *ᵥ (fun j => c.profileAdd j.1 j.2) - c.nobs))) j := by
    rintro ⟨i, p⟩
    rw [hTmean, resp_transpose_mulVec, ← hg, hprof]
    simp only [hw]; ring
  have hdef : ∀ γ : B → P → ℝ, Spec.covFullAddNll c γ =
      lnCov c.W c.nobs (N + resp w *ᵥ (fun j => γ j.1 j.2)) +
        ∑ j : B × P, (1 : ℝ) * (γ j.1 j.2 - c.beta0 j.1 j.2) ^ 2 / 2 := by
    intro γ; unfold Spec.covFullAddNll; rw [hmean, ← c31_covariance_data_term, Fintype.sum_prod_type]
    simp
  have h := cov_step c.W hW (resp w) (fun _ => 1) (fun j => c.beta0 j.1 j.2) (fun j => c.profileAdd j.1 j.2)
    (fun j => β j.1 j.2) N c.nobs hst
  obtain ⟨hgap, hu⟩ := cov_gap (fun _ : B × P => 1) (fun j => c.profileAdd j.1 j.2) (fun j => β j.1 j.2) fun _ => zero_le_one
  rw [hdef, hdef]
  exact ⟨by linarith, fun he => funext fun i => funext fun p => hu (by linarith) (i, p) one_pos⟩

/-- correlated data for the examples -/
def exampleW : Matrix (Fin 2) (Fin 2) ℝ := !![2, 1; 1, 2]

theorem exampleW_psd : exampleW.PosSemidef := by
  refine PosSemidef.of_dotProduct_mulVec_nonneg ?_ ?_
  · ext i j; fin_cases i <;> fin_cases j <;> simp [exampleW]
  · intro x
    simp only [star_trivial, dotProduct, mulVec, Fin.sum_univ_two, exampleW, of_apply, cons_val_zero, cons_val_one,
      cons_val', cons_val_fin_one]
    nlinarith [sq_nonneg (x 0 + x 1), sq_nonneg (x 0), sq_nonneg (x 1)]

/-- the hypotheses of the theorems above can be met with correlated data -/
example : ∃ c : CovLite (Fin 2), c.W.PosSemidef ∧ c.W 0 1 ≠ 0 ∧ (∀ i, 0 < c.k i) ∧ ∀ i, ¬ c.masked i :=
  ⟨⟨exampleW, ![1, 2], ![1, 3], ![0, 1], ![1, 4], ![4, 5], ![1, 1], ![1, 1], fun _ => False⟩, exampleW_psd,
    by norm_num [exampleW], by intro i; fin_cases i <;> norm_num, by simp⟩

example : ∃ c : CovFull (Fin 2) (Fin 2), c.W.PosSemidef ∧ c.W 0 1 ≠ 0 ∧ (∀ i p, 0 < c.k i p) ∧
    (∃ i p, c.masked i p) ∧ (∀ i p, c.masked i p → c.beta0 i p = 1 ∨ c.norm i p = 0) ∧ ∀ i p, 0 ≤ c.varbeta i p :=
  ⟨⟨exampleW, ![1, 2], fun _ _ => 3, fun _ _ => 5, fun _ _ => 1, fun _ _ => 1, fun i p => i = 0 ∧ p = 1⟩, exampleW_psd,
    by norm_num [exampleW], fun _ _ => by norm_num, ⟨0, 1, rfl, rfl⟩, fun _ _ _ => .inl rfl, fun _ _ => zero_le_one⟩

/-- C31 (what does not hold): with correlated data and a bin without template statistics the linear
system of the lite multiplicative type treats that bin's β as free, and the β of the other bins come out
wrong: the best possible value 0 of the likelihood is missed. -/
theorem c31_masked_bin_correlated_violated :
    ∃ c : CovLite (Fin 2), c.W.PosSemidef ∧ (∀ i, 0 < c.k i) ∧ ¬ c.masked 0 ∧ c.masked 1 ∧
      Spec.covLiteMultNll c c.beta0 < Spec.covLiteMultNll c c.profileMult := by
  classical
  let c : CovLite (Fin 2) :=
    ⟨exampleW, ![1, 10], ![1, 1], ![0, 10], ![1, 10], ![1, 1], ![1, 0], ![1, 1], fun i => i = 1⟩
  have hm0 : ¬ c.masked 0 := by simp [c]
  have hm1 : c.masked 1 := by simp [c]
  have hmat : c.matMult = !![3, 1; 1, 3] := by
    ext i j
    fin_cases i <;> fin_cases j <;>
      norm_num [CovLite.matMult, c, exampleW, Matrix.mul_apply, diagonal, Fin.sum_univ_two]
  have hinv : c.matMult⁻¹ = !![3 / 8, -1 / 8; -1 / 8, 3 / 8] := by
    rw [hmat]
    refine inv_eq_right_inv ?_
    ext i j
    fin_cases i <;> fin_cases j <;> norm_num [Matrix.mul_apply, Fin.sum_univ_two]
  have hrhs : c.rhsMult = ![3, 2] := by
    funext i
    fin_cases i <;>
      norm_num [CovLite.rhsMult, c, exampleW, mulVec, dotProduct, diagonal, Fin.sum_univ_two]
  have hp0 : c.profileMult 0 = 7 / 8 := by
    simp only [CovLite.profileMult, hm0, if_false, hinv, hrhs]
    norm_num [mulVec, dotProduct, Fin.sum_univ_two]
  refine ⟨c, exampleW_psd, by intro i; fin_cases i <;> norm_num [c], hm0, hm1, ?_⟩
  have hval : ∀ β : Fin 2 → ℝ, Spec.covLiteMultNll c β = 3 / 2 * (β 0 - 1) ^ 2 := by
    intro β
    simp only [Spec.covLiteMultNll, Spec.covDataNll, Fin.sum_univ_two, hm0, hm1, if_true, if_false]
    norm_num [c, exampleW]
    ring
  rw [hval, hval, hp0]
  norm_num [c]

/-- C31: exactly the covariance fits with template statistics and the gamma type are refused; any other choice is kept. -/
theorem c31_gamma_covariance_refused (k : Kind) (cov enabled : Bool) :
    acceptKind k cov enabled =
      if cov = true ∧ enabled = true ∧ k = .gamma then .error .exception else .ok k := by
  cases cov <;> cases enabled <;> cases k <;> rfl

/-- C31: the automatic choice is always accepted, is additive in covariance fits, and an explicit choice is not
replaced. -/
theorem c31_automatic_kind (cov enabled : Bool) (mode : Mode) (k : Kind) :
    acceptKind (resolveKind none cov mode) cov enabled = .ok (resolveKind none cov mode) ∧
    resolveKind none true mode = .normAdd ∧ resolveKind none false .lite = .gamma ∧
    resolveKind none false .full = .normMult ∧ resolveKind (some k) cov mode = k := by
  cases cov <;> cases enabled <;> cases mode <;> exact ⟨rfl, rfl, rfl, rfl, rfl⟩

end

end Verif.BBB
