import Verif.Model.Likelihood
import Mathlib.Analysis.SpecialFunctions.Log.Deriv
import Mathlib.Analysis.SpecialFunctions.Trigonometric.Basic
import Mathlib.LinearAlgebra.Matrix.PosDef
import Mathlib.Tactic

/-!
C19 (Poisson deviance), C20 (full = reduced + constant), C21 (constraint terms), C22 (chi-square =
diagonal covariance).
-/

namespace Verif

open Matrix

noncomputable section

variable {ι κ : Type*} [Fintype ι] [Fintype κ]

/-- Independent specification: minus log of the Poisson weight, `0 log 0 = 0` convention. -/
def Spec.poissonNll (n μ : ℝ) : ℝ := if n = 0 then μ else μ - n * Real.log μ

/-- Independent specification: half the Poisson deviance. -/
def Spec.halfDeviance (n μ : ℝ) : ℝ := Spec.poissonNll n μ - Spec.poissonNll n n

theorem poissonBin_eq_spec (n μ : ℝ) : poissonBin n μ = Spec.halfDeviance n μ := by
  unfold poissonBin Spec.halfDeviance Spec.poissonNll lognobs
  by_cases h : n = 0
  · simp [h]
  · simp only [h, if_false]; ring

/-- C19: the term minimised in one bin is non-negative, for every observed count and every admissible
expectation (positive, or non-negative for an empty bin). -/
theorem c19_nonneg (n μ : ℝ) (hn : 0 ≤ n) (hμ : 0 ≤ μ) (h : n = 0 ∨ 0 < μ) : 0 ≤ poissonBin n μ := by
  unfold poissonBin lognobs
  rcases eq_or_lt_of_le hn with h0 | h0
  · subst h0; simpa using hμ
  · have hμ' : 0 < μ := h.resolve_left h0.ne'
    simp only [h0.ne', if_false]
    have := Real.log_le_sub_one_of_pos (div_pos hμ' h0)
    rw [Real.log_div hμ'.ne' h0.ne'] at this
    have h2 : n * (Real.log μ - Real.log n) ≤ n * (μ / n - 1) := mul_le_mul_of_nonneg_left this hn
    have h3 : n * (μ / n - 1) = μ - n := by field_simp
    linarith

/-- C19: it is zero exactly when the expectation equals the observation. -/
theorem c19_zero_iff (n μ : ℝ) (hn : 0 ≤ n) (hμ : 0 ≤ μ) (h : n = 0 ∨ 0 < μ) :
    poissonBin n μ = 0 ↔ μ = n := by
  unfold poissonBin lognobs
  rcases eq_or_lt_of_le hn with h0 | h0
  · subst h0; simp
  · have hμ' : 0 < μ := h.resolve_left h0.ne'
    simp only [h0.ne', if_false]
    constructor
    · intro he
      by_contra hne
      have hx : μ / n ≠ 1 := fun hh => hne (by rw [div_eq_one_iff_eq h0.ne'] at hh; exact hh)
      have := Real.log_lt_sub_one_of_pos (div_pos hμ' h0) hx
      rw [Real.log_div hμ'.ne' h0.ne'] at this
      have h2 : n * (Real.log μ - Real.log n) < n * (μ / n - 1) := mul_lt_mul_of_pos_left this h0
      have h3 : n * (μ / n - 1) = μ - n := by field_simp
      linarith
    · rintro rfl; ring

/-- C19: the whole data term is a sum of half deviances; it vanishes iff every bin is reproduced. -/
theorem c19_total_zero_iff (nobs nexp : ι → ℝ) (hn : ∀ i, 0 ≤ nobs i) (hμ : ∀ i, 0 ≤ nexp i)
    (h : ∀ i, nobs i = 0 ∨ 0 < nexp i) :
    0 ≤ lnPoisson false nobs nexp ∧ (lnPoisson false nobs nexp = 0 ↔ nexp = nobs) := by
  have hnn : ∀ i ∈ Finset.univ, 0 ≤ poissonBin (nobs i) (nexp i) :=
    fun i _ => c19_nonneg _ _ (hn i) (hμ i) (h i)
  refine ⟨by simpa [lnPoisson] using Finset.sum_nonneg hnn, ?_⟩
  simp only [lnPoisson, Bool.false_eq_true, if_false]
  rw [Finset.sum_eq_zero_iff_of_nonneg hnn]
  constructor
  · intro hh; funext i; exact (c19_zero_iff _ _ (hn i) (hμ i) (h i)).1 (hh i (Finset.mem_univ i))
  · rintro rfl i -; exact (c19_zero_iff _ _ (hn i) (hμ i) (h i)).2 rfl

/-- C19: moving the expectation further from the observation never lowers the term (on each side). -/
theorem c19_monotone (n μ μ' : ℝ) (hn : 0 ≤ n) (h : (n ≤ μ ∧ μ ≤ μ' ∧ 0 < μ) ∨ (μ' ≤ μ ∧ μ ≤ n ∧ 0 < μ')) :
    poissonBin n μ ≤ poissonBin n μ' := by
  have hμ : 0 < μ := by rcases h with h | h <;> linarith [h.1, h.2.1, h.2.2]
  have hμ' : 0 < μ' := by rcases h with h | h <;> linarith [h.1, h.2.1, h.2.2]
  unfold poissonBin
  rcases eq_or_lt_of_le hn with h0 | h0
  · subst h0
    rcases h with h | h
    · simpa using h.2.1
    · linarith [h.2.1]
  · simp only [h0.ne', if_false]
    -- log μ' ≤ log μ + (μ' - μ)/μ
    have := Real.log_le_sub_one_of_pos (div_pos hμ' hμ)
    rw [Real.log_div hμ'.ne' hμ.ne'] at this
    have h2 := mul_le_mul_of_nonneg_left this hn
    have h3 : n * (μ' / μ - 1) ≤ μ' - μ := by
      have : n * (μ' / μ - 1) = (μ' - μ) * (n / μ) := by field_simp
      rw [this]
      rcases h with ⟨ha, hb, -⟩ | ⟨ha, hb, -⟩
      · have h1 : n / μ ≤ 1 := (div_le_one hμ).2 ha
        nlinarith [sub_nonneg.2 hb]
      · have h1 : 1 ≤ n / μ := (one_le_div hμ).2 hb
        nlinarith [sub_nonneg.2 ha]
    linarith

example : ∃ n μ μ' : ℝ, (n ≤ μ ∧ μ ≤ μ' ∧ 0 < μ) ∧ 0 < n ∧ μ < μ' := ⟨1, 2, 3, by norm_num⟩

/-- C20, data term: the full Poisson term minus the term that is minimised does not depend on the
expectation: it is the same for any two expectations. -/
theorem c20_poisson_offset (nobs nexp nexp' : ι → ℝ) :
    lnPoisson true nobs nexp - lnPoisson false nobs nexp =
      lnPoisson true nobs nexp' - lnPoisson false nobs nexp' := by
  simp only [lnPoisson, if_true, Bool.false_eq_true, if_false, ← Finset.sum_sub_distrib]
  refine Finset.sum_congr rfl fun i _ => ?_
  unfold poissonBinFull poissonBin
  by_cases h : nobs i = 0
  · simp [h]
  · simp only [h, if_false]; ring

/-- C20, data term: the full term of a bin is minus the log of the Poisson probability. -/
theorem c20_poisson_full_is_log_pmf (n : ℕ) (μ : ℝ) (hμ : 0 < μ) :
    poissonBinFull n μ = -Real.log (Real.exp (-μ) * μ ^ n / n.factorial) := by
  have hf : (0 : ℝ) < n.factorial := by exact_mod_cast n.factorial_pos
  have hg : lgamma ((n : ℝ) + 1) = Real.log n.factorial := by
    unfold lgamma; rw [Real.Gamma_nat_eq_factorial, abs_of_pos hf]
  unfold poissonBinFull
  rw [hg, Real.log_div (by positivity) hf.ne', Real.log_mul (by positivity) (by positivity),
    Real.log_exp, Real.log_pow]
  by_cases h : n = 0
  · subst h; simp
  · have : (n : ℝ) ≠ 0 := by exact_mod_cast h
    simp only [this, if_false]; ring

/-- C20, constraints: full minus reduced does not depend on the parameters or on the centres. -/
theorem c20_constraint_offset (cw x0 x x0' x' : κ → ℝ) :
    lc true cw x0 x - lc false cw x0 x = lc true cw x0' x' - lc false cw x0' x' := by
  simp only [lc, ← Finset.sum_sub_distrib]
  refine Finset.sum_congr rfl fun k _ => ?_
  simp

/-- C21: the constraint part is a sum of independent quadratics: each parameter adds half its squared
pull, unconstrained parameters (weight zero) add nothing, whatever their value. -/
theorem c21_constraint_terms (cw x0 x : κ → ℝ) (hcw : ∀ k, 0 ≤ cw k) :
    lc false cw x0 x = ∑ k, (if cw k = 0 then 0 else ((x k - x0 k) / (1 / Real.sqrt (cw k))) ^ 2 / 2) ∧
      0 ≤ lc false cw x0 x := by
  have h1 : lc false cw x0 x =
      ∑ k, (if cw k = 0 then 0 else ((x k - x0 k) / (1 / Real.sqrt (cw k))) ^ 2 / 2) := by
    unfold lc
    refine Finset.sum_congr rfl fun k _ => ?_
    by_cases h : cw k = 0
    · simp [h]
    · simp only [h, if_false, Bool.false_eq_true]
      rw [div_div_eq_mul_div, div_one, mul_pow, Real.sq_sqrt (hcw k)]; ring
  refine ⟨h1, ?_⟩
  rw [h1]
  refine Finset.sum_nonneg fun k _ => ?_
  split_ifs
  · exact le_refl _
  · positivity

/-- C21: an unconstrained parameter never changes the constraint term. -/
theorem c21_free_parameter [DecidableEq κ] (full : Bool) (cw x0 x : κ → ℝ) (k : κ) (h : cw k = 0) (v : ℝ) :
    lc full cw x0 (Function.update x k v) = lc full cw x0 x := by
  unfold lc
  refine Finset.sum_congr rfl fun j _ => ?_
  by_cases hj : j = k
  · subst hj; simp [h]
  · rw [Function.update_of_ne hj]

/-- C21: the zero of the constraint term: all constrained parameters at their centres. -/
theorem c21_zero_iff (cw x0 x : κ → ℝ) (hcw : ∀ k, 0 ≤ cw k) :
    lc false cw x0 x = 0 ↔ ∀ k, 0 < cw k → x k = x0 k := by
  unfold lc
  rw [Finset.sum_eq_zero_iff_of_nonneg]
  · constructor
    · intro h k hk
      have := h k (Finset.mem_univ k)
      simp only [Bool.false_eq_true, if_false, add_zero, mul_eq_zero, hk.ne'] at this
      rcases this with h | h
      · norm_num at h
      · nlinarith [pow_eq_zero_iff (two_ne_zero) |>.1 h]
    · intro h k _
      rcases eq_or_lt_of_le (hcw k) with hk | hk
      · simp [← hk]
      · simp [h k hk]
  · intro k _
    simp only [Bool.false_eq_true, if_false, add_zero, Pi.zero_apply]
    have := hcw k
    positivity

/-- C21: a declared prior of width `s > 0` and mean `m` enters as the usual Gaussian penalty; widths
that are not finite or not positive declare no prior. -/
theorem c21_prior_penalty (s m d x : ℝ) (hs : 0 < s) :
    priorWeight (some s) * (1 / 2) * (x - priorCentre (some s) m d) ^ 2 = ((x - m) / s) ^ 2 / 2 := by
  simp only [priorWeight, priorCentre, hs, if_true]
  field_simp

theorem c21_no_prior (sigma : Option ℝ) (h : ∀ s, sigma = some s → s ≤ 0) (m d : ℝ) :
    priorWeight sigma = 0 ∧ priorCentre sigma m d = d := by
  cases sigma with
  | none => simp [priorWeight, priorCentre]
  | some s => have := h s rfl; simp [priorWeight, priorCentre, not_lt.2 this]

/-- C21: priors on squared POIs are refused, all other well-shaped prior lists are accepted with one
weight per parameter. -/
theorem c21_accept_priors (nparams npoi : Nat) (allowNeg : Bool) (sigmas : List (Option ℝ)) :
    (∃ w, acceptPriors nparams npoi allowNeg sigmas = .ok w) ↔
      sigmas.length = nparams ∧
        (allowNeg = true ∨ ∀ i (h : i < sigmas.length), i < npoi → ∀ s, sigmas[i] = some s → s ≤ 0) := by
  classical
  unfold acceptPriors
  by_cases hl : sigmas.length = nparams
  · simp only [hl, ne_eq, not_true_eq_false, if_false, true_and]
    cases allowNeg with
    | true => simp
    | false =>
      simp only [and_true, Bool.false_eq_true, false_or]
      split_ifs with h
      · obtain ⟨s, hs, hw⟩ := h
        obtain ⟨i, hi, rfl⟩ := List.mem_iff_getElem.1 hs
        simp only [reduceCtorEq, exists_false, false_iff, not_forall]
        rw [List.length_take] at hi
        refine ⟨i, by omega, by omega, ?_⟩
        rw [List.getElem_take] at hw
        cases hsi : sigmas[i]'(by omega) with
        | none => simp [hsi, priorWeight] at hw
        | some s =>
          refine ⟨s, rfl, fun hle => hw ?_⟩
          rw [hsi]; simp [priorWeight, not_lt.2 hle]
      · simp only [Except.ok.injEq, exists_eq', true_iff]
        intro i hi hip s hs
        by_contra hlt
        refine h ⟨some s, ?_, ?_⟩
        · rw [← hs]
          exact List.mem_iff_getElem.2 ⟨i, by rw [List.length_take]; omega, by rw [List.getElem_take]⟩
        · have : 0 < s := not_le.1 hlt
          simp only [priorWeight, this, if_true]; positivity
  · simp [hl]

/-- C21: the full constraint term of one parameter is minus the log of the Gaussian density, up to the
rounding of the literal constant for ½ log 2π (identical for every parameter value). -/
theorem c21_full_is_gaussian_density (c x0 x : ℝ) (hc : 0 < c) :
    lc (κ := Unit) true (fun _ => c) (fun _ => x0) (fun _ => x) =
      -Real.log (Real.sqrt (c / (2 * Real.pi)) * Real.exp (-(c * (x - x0) ^ 2 / 2)))
        + (halfLog2PiLit - 1 / 2 * Real.log (2 * Real.pi)) := by
  have h2 : (0 : ℝ) < 2 * Real.pi := by positivity
  simp only [lc, Finset.univ_unique, Finset.sum_singleton, if_true, hc, gt_iff_lt]
  rw [Real.log_mul (by positivity) (by positivity), Real.log_exp, Real.log_sqrt (by positivity),
    Real.log_div hc.ne' h2.ne']
  ring

/-- C22: the chi-square fit is the covariance fit with the diagonal inverse covariance `1/varnobs`. -/
theorem c22_chisq_is_diagonal_covariance [DecidableEq ι] (nobs varnobs nexp : ι → ℝ) :
    lnChisq nobs varnobs nexp = lnCov (Matrix.diagonal fun i => 1 / varnobs i) nobs nexp := by
  unfold lnChisq lnCov
  congr 1
  simp only [dotProduct, mulVec_diagonal, Pi.sub_apply]
  refine Finset.sum_congr rfl fun i _ => ?_
  ring

/-- C22: with the default variances a chi-square fit is only entered with strictly positive
observations, so every weight `1/varnobs` is a positive number. -/
theorem c22_set_nobs_guard (values : ι → ℝ) (r : (ι → ℝ) × Option (ι → ℝ)) :
    setNobs true values none = .ok r → r = (values, some values) ∧ ∀ i, 0 < values i := by
  classical
  unfold setNobs
  simp only [if_true]
  split_ifs with h
  · simp
  · intro he
    simp only [Except.ok.injEq] at he
    exact ⟨he.symm, fun i => not_le.1 fun hi => h ⟨i, hi⟩⟩

/-- C22: variances given with the observation are the ones used, and the observation is stored unchanged. -/
theorem c22_set_nobs_variances (values v : ι → ℝ) (hpos : ∀ i, 0 < values i) :
    setNobs true values (some v) = .ok (values, some v) := by
  classical
  unfold setNobs
  rw [if_pos rfl, if_neg (fun ⟨i, hi⟩ => absurd (hpos i) (not_lt.2 hi))]
  rfl

example : ∃ values v : Fin 2 → ℝ, (∀ i, 0 < values i) ∧ values ≠ v :=
  ⟨fun _ => 1, fun _ => 2, fun _ => one_pos, fun h => by have := congrFun h 0; norm_num at this⟩

/-- C22: a chi-square fit refuses an observation with an empty or negative bin. -/
theorem c22_set_nobs_refuses (values : ι → ℝ) (v : Option (ι → ℝ)) (i : ι) (h : values i ≤ 0) :
    setNobs true values v = .error .runtime := by
  classical
  unfold setNobs
  simp only [if_true]
  rw [if_pos ⟨i, h⟩]

example : setNobs true (fun i : Fin 2 => (i : ℝ) + 1) none
    = .ok (fun i => (i : ℝ) + 1, some fun i => (i : ℝ) + 1) := by
  unfold setNobs
  rw [if_pos rfl, if_neg]
  · rfl
  · rintro ⟨i, hi⟩
    have : (0 : ℝ) ≤ (i : ℝ) := by positivity
    linarith

/-- C22: a multiple of the weights scales the covariance objective, and a positive semidefinite inverse
covariance gives a non-negative objective that vanishes on reproduced data. -/
theorem c22_cov_nonneg (W : Matrix ι ι ℝ) (hW : W.PosSemidef) (nobs nexp : ι → ℝ) :
    0 ≤ lnCov W nobs nexp ∧ lnCov W nobs nobs = 0 := by
  constructor
  · unfold lnCov
    have := hW.dotProduct_mulVec_nonneg (nobs - nexp)
    simp only [star_trivial] at this
    linarith
  · simp [lnCov]

end

end Verif
