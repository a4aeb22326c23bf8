import Verif.Model.BBB
import Verif.Props.Likelihood
import Mathlib.Tactic

namespace Verif.BBB

noncomputable section

variable {P : Type*} [Fintype P]

/-- `solveQuadEq` is a root, and no point where the polynomial is ≤ 0 lies above it. -/
theorem solveQuadEq_root {a b c : ℝ} (ha : 0 < a) (hd : 0 ≤ b ^ 2 - 4 * a * c) :
    a * solveQuadEq a b c ^ 2 + b * solveQuadEq a b c + c = 0 := by
  unfold solveQuadEq
  have hs := Real.sq_sqrt hd
  set s := √(b ^ 2 - 4 * a * c)
  field_simp
  nlinarith

theorem le_solveQuadEq {a b c y : ℝ} (ha : 0 < a) (hy : a * y ^ 2 + b * y + c ≤ 0) :
    y ≤ solveQuadEq a b c := by
  have h1 : (2 * a * y + b) ^ 2 ≤ b ^ 2 - 4 * a * c := by nlinarith
  have h2 : 2 * a * y + b ≤ √(b ^ 2 - 4 * a * c) := Real.le_sqrt_of_sq_le h1
  unfold solveQuadEq
  rw [le_div_iff₀ ha]
  linarith

theorem lt_solveQuadEq {a b c y : ℝ} (ha : 0 < a) (hy : a * y ^ 2 + b * y + c < 0) :
    y < solveQuadEq a b c := by
  have h1 : (2 * a * y + b) ^ 2 < b ^ 2 - 4 * a * c := by nlinarith
  have h2 : 2 * a * y + b < √(b ^ 2 - 4 * a * c) := Real.lt_sqrt_of_sq_lt h1
  unfold solveQuadEq
  rw [lt_div_iff₀ ha]
  linarith

theorem disc_nonneg_of_le {a b c y : ℝ} (ha : 0 < a) (hy : a * y ^ 2 + b * y + c ≤ 0) :
    0 ≤ b ^ 2 - 4 * a * c := by
  nlinarith [sq_nonneg (2 * a * y + b)]

/-- tangent bound for `-n log` -/
theorem neg_mul_log_tangent {n x y : ℝ} (hn : 0 ≤ n) (hx : 0 < x) (hy : 0 < y) :
    -(n * Real.log y) - n / y * (x - y) ≤ -(n * Real.log x) := by
  have := Real.log_le_sub_one_of_pos (div_pos hx hy)
  rw [Real.log_div hx.ne' hy.ne'] at this
  have h2 := mul_le_mul_of_nonneg_left this hn
  have h3 : n * (x / y - 1) = n / y * (x - y) := by field_simp
  nlinarith

theorem neg_mul_log_tangent_strict {n x y : ℝ} (hn : 0 < n) (hx : 0 < x) (hy : 0 < y) (hxy : x ≠ y) :
    -(n * Real.log y) - n / y * (x - y) < -(n * Real.log x) := by
  have := Real.log_lt_sub_one_of_pos (div_pos hx hy) (by rwa [ne_eq, div_eq_one_iff_eq hy.ne'])
  rw [Real.log_div hx.ne' hy.ne'] at this
  have h2 := mul_lt_mul_of_pos_left this hn
  have h3 : n * (x / y - 1) = n / y * (x - y) := by field_simp
  nlinarith

/-- the Poisson term lies above its tangent -/
theorem poisson_tangent {n μ ν : ℝ} (hn : 0 ≤ n) (hμ : n = 0 ∨ 0 < μ) (hν : n = 0 ∨ 0 < ν) :
    poissonBin n ν + (1 - n / ν) * (μ - ν) ≤ poissonBin n μ := by
  unfold poissonBin
  rcases eq_or_lt_of_le hn with h | h
  · subst h; simp
  · have := neg_mul_log_tangent hn (hμ.resolve_left h.ne') (hν.resolve_left h.ne')
    simp only [h.ne', if_false]; linarith

theorem poisson_tangent_strict {n μ ν : ℝ} (hn : 0 < n) (hμ : 0 < μ) (hν : 0 < ν) (h : μ ≠ ν) :
    poissonBin n ν + (1 - n / ν) * (μ - ν) < poissonBin n μ := by
  unfold poissonBin
  have := neg_mul_log_tangent_strict hn hμ hν h
  simp only [hn.ne', if_false]; linarith

/-- the gamma constraint lies above its tangent -/
theorem gamma_tangent {m : Prop} {k β0 β γ : ℝ} (hk : 0 < k) (hβ0 : 0 ≤ β0) (hβ : β0 = 0 ∨ 0 < β)
    (hγ : β0 = 0 ∨ 0 < γ) :
    lbeta .gamma m k β0 γ + k * (1 - β0 / γ) * (β - γ) ≤ lbeta .gamma m k β0 β := by
  unfold lbeta
  rcases eq_or_lt_of_le hβ0 with h | h
  · subst h; simp; linarith
  · have := neg_mul_log_tangent (mul_nonneg hk.le hβ0) (hβ.resolve_left h.ne') (hγ.resolve_left h.ne')
    simp only [h.ne', if_false]
    have e : k * (1 - β0 / γ) * (β - γ) = k * (β - γ) - k * β0 / γ * (β - γ) := by ring
    rw [e]; linarith

theorem gamma_tangent_strict {m : Prop} {k β0 β γ : ℝ} (hk : 0 < k) (hβ0 : 0 < β0) (hβ : 0 < β)
    (hγ : 0 < γ) (h : β ≠ γ) :
    lbeta .gamma m k β0 γ + k * (1 - β0 / γ) * (β - γ) < lbeta .gamma m k β0 β := by
  unfold lbeta
  have := neg_mul_log_tangent_strict (mul_pos hk hβ0) hβ hγ h
  simp only [hβ0.ne', if_false]
  have e : k * (1 - β0 / γ) * (β - γ) = k * (β - γ) - k * β0 / γ * (β - γ) := by ring
  rw [e]; linarith

/-- the Gaussian constraint lies above its tangent by half the squared distance -/
theorem gauss_tangent (k β0 β γ : ℝ) :
    1 / 2 * (β - β0) ^ 2 * k = 1 / 2 * (γ - β0) ^ 2 * k + k * (γ - β0) * (β - γ) + 1 / 2 * k * (β - γ) ^ 2 := by
  ring

theorem chisq_tangent (v n μ ν : ℝ) (hv : 0 < v) :
    1 / 2 * ((μ - n) ^ 2 / v) =
      1 / 2 * ((ν - n) ^ 2 / v) + (ν - n) / v * (μ - ν) + 1 / 2 * ((μ - ν) ^ 2 / v) := by
  field_simp; ring

theorem kstat_pos {minK sumw var : ℝ} (hv : 0 ≤ var) : 0 < kstat minK sumw var := by
  unfold kstat
  split_ifs with h
  · exact one_pos
  · unfold betamask at h
    push Not at h
    have h1 : 0 < var := lt_of_le_of_ne hv (Ne.symm h.1.1)
    have h2 : 0 < sumw ^ 2 := by have := h.1.2; positivity
    positivity

namespace LiteBin
variable (b : LiteBin P)

theorem nexp_eq : b.nexp = b.nActive + b.nZero := by
  unfold nexp nActive nZero
  rw [← Finset.sum_add_distrib]
  refine Finset.sum_congr rfl fun p _ => ?_
  split_ifs <;> simp

theorem applied_mult {kind : Kind} (hk : kind = .gamma ∨ kind = .normMult) (hm : ¬ b.masked) (β : ℝ) :
    b.applied kind β = b.nActive * β + b.nZero := by
  have : b.applied kind β = ∑ p, b.norm p * (if b.sumw2 p = 0 then 1 else β) := by
    rcases hk with rfl | rfl <;> simp [applied, apply, hm]
  rw [this]
  unfold nActive nZero
  rw [Finset.sum_mul, ← Finset.sum_add_distrib]
  refine Finset.sum_congr rfl fun p _ => ?_
  split_ifs <;> simp

theorem applied_masked {kind : Kind} (hk : kind = .gamma ∨ kind = .normMult) (hm : b.masked) (β : ℝ) :
    b.applied kind β = b.nexp := by
  rcases hk with rfl | rfl <;> simp [applied, apply, hm, nexp]

theorem applied_add (hA : 0 < b.nActive) (β : ℝ) :
    b.applied .normAdd β = b.nexp + √b.varbeta * β := by
  simp only [applied, apply, hA, gt_iff_lt, if_true]
  rw [Finset.sum_add_distrib, ← Finset.sum_div, ← Finset.mul_sum]
  have : (∑ p, if b.sumw2 p = 0 then 0 else b.norm p) = b.nActive := rfl
  rw [this, mul_div_assoc, div_self hA.ne', mul_one]; rfl

theorem varbeta_nonneg (h : ∀ p, 0 ≤ b.sumw2 p) : 0 ≤ b.varbeta :=
  Finset.sum_nonneg fun p _ => h p

theorem k_pos (h : ∀ p, 0 ≤ b.sumw2 p) : 0 < b.k := kstat_pos (b.varbeta_nonneg h)

end LiteBin

end

end Verif.BBB
