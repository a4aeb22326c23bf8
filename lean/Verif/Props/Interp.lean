import Verif.Model.Interp
import Mathlib.Analysis.Calculus.Deriv.Pow
import Mathlib.Analysis.Calculus.Deriv.Mul
import Mathlib.Analysis.Calculus.Deriv.Polynomial
import Mathlib.Analysis.Calculus.ContDiff.Basic
import Mathlib.Analysis.Calculus.ContDiff.Deriv
import Mathlib.Analysis.Calculus.ContDiff.Operations
import Mathlib.Analysis.Calculus.Deriv.Comp
import Mathlib.Analysis.Calculus.Deriv.MeanValue
import Mathlib.Tactic.Linarith
import Mathlib.Tactic.Ring
import Mathlib.Tactic.Positivity
import Mathlib.Tactic.NormNum

/-!
C18: the interpolation weight is odd, bounded, monotone, saturated beyond half a sigma and twice continuously
differentiable; the response is exactly the up (down) response above 1/2 (below -1/2).
-/

namespace Verif.Interp

theorem alphaRaw_eq (θ : ℝ) : alphaRaw θ = (2 * θ) * (3 * (2 * θ) ^ 4 - 10 * (2 * θ) ^ 2 + 15) / 8 := by
  unfold alphaRaw; ring

theorem alphaRaw_neg (θ : ℝ) : alphaRaw (-θ) = -alphaRaw θ := by
  unfold alphaRaw; ring

theorem alphaRaw_ge_one {θ : ℝ} (h : 1 / 2 ≤ θ) : 1 ≤ alphaRaw θ := by
  -- alphaRaw - 1 = (t - 1)^3 (3 t^2 + 9 t + 8) / 8
  have key : alphaRaw θ - 1 = (2 * θ - 1) ^ 3 * (3 * (2 * θ) ^ 2 + 9 * (2 * θ) + 8) / 8 := by
    unfold alphaRaw; ring
  have h1 : 0 ≤ 2 * θ - 1 := by linarith
  have h2 : 0 ≤ 3 * (2 * θ) ^ 2 + 9 * (2 * θ) + 8 := by nlinarith
  have : 0 ≤ (2 * θ - 1) ^ 3 * (3 * (2 * θ) ^ 2 + 9 * (2 * θ) + 8) / 8 := by positivity
  linarith

theorem alphaRaw_le_one {θ : ℝ} (h : θ ≤ 1 / 2) (_ : -(1 / 2) ≤ θ) : alphaRaw θ ≤ 1 := by
  have key : 1 - alphaRaw θ = (1 - 2 * θ) ^ 3 * (3 * (2 * θ) ^ 2 + 9 * (2 * θ) + 8) / 8 := by
    unfold alphaRaw; ring
  have h1 : 0 ≤ 1 - 2 * θ := by linarith
  have h2 : 0 ≤ 3 * (2 * θ) ^ 2 + 9 * (2 * θ) + 8 := by nlinarith [sq_nonneg (2 * θ + 3 / 2)]
  have : 0 ≤ (1 - 2 * θ) ^ 3 * (3 * (2 * θ) ^ 2 + 9 * (2 * θ) + 8) / 8 := by positivity
  linarith

theorem alpha_of_ge {θ : ℝ} (h : 1 / 2 ≤ θ) : alpha θ = 1 := by
  unfold alpha
  rw [min_eq_right (alphaRaw_ge_one h)]; norm_num

theorem alpha_of_le {θ : ℝ} (h : θ ≤ -(1 / 2)) : alpha θ = -1 := by
  unfold alpha
  have : alphaRaw θ ≤ -1 := by
    have := alphaRaw_ge_one (θ := -θ) (by linarith)
    rw [alphaRaw_neg] at this; linarith
  rw [min_eq_left (by linarith), max_eq_left this]

theorem alpha_of_mem {θ : ℝ} (h : θ ≤ 1 / 2) (h' : -(1 / 2) ≤ θ) : alpha θ = alphaRaw θ := by
  unfold alpha
  have h1 := alphaRaw_le_one h h'
  have h2 : -1 ≤ alphaRaw θ := by
    have := alphaRaw_le_one (θ := -θ) (by linarith) (by linarith)
    rw [alphaRaw_neg] at this; linarith
  rw [min_eq_left h1, max_eq_right h2]

/-- C18: the weight is odd. -/
theorem c18_odd (θ : ℝ) : alpha (-θ) = -alpha θ := by
  rcases le_total (1 / 2) θ with h | h
  · rw [alpha_of_ge h, alpha_of_le (by linarith)]
  · rcases le_total θ (-(1 / 2)) with h' | h'
    · rw [alpha_of_le h', alpha_of_ge (by linarith)]; norm_num
    · rw [alpha_of_mem h h', alpha_of_mem (by linarith) (by linarith), alphaRaw_neg]

/-- C18: the weight lies in [-1, 1]. -/
theorem c18_bounded (θ : ℝ) : -1 ≤ alpha θ ∧ alpha θ ≤ 1 := by
  unfold alpha
  exact ⟨le_max_left _ _, max_le (by norm_num) (min_le_right _ _)⟩

/-- C18: the weight is saturated beyond half a sigma. -/
theorem c18_saturated (θ : ℝ) : (1 / 2 ≤ θ → alpha θ = 1) ∧ (θ ≤ -(1 / 2) → alpha θ = -1) :=
  ⟨alpha_of_ge, alpha_of_le⟩

/-- closed form of the first derivative -/
noncomputable def alphaD (θ : ℝ) : ℝ := 15 / 4 * (min (4 * θ ^ 2 - 1) 0) ^ 2

theorem hasDerivAt_raw (θ : ℝ) : HasDerivAt alphaRaw (15 / 4 * (4 * θ ^ 2 - 1) ^ 2) θ := by
  have h : HasDerivAt (fun θ : ℝ => 12 * θ ^ 5 - 10 * θ ^ 3 + 15 / 4 * θ)
      (12 * (5 * θ ^ 4) - 10 * (3 * θ ^ 2) + 15 / 4 * 1) θ := by
    have h5 := (hasDerivAt_pow 5 θ).const_mul 12
    have h3 := (hasDerivAt_pow 3 θ).const_mul 10
    have h1 := (hasDerivAt_id θ).const_mul (15 / 4)
    exact ((h5.sub h3).add h1).congr_deriv (by norm_num)
  have heq : alphaRaw = fun θ : ℝ => 12 * θ ^ 5 - 10 * θ ^ 3 + 15 / 4 * θ := by
    funext θ; unfold alphaRaw; ring
  rw [heq]
  exact h.congr_deriv (by ring)

theorem hasDerivAt_alpha (θ : ℝ) : HasDerivAt alpha (alphaD θ) θ := by
  have left : ∀ θ, θ ≤ -(1 / 2) → HasDerivWithinAt alpha (alphaD θ) (Set.Iic (-(1 / 2))) θ := by
    intro θ h
    have h0 : alphaD θ = 0 := by
      unfold alphaD; rw [min_eq_right (by nlinarith)]; norm_num
    rw [h0]
    exact (hasDerivWithinAt_const θ _ (-1 : ℝ)).congr (fun y hy => alpha_of_le hy) (alpha_of_le h)
  have right : ∀ θ, 1 / 2 ≤ θ → HasDerivWithinAt alpha (alphaD θ) (Set.Ici (1 / 2)) θ := by
    intro θ h
    have h0 : alphaD θ = 0 := by
      unfold alphaD; rw [min_eq_right (by nlinarith)]; norm_num
    rw [h0]
    exact (hasDerivWithinAt_const θ _ (1 : ℝ)).congr (fun y hy => alpha_of_ge hy) (alpha_of_ge h)
  have mid : ∀ θ, -(1 / 2) ≤ θ → θ ≤ 1 / 2 → HasDerivWithinAt alpha (alphaD θ) (Set.Icc (-(1 / 2)) (1 / 2)) θ := by
    intro θ h h'
    have h0 : alphaD θ = 15 / 4 * (4 * θ ^ 2 - 1) ^ 2 := by
      unfold alphaD; rw [min_eq_left (by nlinarith)]
    rw [h0]
    exact (hasDerivAt_raw θ).hasDerivWithinAt.congr (fun y hy => alpha_of_mem hy.2 hy.1) (alpha_of_mem h' h)
  rcases lt_trichotomy θ (-(1 / 2)) with h | h | h
  · exact (left θ h.le).hasDerivAt (Iic_mem_nhds h)
  · have := (left θ h.le).union (mid θ h.ge (by linarith))
    refine this.hasDerivAt ?_
    rw [Set.Iic_union_Icc_eq_Iic (by norm_num)]
    exact Iic_mem_nhds (by linarith)
  · rcases lt_trichotomy θ (1 / 2) with h' | h' | h'
    · exact (mid θ h.le h'.le).hasDerivAt (Icc_mem_nhds h h')
    · have := (mid θ h.le h'.le).union (right θ h'.ge)
      refine this.hasDerivAt ?_
      rw [Set.Icc_union_Ici_eq_Ici (by norm_num)]
      exact Ici_mem_nhds h
    · exact (right θ h'.le).hasDerivAt (Ici_mem_nhds h')

theorem hasDerivAt_min_sq (u : ℝ) : HasDerivAt (fun u : ℝ => (min u 0) ^ 2) (2 * min u 0) u := by
  have left : ∀ u : ℝ, u ≤ 0 → HasDerivWithinAt (fun u : ℝ => (min u 0) ^ 2) (2 * min u 0) (Set.Iic 0) u := by
    intro u h
    rw [min_eq_left h]
    have := (hasDerivAt_pow 2 u).hasDerivWithinAt (s := Set.Iic (0 : ℝ))
    refine (this.congr (fun y hy => by rw [min_eq_left hy]) (by rw [min_eq_left h])).congr_deriv (by norm_num)
  have right : ∀ u : ℝ, 0 ≤ u → HasDerivWithinAt (fun u : ℝ => (min u 0) ^ 2) (2 * min u 0) (Set.Ici 0) u := by
    intro u h
    rw [min_eq_right h]
    refine ((hasDerivWithinAt_const u _ (0 : ℝ)).congr (fun y hy => ?_) ?_).congr_deriv (by norm_num)
    · rw [min_eq_right hy]; norm_num
    · rw [min_eq_right h]; norm_num
  rcases lt_trichotomy u 0 with h | h | h
  · exact (left u h.le).hasDerivAt (Iic_mem_nhds h)
  · have := (left u h.le).union (right u h.ge)
    rw [Set.Iic_union_Ici] at this
    exact this.hasDerivAt Filter.univ_mem
  · exact (right u h.le).hasDerivAt (Ici_mem_nhds h)

theorem hasDerivAt_alphaD (θ : ℝ) : HasDerivAt alphaD (60 * θ * min (4 * θ ^ 2 - 1) 0) θ := by
  have h1 : HasDerivAt (fun θ : ℝ => 4 * θ ^ 2 - 1) (8 * θ) θ :=
    (((hasDerivAt_pow 2 θ).const_mul 4).sub_const 1).congr_deriv (by norm_num; ring)
  have h2 := ((hasDerivAt_min_sq (4 * θ ^ 2 - 1)).comp θ h1).const_mul (15 / 4)
  exact h2.congr_deriv (by ring)

/-- C18: the weight is twice continuously differentiable, that is the pieces join with matching value, first and
second derivative. -/
theorem c18_smooth : ContDiff ℝ 2 alpha := by
  have hd : deriv alpha = alphaD := funext fun θ => (hasDerivAt_alpha θ).deriv
  have hdd : deriv alphaD = fun θ => 60 * θ * min (4 * θ ^ 2 - 1) 0 := funext fun θ => (hasDerivAt_alphaD θ).deriv
  rw [show (2 : WithTop ℕ∞) = 1 + 1 by norm_num, contDiff_succ_iff_deriv]
  refine ⟨fun θ => (hasDerivAt_alpha θ).differentiableAt, by simp, ?_⟩
  rw [hd, contDiff_one_iff_deriv]
  refine ⟨fun θ => (hasDerivAt_alphaD θ).differentiableAt, ?_⟩
  rw [hdd]
  fun_prop

/-- C18: value and derivatives at the joints. -/
theorem c18_joints : deriv alpha (1 / 2) = 0 ∧ deriv alpha (-(1 / 2)) = 0 ∧
    deriv (deriv alpha) (1 / 2) = 0 ∧ deriv (deriv alpha) (-(1 / 2)) = 0 := by
  have hd : deriv alpha = alphaD := funext fun θ => (hasDerivAt_alpha θ).deriv
  rw [hd, (hasDerivAt_alphaD (1 / 2)).deriv, (hasDerivAt_alphaD (-(1 / 2))).deriv]
  refine ⟨?_, ?_, ?_, ?_⟩ <;> norm_num [alphaD]

/-- C18: the weight is monotone. -/
theorem c18_monotone : Monotone alpha := by
  refine monotone_of_deriv_nonneg (fun θ => (hasDerivAt_alpha θ).differentiableAt) fun θ => ?_
  rw [(hasDerivAt_alpha θ).deriv]
  unfold alphaD; positivity

/-- C18: the response is exactly that of the up template above 1/2 and of the down template below -1/2; `lup` and
`ldown` are the logarithms of the up and down ratios, the writer stores minus the latter. -/
theorem c18_exact_response (lup ldown θ : ℝ) :
    (1 / 2 ≤ θ → response (logkAvg lup (-ldown)) (logkHalfdiff lup (-ldown)) θ = θ * lup) ∧
    (θ ≤ -(1 / 2) → response (logkAvg lup (-ldown)) (logkHalfdiff lup (-ldown)) θ = |θ| * ldown) := by
  constructor
  · intro h
    unfold response logkAvg logkHalfdiff
    rw [alpha_of_ge h]; ring
  · intro h
    unfold response logkAvg logkHalfdiff
    rw [alpha_of_le h, abs_of_nonpos (by linarith)]; ring

/-- C18: the response is twice continuously differentiable, in particular continuous, and vanishes at 0. -/
theorem c18_response_smooth (avg halfdiff : ℝ) :
    ContDiff ℝ 2 (response avg halfdiff) ∧ response avg halfdiff 0 = 0 := by
  refine ⟨?_, by unfold response; ring⟩
  unfold response
  have := c18_smooth
  fun_prop

/-- the weight is not trivial -/
example : alpha 0 = 0 ∧ alpha (1 / 4) = 203 / 256 := by
  constructor
  · rw [alpha_of_mem (by norm_num) (by norm_num)]; norm_num [alphaRaw]
  · rw [alpha_of_mem (by norm_num) (by norm_num)]; norm_num [alphaRaw]

end Verif.Interp
