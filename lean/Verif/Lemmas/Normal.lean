import Mathlib.Probability.Distributions.Gaussian.Real
import Mathlib.MeasureTheory.Integral.IntegralEqImproper
import Mathlib.MeasureTheory.Measure.Lebesgue.Integral
import Mathlib.MeasureTheory.Integral.IntervalIntegral.Basic

/-
The standard normal distribution function: strictly increasing, symmetric, between zero and one, onto, and with
`Phi (x - s) / Phi x` strictly increasing in `x` for every positive `s`.
-/

namespace Verif.Normal

open MeasureTheory Set ProbabilityTheory Filter

/-- the density, and the distribution function as its integral -/
noncomputable def pdf (t : ℝ) : ℝ := gaussianPDFReal 0 1 t
noncomputable def Phi (x : ℝ) : ℝ := ∫ t in Iic x, pdf t

theorem pdf_pos (t : ℝ) : 0 < pdf t := gaussianPDFReal_pos 0 1 t one_ne_zero

theorem integrable_pdf : Integrable pdf := integrable_gaussianPDFReal 0 1

theorem integral_pdf : ∫ t, pdf t = 1 := integral_gaussianPDFReal_eq_one 0 one_ne_zero

theorem pdf_neg (t : ℝ) : pdf (-t) = pdf t := by
  unfold pdf gaussianPDFReal
  simp

theorem continuous_pdf : Continuous pdf := by
  unfold pdf gaussianPDFReal
  fun_prop

/-- a positive integrable continuous function has a positive integral over an interval -/
theorem integral_Ioc_pos {f : ℝ → ℝ} (hf : Integrable f) (hpos : ∀ t, 0 < f t) {x y : ℝ} (h : x < y) : 0 < ∫ t in Ioc x y, f t := by
  rw [setIntegral_pos_iff_support_of_nonneg_ae (Eventually.of_forall fun t => (hpos t).le) hf.integrableOn]
  have : Function.support f = univ := by
    ext t
    simp [(hpos t).ne']
  rw [this, univ_inter, Real.volume_Ioc]
  simpa using h

theorem integral_Iic_split {f : ℝ → ℝ} (hf : Integrable f) {x y : ℝ} (h : x ≤ y) :
    ∫ t in Iic y, f t = (∫ t in Iic x, f t) + ∫ t in Ioc x y, f t := by
  rw [← Iic_union_Ioc_eq_Iic h]
  exact setIntegral_union (Iic_disjoint_Ioc le_rfl) measurableSet_Ioc hf.integrableOn hf.integrableOn

theorem Phi_strictMono : StrictMono Phi := by
  intro x y h
  unfold Phi
  rw [integral_Iic_split integrable_pdf h.le]
  have := integral_Ioc_pos integrable_pdf pdf_pos h
  linarith

theorem Phi_nonneg (x : ℝ) : 0 ≤ Phi x := setIntegral_nonneg measurableSet_Iic fun t _ => (pdf_pos t).le

theorem Phi_pos (x : ℝ) : 0 < Phi x := (Phi_nonneg (x - 1)).trans_lt (Phi_strictMono (by linarith))

theorem Phi_neg (x : ℝ) : Phi (-x) = 1 - Phi x := by
  have h1 : Phi (-x) = ∫ t in Ioi x, pdf t := by
    unfold Phi
    rw [← integral_comp_neg_Ioi]
    simp only [pdf_neg]
  have h2 := integral_add_compl (measurableSet_Iic (a := x)) integrable_pdf
  rw [compl_Iic, integral_pdf] at h2
  rw [h1]
  unfold Phi
  linarith

theorem Phi_lt_one (x : ℝ) : Phi x < 1 := by
  have := Phi_neg x
  have := Phi_pos (-x)
  linarith

theorem Phi_continuous : Continuous Phi := by
  have : Phi = fun x => Phi 0 + ∫ t in (0 : ℝ)..x, pdf t := by
    funext x
    unfold Phi
    rw [intervalIntegral.integral_Iic_sub_Iic integrable_pdf.integrableOn integrable_pdf.integrableOn |>.symm]
    ring
  rw [this]
  exact continuous_const.add (intervalIntegral.continuous_primitive (fun a b => integrable_pdf.intervalIntegrable) 0)

theorem Phi_atBot : Tendsto Phi atBot (nhds 0) := by
  exact tendsto_integral_Iic_zero tendsto_id

theorem Phi_atTop : Tendsto Phi atTop (nhds 1) := by
  have h : Phi = fun x => 1 - Phi (-x) := by
    funext x
    rw [Phi_neg]
    ring
  rw [h]
  simpa using (Phi_atBot.comp tendsto_neg_atTop_atBot).const_sub 1

/-- every probability is reached -/
theorem Phi_onto {p : ℝ} (h0 : 0 < p) (h1 : p < 1) : ∃ x, Phi x = p := by
  obtain ⟨a, ha⟩ := (Phi_atBot.eventually (gt_mem_nhds h0)).exists
  obtain ⟨b, hb⟩ := (Phi_atTop.eventually (lt_mem_nhds h1)).exists
  have hab : a ≤ b := Phi_strictMono.le_iff_le.1 (ha.trans hb).le
  obtain ⟨x, -, hx⟩ := intermediate_value_Icc hab Phi_continuous.continuousOn ⟨ha.le, hb.le⟩
  exact ⟨x, hx⟩

/-- the density of the shifted variable is the density times an increasing function -/
theorem pdf_sub (t s : ℝ) : pdf (t - s) = Real.exp (t * s - s ^ 2 / 2) * pdf t := by
  unfold pdf gaussianPDFReal
  simp only [NNReal.coe_one, sub_zero, mul_one]
  rw [mul_left_comm, ← Real.exp_add]
  congr 2
  ring

theorem Phi_sub (x s : ℝ) : Phi (x - s) = ∫ t in Iic x, Real.exp (t * s - s ^ 2 / 2) * pdf t := by
  simp only [← pdf_sub]
  unfold Phi
  have := (measurePreserving_sub_right (volume : Measure ℝ) s).setIntegral_preimage_emb
    (MeasurableEquiv.subRight s).measurableEmbedding pdf (Iic (x - s))
  rw [← this]
  congr 2
  ext t
  simp

theorem integrable_weighted (s : ℝ) : Integrable fun t => Real.exp (t * s - s ^ 2 / 2) * pdf t := by
  simp only [← pdf_sub]
  exact integrable_pdf.comp_sub_right s

/-- the ratio of the shifted to the unshifted distribution function grows -/
theorem Phi_ratio {s x y : ℝ} (hs : 0 < s) (h : x < y) : Phi (x - s) / Phi x < Phi (y - s) / Phi y := by
  rw [div_lt_div_iff₀ (Phi_pos x) (Phi_pos y)]
  set w : ℝ := Real.exp (x * s - s ^ 2 / 2) with hw
  have h1 : Phi (x - s) ≤ w * Phi x := by
    rw [Phi_sub]
    unfold Phi
    rw [← integral_const_mul]
    refine setIntegral_mono_on (integrable_weighted s).integrableOn (integrable_pdf.const_mul w).integrableOn measurableSet_Iic
      fun t ht => mul_le_mul_of_nonneg_right (Real.exp_le_exp.2 ?_) (pdf_pos t).le
    have : t * s ≤ x * s := mul_le_mul_of_nonneg_right ht hs.le
    linarith
  have h2 : Phi (y - s) - Phi (x - s) > w * (Phi y - Phi x) := by
    rw [Phi_sub, Phi_sub, integral_Iic_split (integrable_weighted s) h.le]
    unfold Phi
    rw [integral_Iic_split integrable_pdf h.le, add_sub_cancel_left, add_sub_cancel_left, ← integral_const_mul]
    have hpos : 0 < ∫ t in Ioc x y, (Real.exp (t * s - s ^ 2 / 2) - w) * pdf t := by
      rw [setIntegral_pos_iff_support_of_nonneg_ae]
      · have : Function.support (fun t => (Real.exp (t * s - s ^ 2 / 2) - w) * pdf t) ∩ Ioc x y = Ioc x y := by
          apply inter_eq_right.2
          intro t ht
          rw [Function.mem_support]
          refine mul_ne_zero (sub_ne_zero.2 (Real.exp_lt_exp.2 ?_).ne') (pdf_pos t).ne'
          have : x * s < t * s := mul_lt_mul_of_pos_right ht.1 hs
          linarith
        rw [this, Real.volume_Ioc]
        simpa using h
      · filter_upwards [ae_restrict_mem measurableSet_Ioc] with t ht
        refine mul_nonneg (sub_nonneg.2 (Real.exp_le_exp.2 ?_)) (pdf_pos t).le
        have : x * s ≤ t * s := mul_le_mul_of_nonneg_right ht.1.le hs.le
        linarith
      · simp only [sub_mul]
        exact ((integrable_weighted s).sub (integrable_pdf.const_mul w)).integrableOn
    simp only [sub_mul] at hpos
    rw [integral_sub (integrable_weighted s).integrableOn (integrable_pdf.const_mul w).integrableOn] at hpos
    linarith
  have hx := Phi_pos x
  have hy : 0 < Phi y - Phi x := sub_pos.2 (Phi_strictMono h)
  have h3 := mul_lt_mul_of_pos_right h2 hx
  have h4 := mul_le_mul_of_nonneg_right h1 hy.le
  nlinarith

end Verif.Normal
