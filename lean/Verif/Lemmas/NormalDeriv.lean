import Verif.Lemmas.Normal
import Verif.Model.LikelihoodLimit
import Mathlib.MeasureTheory.Integral.IntervalIntegral.FundThmCalculus
import Mathlib.Analysis.SpecialFunctions.Sqrt

/-
The derivative of the standard normal distribution function is its density.
-/

namespace Verif.Normal

open MeasureTheory Set

theorem Phi_hasDerivAt (x : ℝ) : HasDerivAt Phi (pdf x) x := by
  have : Phi = fun x => Phi 0 + ∫ t in (0 : ℝ)..x, pdf t := by
    funext x
    unfold Phi
    rw [intervalIntegral.integral_Iic_sub_Iic integrable_pdf.integrableOn integrable_pdf.integrableOn |>.symm]
    ring
  rw [this]
  have h := intervalIntegral.integral_hasDerivAt_right (integrable_pdf.intervalIntegrable (a := 0) (b := x))
    (continuous_pdf.stronglyMeasurableAtFilter _ _) continuous_pdf.continuousAt
  simpa using h.const_add (Phi 0)

theorem pdf_eq (x : ℝ) : LikelihoodLimit.normalPdf x = pdf x := by
  unfold LikelihoodLimit.normalPdf pdf ProbabilityTheory.gaussianPDFReal
  rw [div_eq_inv_mul]
  congr 2
  · simp
  · simp
    ring

end Verif.Normal
