import Verif.Model.DataVar
import Verif.Props.FitState
import Verif.Props.Likelihood

/-! C79: the uncertainties given with the data are those of the fit. -/

namespace Verif.DataVar

open Verif.FitState

noncomputable section

variable {P K B F R O : Type*} [DecidableEq P] [Fintype B] [DecidableEq B]

/-- C79, file: the data and their variances are recovered; no entry for the variances stands for variances equal to the
data. -/
theorem c79_file (obs var : B → ℝ) (C : Option (Matrix B B ℝ)) :
    (written obs var C).obs = obs ∧ (written obs var C).var.getD obs = var := by
  refine ⟨rfl, ?_⟩
  unfold written
  dsimp only
  split_ifs with h
  · rfl
  · push Not at h
    exact funext fun b => (h b).symm

theorem setNobs_var {c : Cfg P K B F R O} {w : B → ℝ} {u : Option (B → ℝ)} {v v' : Vars P K B R O} (hc : c.chisq = true)
    (hv : v.varnobs.isSome = true) (h : FitState.setNobs c w u v = (v', .ok ())) : v'.nobs = w ∧ v'.varnobs = some (u.getD w) := by
  unfold FitState.setNobs at h
  split_ifs at h
  · exact nomatch (Prod.mk.inj h).2
  · obtain ⟨rfl, -⟩ := Prod.mk.inj h
    obtain ⟨y, hy⟩ := Option.isSome_iff_exists.1 hv
    exact ⟨rfl, by rw [hy]; rfl⟩

theorem toyStart_data (c : Cfg P K B F R O) (o : ToyOpts) (d : Draws P K B) (s : Vars P K B R O) :
    (toyStart c o d s).nobs = s.nobs ∧ (toyStart c o d s).varnobs = s.varnobs := by
  unfold toyStart
  dsimp only
  split_ifs <;> exact ⟨rfl, rfl⟩

theorem toySyst_var (c : Cfg P K B F R O) (o : ToyOpts) (d : Draws P K B) (s : Vars P K B R O) :
    (toySyst c o d s).varnobs = s.varnobs := by
  unfold toySyst
  split <;> rfl

theorem defaultAssign_var (c : Cfg P K B F R O) (s : Vars P K B R O) : (defaultAssign c s).varnobs = s.varnobs := by
  unfold defaultAssign
  dsimp only
  split_ifs <;> rfl

/-- C79, toys: a chi-square fit to a toy whose data are not randomised, or normally, uses the variances given with the data
(missing: the data themselves and Poisson toys, see `c79_data_violated`). -/
theorem c79_toys_partial (c : Cfg P K B F R O) (o : ToyOpts) (d : Draws P K B) (obs var : B → ℝ) (C : Option (Matrix B B ℝ))
    (s s' : Vars P K B R O) (hc : c.chisq = true) (hcov : c.covFit = false) (hs : s.varnobs.isSome = true)
    (ho : o.data = .normal ∨ (o.data = .none ∧ o.mode = .observed)) (hneq : ∃ b, var b ≠ obs b)
    (h : prepare c o .toy d (written obs var C).obs (written obs var C).var s = (s', .ok ())) : s'.varnobs = some var := by
  have hw : (written obs var C).var = some var := by
    unfold written
    rw [if_pos hneq]
  rw [hw] at h
  unfold prepare toyAssign at h
  dsimp only at h
  have hsome : (toySyst c o d (defaultAssign c s)).varnobs.isSome = true := by rw [toySyst_var, defaultAssign_var]; exact hs
  rcases ht : toyData c o d (written obs var C).obs (some var) (toySyst c o d (defaultAssign c s)) with ⟨v, e | u⟩
  · rw [ht] at h; exact nomatch (Prod.mk.inj h).2
  · rw [ht] at h
    obtain ⟨rfl, -⟩ := Prod.mk.inj h
    rw [(toyStart_data c o d v).2]
    unfold toyData at ht
    rcases ho with ho | ⟨ho, hm⟩
    · rw [ho, hcov] at ht
      exact (setNobs_var hc hsome ht).2
    · rw [ho, hm] at ht
      exact (setNobs_var hc hsome ht).2

/-- C79 does not hold for fits to data: the variances given with the data, though stored and read, are not handed to the
fit, which takes the data themselves as their variances. -/
theorem c79_data_violated (c : Cfg P K B F R O) (o : ToyOpts) (d : Draws P K B) (obs var : B → ℝ) (C : Option (Matrix B B ℝ))
    (s s' : Vars P K B R O) (hc : c.chisq = true) (hs : s.varnobs.isSome = true) (hneq : ∃ b, var b ≠ obs b)
    (h : prepare c o .data d (written obs var C).obs (written obs var C).var s = (s', .ok ())) :
    s'.varnobs = some obs ∧ s'.varnobs ≠ some var := by
  unfold prepare at h
  have := (setNobs_var hc (by rw [defaultAssign_var]; exact hs) h).2
  refine ⟨this, fun he => ?_⟩
  rw [this] at he
  obtain ⟨b, hb⟩ := hneq
  exact hb (congrFun (Option.some.inj he).symm b)

/-- C79, covariance fits: the likelihood weights the residuals with the inverse of the given covariance; with a diagonal
covariance it is the chi-square of the given variances. -/
theorem c79_covariance (obs var pred : B → ℝ) (C : Matrix B B ℝ) (hC : IsUnit C.det) :
    ∃ W, dataCovInv (written obs var (some C)) = .ok W ∧ W * C = 1 ∧
      ((∀ b, var b ≠ 0) → C = Matrix.diagonal var → lnCov W obs pred = lnChisq obs var pred) := by
  refine ⟨C⁻¹, rfl, Matrix.nonsing_inv_mul _ hC, fun hv h => ?_⟩
  have hi : C⁻¹ = Matrix.diagonal fun b => (var b)⁻¹ := by
    refine Matrix.inv_eq_left_inv ?_
    rw [h, Matrix.diagonal_mul_diagonal, ← Matrix.diagonal_one]
    exact congrArg _ (funext fun b => inv_mul_cancel₀ (hv b))
  rw [hi]
  unfold lnCov lnChisq
  congr 1
  refine Finset.sum_congr rfl fun b _ => ?_
  rw [Matrix.mulVec_diagonal, Pi.sub_apply]
  ring

/-- C79 does not hold for covariance fits to a file without covariance: the message announces the reciprocal variances of
the data, but the fitter cannot be built, whatever the data. -/
theorem c79_covariance_violated (obs var : B → ℝ) : dataCovInv (written obs var none) = .error .attr := rfl

/-- two correlated bins -/
example : IsUnit (!![4, 1; 1, 9] : Matrix (Fin 2) (Fin 2) ℝ).det := by
  rw [Matrix.det_fin_two_of]
  norm_num

/-- data 7 with variance 3, in a chi-square fit: the preparation of the fit to the data succeeds -/
example : (prepare exampleCfg ⟨.frequentist, .poisson, .expected, true⟩ .data exampleDraws
    (written (fun _ => 7) (fun _ => 3) none).obs (written (fun _ => 7) (fun _ => 3) none).var exampleVars).2 = .ok () := by
  unfold prepare FitState.setNobs
  dsimp only
  rw [if_neg (by rintro ⟨-, b, hb⟩; norm_num [written] at hb)]

/-- and for a toy at the data -/
example : (prepare exampleCfg ⟨.none, .none, .observed, true⟩ .toy exampleDraws
    (written (fun _ => 7) (fun _ => 3) none).obs (written (fun _ => 7) (fun _ => 3) none).var exampleVars).2 = .ok () := by
  unfold prepare toyAssign toyData FitState.setNobs
  dsimp only
  rw [if_neg (by rintro ⟨-, b, hb⟩; norm_num [written] at hb)]

end

end Verif.DataVar
