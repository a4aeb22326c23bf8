import Mathlib.Analysis.SpecialFunctions.Log.Basic
import Mathlib.Analysis.SpecialFunctions.Gamma.Basic
import Mathlib.LinearAlgebra.Matrix.DotProduct
import Mathlib.Data.Real.Basic
import Verif.Model.Py

/-
The terms of the negative log-likelihood (rabbit/fitter.py:773-786, 2023-2124).
Simplification everywhere in this file: float64 is ℝ.  Arrays over bins / parameters are functions on
a finite index type; `tf.reduce_sum` is `∑`.
-/

namespace Verif

open Matrix

noncomputable section

variable {ι κ : Type*} [Fintype ι] [Fintype κ]

/-- `set_nobs`, the stored `lognobs` (rabbit/fitter.py:783-786): `log(where(values == 0, 1, values))`. -/
def lognobs (nobs : ℝ) : ℝ := Real.log (if nobs = 0 then 1 else nobs)

/-- `set_nobs` (rabbit/fitter.py:773-786): returns the pair (nobs, varnobs); the chi-square fit rejects
`nobs ≤ 0`; `varnobs` is only assigned in a chi-square fit (`none` otherwise). -/
def setNobs (chisqFit : Bool) (values : ι → ℝ) (variances : Option (ι → ℝ)) :
    Res ((ι → ℝ) × Option (ι → ℝ)) :=
  open Classical in
  if chisqFit then
    if ∃ i, values i ≤ 0 then .error .runtime
    else .ok (values, some (variances.getD values))
  else .ok (values, none)

/-- Poisson term of one bin, offset form (rabbit/fitter.py:2058-2073, `full_nll=False`). -/
def poissonBin (nobs nexp : ℝ) : ℝ :=
  -nobs * (Real.log (if nobs = 0 then 1 else nexp) - lognobs nobs) + nexp - nobs

/-- `tf.math.lgamma` = log |Γ|. -/
def lgamma (x : ℝ) : ℝ := Real.log |Real.Gamma x|

/-- Poisson term of one bin, with the factorial (rabbit/fitter.py:2064-2066, `full_nll=True`). -/
def poissonBinFull (nobs nexp : ℝ) : ℝ :=
  -nobs * Real.log (if nobs = 0 then 1 else nexp) + nexp + lgamma (nobs + 1)

/-- `_compute_ln`, Poisson branch (rabbit/fitter.py:2058-2073). -/
def lnPoisson (full : Bool) (nobs nexp : ι → ℝ) : ℝ :=
  if full then ∑ i, poissonBinFull (nobs i) (nexp i) else ∑ i, poissonBin (nobs i) (nexp i)

/-- `_compute_ln`, chi-square branch (rabbit/fitter.py:2047-2048); `full_nll` is ignored by the code. -/
def lnChisq (nobs varnobs nexp : ι → ℝ) : ℝ := 1 / 2 * ∑ i, (nexp i - nobs i) ^ 2 / varnobs i

/-- `_compute_ln`, covariance branch (rabbit/fitter.py:2049-2057): `0.5 · rᵀ (W r)` with
`r = nobs - nexp` and `W = data_cov_inv`. -/
def lnCov (W : Matrix ι ι ℝ) (nobs nexp : ι → ℝ) : ℝ :=
  1 / 2 * ((nobs - nexp) ⬝ᵥ (W *ᵥ (nobs - nexp)))

/-- The literal constant of rabbit/fitter.py:2037. -/
def halfLog2PiLit : ℝ := 0.9189385332046727

/-- `_compute_lc` (rabbit/fitter.py:2023-2041): Gaussian constraints of weight `cw` around `x0`. -/
def lc (full : Bool) (cw x0 x : κ → ℝ) : ℝ :=
  ∑ k, (cw k * (1 / 2) * (x k - x0 k) ^ 2 +
    if full then (if cw k > 0 then halfLog2PiLit - 1 / 2 * Real.log (if cw k > 0 then cw k else 1) else 0)
    else 0)

/-- Gaussian priors of the model parameters folded into weights (rabbit/fitter.py:305-358).
A prior width is a float that may be `inf`/`nan`: `none` stands for a non-finite width
(`np.isfinite(sigmas)` false). -/
def priorWeight (sigma : Option ℝ) : ℝ :=
  match sigma with
  | some s => if s > 0 then 1 / s ^ 2 else 0
  | none => 0

/-- Prior centres (rabbit/fitter.py:312, 346-348): the declared mean where the prior is active, the
parameter default otherwise. -/
def priorCentre (sigma : Option ℝ) (mean default : ℝ) : ℝ :=
  match sigma with
  | some s => if s > 0 then mean else default
  | none => default

/-- Acceptance of declared priors (rabbit/fitter.py:336-343): a prior on a POI (first `npoi` entries)
with `allowNegativeParam = False` is refused.  Shapes are enforced by the typing of the lists:
`sigmas.length = nparams` is checked first (rabbit/fitter.py:319-324). -/
def acceptPriors (nparams npoi : Nat) (allowNegative : Bool) (sigmas : List (Option ℝ)) :
    Res (List ℝ) :=
  if sigmas.length ≠ nparams then .error .value
  else
    open Classical in
    if (∃ s ∈ sigmas.take npoi, priorWeight s ≠ 0) ∧ allowNegative = false then .error .value
    else .ok (sigmas.map priorWeight)

/-- `_compute_nll` (rabbit/fitter.py:2105-2121): sum of the components that are present. -/
def nllTotal (ln lc : ℝ) (lbeta lpenalty lext : Option ℝ) : ℝ :=
  let l := ln + lc
  let l := match lbeta with | some b => l + b | none => l
  let l := match lpenalty with | some p => l + p | none => l
  match lext with | some e => l + e | none => l

end

end Verif
