import Verif.Model.FitState
import Mathlib.LinearAlgebra.Matrix.NonsingularInverse

/-
The uncertainties of the data on their way into the likelihood: what the writer stores (rabbit/tensorwriter.py:1655-1680,
2072-2081), what is read (rabbit/inputdata.py:33-37, 73-77) and what the fitter makes of it (rabbit/fitter.py:195-213).  The
assignment before each fit is `FitState.prepare`.
-/

namespace Verif.DataVar

noncomputable section

variable {B : Type*} [Fintype B] [DecidableEq B]

/-- the data in a file: `hdata_obs`, `hdata_var` and `hdata_cov_inv` -/
structure File (B : Type*) where
  obs : B → ℝ
  var : Option (B → ℝ)
  covInv : Option (Matrix B B ℝ)

open Classical in
/-- The variances are written only if they differ from the data (tensorwriter.py:2072-2081), a covariance as its inverse
(tensorwriter.py:2088-2124; `cov` is the covariance with all contributions, see C16).  A singular covariance, for which
`np.linalg.inv` raises, is excluded by the hypotheses of the theorems. -/
def written (obs var : B → ℝ) (cov : Option (Matrix B B ℝ)) : File B :=
  ⟨obs, if ∃ b, var b ≠ obs b then some var else none, cov.map fun C => C⁻¹⟩

/-- The weight matrix of a covariance fit (fitter.py:202-213); `FitInputData` has no `getattr`: `AttributeError`. -/
def dataCovInv (f : File B) : Res (Matrix B B ℝ) :=
  match f.covInv with
  | none => .error .attr
  | some W => .ok W

end

end Verif.DataVar
