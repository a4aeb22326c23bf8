import Mathlib.Data.Real.Basic

/-
Interpolation between the up and down response of a nuisance, rabbit/fitter.py:1703-1716, and the
average / half-difference encoding of the two responses written by rabbit/tensorwriter.py:315-387.
-/

namespace Verif.Interp

noncomputable section

/-- `0.125 * twox * (twox2 * (3.0 * twox2 - 10.0) + 15.0)` with `twox = 2 θ` (fitter.py:1705-1707) -/
def alphaRaw (θ : ℝ) : ℝ :=
  let twox := 2 * θ
  let twox2 := twox * twox
  0.125 * twox * (twox2 * (3 * twox2 - 10) + 15)

/-- `tf.clip_by_value(alpha, -1.0, 1.0)` (fitter.py:1708) -/
def alpha (θ : ℝ) : ℝ := max (-1) (min (alphaRaw θ) 1)

/-- Response of one nuisance: `logk · [θ, θ·alpha]` with the two stored components (fitter.py:1710-1716, 1763). -/
def response (avg halfdiff θ : ℝ) : ℝ := avg * θ + halfdiff * (θ * alpha θ)

/-- components booked for an asymmetric pair of log-variations (tensorwriter.py:376-387); `logkdown` is minus
the logarithm of the down ratio (tensorwriter.py:1236, 325) -/
def logkAvg (logkup logkdown : ℝ) : ℝ := 0.5 * (logkup + logkdown)
def logkHalfdiff (logkup logkdown : ℝ) : ℝ := 0.5 * (logkup - logkdown)

end

end Verif.Interp
