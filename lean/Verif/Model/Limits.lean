import Verif.Model.Py
import Verif.Model.Scans
import Mathlib.Analysis.Real.Sqrt

/-
Gaussian asymptotic limits (bin/rabbit_limit.py:53-246, rabbit/asymptotic_limits.py).
The normal distribution function `Phi` (`tfh.normal_cdf`) and its inverse `q` (`scipy.stats.norm.ppf`) are parameters.
The likelihood scans, the fits and the output histograms are not part of this model.  Exact arithmetic.
-/

namespace Verif.Limits

open Verif

/-- what the limits take from a fitter: all parameter names, the number of parameters of interest, the number of parameters
of the parameter model, `get_poi()`, `get_theta()` and the diagonal of the covariance -/
structure Fitted where
  parms : List String
  npoi : Nat
  nparams : Nat
  poi : List ℝ
  theta : List ℝ
  covDiag : List ℝ

/-- best fit and error, for the asimov and for the data fit -/
structure Reading where
  xbest : ℝ
  xerr : ℝ
  xobs : ℝ
  xobsErr : ℝ

/-- `get_poi()[idx]` or `get_theta()[idx - nparams]` (rabbit_limit.py:139-150); an index below zero counts from the end -/
def valueAt (f : Fitted) (isPoi : Bool) (idx : Nat) : Res ℝ :=
  if isPoi then
    match f.poi[idx]? with
    | some v => .ok v
    | none => .error .index
  else match Scans.pyIndex f.theta.length ((idx : Int) - f.nparams) with
    | .error e => .error e
    | .ok k => match f.theta[k]? with
      | some v => .ok v
      | none => .error .index

/-- `cov[idx, idx] ** 0.5` (rabbit_limit.py:152, 161) -/
noncomputable def errAt (f : Fitted) (idx : Nat) : Res ℝ :=
  match f.covDiag[idx]? with
  | some v => .ok (Real.sqrt v)
  | none => .error .index

/-- the best fit and the error of a parameter (rabbit_limit.py:130-165); all errors after the first test
are `IndexError` -/
noncomputable def reading (allowNegative : Bool) (asimov data : Fitted) (key : String) : Res Reading :=
  if key ∉ data.parms then .error .runtime
  else
    let idx := data.parms.idxOf key
    let isPoi : Bool := key ∈ (data.parms.take data.nparams).take data.npoi
    match valueAt asimov isPoi idx, valueAt data isPoi idx, errAt asimov idx, errAt data idx with
    | .ok xbest, .ok xobs, .ok xerr, .ok xobsErr =>
      if isPoi ∧ ¬ allowNegative then .ok ⟨xbest, 2 * xerr * Real.sqrt xbest, xobs, 2 * xobsErr * Real.sqrt xobs⟩
      else .ok ⟨xbest, xerr, xobs, xobsErr⟩
    | _, _, _, _ => .error .index

/-- the expected limit (rabbit_limit.py:176-182) -/
noncomputable def expectedLimit (q : ℝ → ℝ) (xbest xerr clS clB : ℝ) : ℝ :=
  let clSB := clS * clB
  let qmuA := (q clB - q clSB) ^ 2
  xbest + xerr * Real.sqrt qmuA

/-- the expected limits of all parameters, levels and quantiles (rabbit_limit.py:97-188, mode `gaussian`) -/
noncomputable def expectedLimits (q : ℝ → ℝ) (allowNegative : Bool) (asimov data : Fitted) (levels clbs : List ℝ) :
    List String → Res (List (List (List ℝ)))
  | [] => .ok []
  | key :: keys =>
    match reading allowNegative asimov data key with
    | .error e => .error e
    | .ok r => match expectedLimits q allowNegative asimov data levels clbs keys with
      | .error e => .error e
      | .ok rest => .ok ((levels.map fun clS => clbs.map fun clB => expectedLimit q r.xbest r.xerr clS clB) :: rest)

/-- `qmu_sqrt` (asymptotic_limits.py:196-213) -/
noncomputable def qmuSqrt (xobs xobsErr x : ℝ) : ℝ :=
  if xobs < 0 then Real.sqrt (((x - xobs) / xobsErr) ^ 2 - (xobs / xobsErr) ^ 2) else (x - xobs) / xobsErr

/-- `qA_sqrt` (asymptotic_limits.py:210-211) -/
noncomputable def qASqrt (xerr x : ℝ) : ℝ := x / xerr

/-- the function whose root is the observed limit (asymptotic_limits.py:213-216) -/
noncomputable def rootFn (Phi : ℝ → ℝ) (xobs xobsErr xerr clS x : ℝ) : ℝ :=
  let qmu := qmuSqrt xobs xobsErr x
  let qA := qASqrt xerr x
  Phi (-qmu) - clS * Phi (qA - qmu)

/-- the constraint of the likelihood limit (asymptotic_limits.py:56-59); the square roots are given -/
noncomputable def constraint (Phi : ℝ → ℝ) (cl qmu qA : ℝ) : ℝ := cl * Phi (qA - qmu) + Phi qmu - 1

end Verif.Limits
