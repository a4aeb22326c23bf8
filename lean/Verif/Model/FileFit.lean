import Verif.Model.LinearFit
import Verif.Model.ReadTensor
import Verif.Model.SatTest
import Mathlib.LinearAlgebra.Matrix.NonsingularInverse

/-
The fitter constructed on a written file (rabbit/fitter.py:160-232, 240-382), as it is for a Poisson fit with the default
parameter model `Mu`, without or with bin-by-bin parameters, and for chi-square and covariance fits without them, and without blinding, frozen parameters, regularizers or external terms.

Simplifications: data that are not numbers are read as zero; options that move the constraint centres
(`--setConstraintMinimum`) are left out.
-/

namespace Verif.FileFit

open Verif.Writer Verif.LinearFit

noncomputable section

/-- a stored number -/
def real : FVal ℝ → ℝ
  | .fin v => v
  | _ => 0

/-- templates as read (inputdata.py:82-118) -/
def bodyOf (t : Tensor ℝ) : LinearFit.Body :=
  match t.body with
  | .dense norm logk => .dense (readDense t norm logk)
  | .sparse out => .sparse (readSparse out)

/-- rates at the default parameters (fitter.py:1648-1657) -/
def initRates (nproc : Nat) (xdef : List ℝ) : Yields.Rates :=
  match ParamModels.muCompute nproc xdef with
  | .ok l => ⟨1, fun _ p => l.getD p 1⟩
  | .error _ => ⟨1, fun _ _ => 1⟩

/-- The fitter on a file: sizes and templates from the file, data set by `set_nobs` (fitter.py:163-196; rabbit_fit.py), one parameter of interest per signal
(param_model.py:245-276) and one parameter per nuisance (fitter.py:275-300), constraints of weight zero for the former and of
the stored weights around zero for the latter (fitter.py:302-380). -/
def ofFile (t : Tensor ℝ) (st : SystType) (xdef : List ℝ) (neg : Bool) : Fitter where
  model := SatTest.muModel t.procs.length t.signals xdef neg
  shape := t.shape st
  body := bodyOf t
  rinit := initRates t.procs.length xdef
  fit := .poisson
  nobs := fun b => real (t.dataObs b)
  varnobs := fun b => real (t.dataVar b)
  W := 1
  stat := none
  doBlinding := false
  off := ⟨fun _ => 1, fun _ => 0⟩
  mask := fun _ => false
  cw := fun i => if (i : Nat) < t.signals.length then 0 else t.weights.getD (i - t.signals.length) 0
  x0 := fun i => if (i : Nat) < t.signals.length then xdef.getD i 0 else 0
  regs := []
  tau2 := 1
  ext := []
  force := false

/-- bin-by-bin treatment in its default mode: one factor (or shift) per bin around one (zero), from the stored sums and
sums of squares of the weights, `--minBBKstat 0` (bbstat.py:70-86, 98-173, 227-248; parsing.py:396-423).  The type `automatic` is gamma
for a Poisson fit.  `newton` is read in full mode only. -/
def statOf (t : Tensor ℝ) (kind : BBB.Kind) : LinearFit.Stat where
  mode := .lite
  kind := kind
  sumw := t.sumw
  sumw2 := t.sumw2
  beta0 := fun _ _ => match kind with
    | .gamma | .normMult => 1
    | .normAdd => 0
  minK := 0
  newton := fun _ _ _ => 0

/-- the fitter on a file with bin-by-bin statistics -/
def ofFileStat (t : Tensor ℝ) (st : SystType) (xdef : List ℝ) (neg : Bool) (kind : BBB.Kind) : Fitter :=
  { ofFile t st xdef neg with stat := some (statOf t kind) }

/-- The fitter of a chi-square fit to the data of a file (`--chisqFit`): `set_nobs` is called with the data alone
(rabbit_fit.py:940), raises if a bin is not positive, and takes the data as variances (fitter.py:198-201, 773-786). -/
def ofFileChisq (t : Tensor ℝ) (st : SystType) (xdef : List ℝ) (neg : Bool) : Res Fitter :=
  match setNobs true (fun b : Fin t.nbins => real (t.dataObs b)) none with
  | .error e => .error e
  | .ok (n, v) => .ok { ofFile t st xdef neg with
      fit := .chisq
      nobs := fun b => if h : b < t.nbins then n ⟨b, h⟩ else 0
      varnobs := fun b => if h : b < t.nbins then (v.getD fun _ => 0) ⟨b, h⟩ else 0 }

/-- The fitter of a covariance fit to the data of a file (`--covarianceFit`): the weights are the stored inverse
(tensorwriter.py:2118-2124; fitter.py:202-213); without one `self.indata.getattr` raises, as `FitInputData` has no such
attribute.  A matrix of another size makes the product with the residuals raise when the loss is first evaluated
(fitter.py:2049-2058), here at once.  A singular covariance, for which `np.linalg.inv` raises when writing, is excluded by
the hypotheses of the theorems. -/
def ofFileCov (t : Tensor ℝ) (st : SystType) (xdef : List ℝ) (neg : Bool) : Res Fitter :=
  match t.fullCov with
  | none => .error .attr
  | some C => if C.n = t.nbins then
      .ok { ofFile t st xdef neg with fit := .covariance, W := (Matrix.of fun b b' : Fin t.nbins => C.val b b')⁻¹ }
    else .error .value

end

end Verif.FileFit
