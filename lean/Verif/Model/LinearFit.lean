import Verif.Model.BBBFull
import Verif.Model.Cov
import Verif.Model.ExternalTerms
import Verif.Model.FitParams
import Verif.Model.ParamModels
import Verif.Model.Regularization
import Verif.Model.Yields

/-
When the fit treats the likelihood as purely quadratic (`Fitter.is_linear`, rabbit/fitter.py:440-452, and
`BinByBinStat.is_linear`, rabbit/bbstat/bbstat.py:254-264), together with the whole chain from the parameters to the
value of the loss that the decision is about (rabbit/fitter.py:690-735, 1682-1815, 2023-2124;
rabbit/bbstat/bbstat.py:365-419, 437-909).

Numbers are real.  The Newton iteration of the gamma type in full mode is a parameter (modelled in Model/BBBFull.lean);
variations by β (`betavar`) are not applied for the additive type and are left out for the others (Model/BetaVar.lean).
-/

namespace Verif.LinearFit

open Verif.BBB Verif.Yields Verif.ParamModels Verif.FitParams Verif.Regularization

noncomputable section

/-- Settings and templates of the bin-by-bin treatment (bbstat.py:60-225).  `beta0` has one column in lite mode. -/
structure Stat where
  mode : Mode
  kind : Kind
  sumw : Nat → Nat → ℝ
  sumw2 : Nat → Nat → ℝ
  beta0 : Nat → Nat → ℝ
  minK : ℝ
  /-- `_newton_solve_nbeta` for the yields given -/
  newton : (Nat → Nat → ℝ) → Nat → Nat → ℝ

/-- the two storage forms of the templates -/
inductive Body where
  | dense (d : Dense)
  | sparse (t : Sparse)

/-- What the loss and the decision read of the fitter. -/
structure Fitter where
  model : PModel ℝ
  shape : Shape
  body : Body
  /-- rates at the default parameters (fitter.py:1648-1657) -/
  rinit : Yields.Rates
  fit : Fit
  nobs : Nat → ℝ
  varnobs : Nat → ℝ
  /-- `data_cov_inv` -/
  W : Matrix (Fin shape.nbins) (Fin shape.nbins) ℝ
  /-- `none`: not enabled -/
  stat : Option Stat
  doBlinding : Bool
  off : FitParams.BlindValues model.npoi shape.nsyst
  mask : Fin (model.npoi + model.npou + shape.nsyst) → Bool
  cw : Fin (model.npoi + model.npou + shape.nsyst) → ℝ
  x0 : Fin (model.npoi + model.npou + shape.nsyst) → ℝ
  /-- regularizers with the expectations they compare to, assigned after the construction (rabbit_fit.py:859-866) -/
  regs : List (Svd ℝ × Grid.Tensor ℝ)
  /-- `exp(2 tau)` -/
  tau2 : ℝ
  ext : List (Ext.Built ℝ)
  /-- `--forceLinear` -/
  force : Bool

namespace Fitter

/-- sizes and switches read by the getters (fitter.py:690-735) -/
abbrev cfg (F : Fitter) : Cfg :=
  { npoi := F.model.npoi, npou := F.model.npou, nsyst := F.shape.nsyst, allowNeg := F.model.allowNeg,
    doBlinding := F.doBlinding }

/-- number of fit parameters -/
abbrev n (F : Fitter) : Nat := F.model.npoi + F.model.npou + F.shape.nsyst

/-- `BinByBinStat.is_linear` (bbstat.py:254-264) -/
def statLinear (F : Fitter) : Bool :=
  match F.stat with
  | none => true
  | some s => s.kind == .normAdd

/-- `Fitter.is_linear` (fitter.py:446-452); the fit is the chi-square one, the covariance one, or else Poisson -/
def isLinear (F : Fitter) : Bool :=
  F.force || ((F.fit == .chisq || F.fit == .covariance) && F.model.isLinear && F.shape.symmetric && !F.shape.logNormal
    && F.statLinear)

/-- the yields before β (fitter.py:1682-1794); the rates broadcast over processes when they have one column -/
def yields (F : Fitter) (full : Bool) (param : List ℝ) (θ : Nat → ℝ) : Res ((Nat → ℝ) × (Nat → Nat → ℝ)) :=
  match F.model.compute param full with
  | .error e => .error e
  | .ok r =>
    if r.cols = 1 ∨ r.cols = F.shape.nproc then
      let ry : Yields.Rates := ⟨r.rows, fun b p => r.val b (if r.cols = 1 then 0 else p)⟩
      match F.body with
      | .dense d => (d.scaled F.shape F.model.nparams F.rinit).compute F.shape full ry θ
      | .sparse t => (t.scaled F.shape F.model.nparams F.rinit).compute F.shape full ry θ
    else .error .value

/-- one bin of the lite mode -/
def liteBin (F : Fitter) (s : Stat) (norm : Nat → Nat → ℝ) (b : Nat) : LiteBin (Fin F.shape.nproc) :=
  { sumw := fun p => s.sumw b p, sumw2 := fun p => s.sumw2 b p, norm := fun p => norm b p
    nobs := F.nobs b, varnobs := F.varnobs b, beta0 := s.beta0 b 0, minK := s.minK }

/-- one bin of the full mode -/
def fullBin (F : Fitter) (s : Stat) (norm : Nat → Nat → ℝ) (b : Nat) : FullBin (Fin F.shape.nproc) :=
  { sumw := fun p => s.sumw b p, sumw2 := fun p => s.sumw2 b p, norm := fun p => norm b p
    nobs := F.nobs b, varnobs := F.varnobs b, beta0 := fun p => s.beta0 b p, minK := s.minK }

/-- the bins of the covariance fit, lite mode -/
def covLite (F : Fitter) (s : Stat) (norm : Nat → Nat → ℝ) : CovLite (Fin F.shape.nbins) :=
  { W := F.W
    nobs := fun b => F.nobs b
    nActive := fun b => (F.liteBin s norm b).nActiveSafe
    nZero := fun b => (F.liteBin s norm b).nZero
    nexp := fun b => (F.liteBin s norm b).nexp
    k := fun b => (F.liteBin s norm b).k
    varbeta := fun b => (F.liteBin s norm b).varbeta
    beta0 := fun b => s.beta0 b 0
    masked := fun b => (F.liteBin s norm b).masked }

/-- the bins of the covariance fit, full mode -/
def covFull (F : Fitter) (s : Stat) (norm : Nat → Nat → ℝ) : CovFull (Fin F.shape.nbins) (Fin F.shape.nproc) :=
  { W := F.W
    nobs := fun b => F.nobs b
    norm := fun b p => norm b p
    k := fun b p => (F.fullBin s norm b).k p
    varbeta := fun b p => s.sumw2 b p
    beta0 := fun b p => s.beta0 b p
    masked := fun b p => (F.fullBin s norm b).masked p }

/-- profiled β in lite mode (bbstat.py:459-822, 832-833): bins outside the fit keep β0.  A covariance fit with the
gamma type does not exist (bbstat.py:88-96). -/
def betaLite (F : Fitter) (s : Stat) (norm : Nat → Nat → ℝ) (b : Nat) : ℝ :=
  if h : b < F.shape.nbins then
    match F.fit, s.kind with
    | .covariance, .normAdd => (F.covLite s norm).profileAdd ⟨b, h⟩
    | .covariance, .normMult => (F.covLite s norm).profileMult ⟨b, h⟩
    | .covariance, .gamma => s.beta0 b 0
    | f, k => (F.liteBin s norm b).profile f k
  else s.beta0 b 0

/-- profiled β in full mode; `none`: the code divides by zero -/
def betaFull (F : Fitter) (s : Stat) (norm : Nat → Nat → ℝ) (b : Nat) : Option (Fin F.shape.nproc → ℝ) :=
  if h : b < F.shape.nbins then
    match F.fit, s.kind with
    | .covariance, .normAdd => some ((F.covFull s norm).profileAdd ⟨b, h⟩)
    | .covariance, .normMult => some ((F.covFull s norm).profileMult ⟨b, h⟩)
    | .covariance, .gamma => none
    | _, .gamma => some fun p => s.newton norm b p
    | f, k => (F.fullBin s norm b).profile f k
  else some fun p => s.beta0 b p

/-- `profile_and_apply` with `lbeta` (bbstat.py:365-419, 437-909): yields with β applied and the constraint term, which
runs over all bins.  `none`: not a number. -/
def withBeta (F : Fitter) (nexp : Nat → ℝ) (norm : Nat → Nat → ℝ) : Option ((Nat → ℝ) × Option ℝ) :=
  match F.stat with
  | none => some (nexp, none)
  | some s => match s.mode with
    | .lite => some (fun b => (F.liteBin s norm b).applied s.kind (F.betaLite s norm b),
        some (∑ b ∈ Finset.range F.shape.nbinsfull,
          lbeta s.kind (F.liteBin s norm b).masked (F.liteBin s norm b).k (s.beta0 b 0) (F.betaLite s norm b)))
    | .full =>
      open Classical in
      if ∀ b < F.shape.nbinsfull, (F.betaFull s norm b).isSome then
        some (fun b => (F.fullBin s norm b).applied s.kind ((F.betaFull s norm b).getD fun _ => 0),
          some (∑ b ∈ Finset.range F.shape.nbinsfull, ∑ p : Fin F.shape.nproc,
            lbeta s.kind ((F.fullBin s norm b).masked p) ((F.fullBin s norm b).k p) (s.beta0 b p)
              ((F.betaFull s norm b).getD (fun _ => 0) p)))
      else none

/-- `_compute_ln` (fitter.py:2046-2073) of the fitted bins -/
def ln (F : Fitter) (nexp : Nat → ℝ) : ℝ :=
  match F.fit with
  | .chisq => lnChisq (fun b : Fin F.shape.nbins => F.nobs b) (fun b => F.varnobs b) fun b => nexp b
  | .covariance => lnCov F.W (fun b => F.nobs b) fun b => nexp b
  | .poisson => lnPoisson false (fun b : Fin F.shape.nbins => F.nobs b) fun b => nexp b

/-- the values of the regularizers at the full yields (fitter.py:2091-2096) -/
def penalties (F : Fitter) (nexp : Nat → ℝ) : List (Svd ℝ × Grid.Tensor ℝ) → Res (List ℝ)
  | [] => .ok []
  | r :: rs =>
    open Classical in
    match r.1.penalty r.2 ⟨[F.shape.nbinsfull], fun i => nexp (i.getD 0 0)⟩ with
    | .error e => .error e
    | .ok v => match F.penalties nexp rs with
      | .error e => .error e
      | .ok vs => .ok (v :: vs)

/-- `[poi, model_nui]` (fitter.py:1689-1693) -/
def params (F : Fitter) (x : Fin F.n → ℝ) : List ℝ :=
  List.ofFn (getPoi F.cfg F.mask F.off x x) ++ List.ofFn (getNui F.cfg F.mask x x)

/-- `theta` as a vector of the contraction -/
def theta (F : Fitter) (x : Fin F.n → ℝ) (i : Nat) : ℝ :=
  if h : i < F.shape.nsyst then getTheta F.cfg F.mask F.off x x ⟨i, h⟩ else 0

/-- `_compute_loss` (fitter.py:2076-2124) at `x`; `none`: not a number -/
def loss (F : Fitter) (x : Fin F.n → ℝ) : Res (Option ℝ) :=
  match F.yields (!F.regs.isEmpty) (F.params x) (F.theta x) with
  | .error e => .error e
  | .ok (nexp, norm) => match F.withBeta nexp norm with
    | none => .ok none
    | some (nexp, lb) => match F.penalties nexp F.regs with
      | .error e => .error e
      | .ok ps => .ok (some (nllTotal (F.ln nexp) (lc false F.cw F.x0 (getX F.cfg F.mask F.off x x)) lb
          (penaltyTerm F.tau2 ps) (Ext.computeExternal F.ext (List.ofFn x))))

end Fitter

end

end Verif.LinearFit
