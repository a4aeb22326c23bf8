import Verif.Model.AxisModels
import Verif.Model.ExternalTerms
import Verif.Model.Likelihood

/-
Saturated likelihood test of a projection (bin/rabbit_fit.py:397-466) with the part of `Fitter.init_fit_parms` it
re-runs (rabbit/fitter.py:240-470).  Blinding offsets are not modelled (property C26); frozen parameters only through
the list of names that the expressions match.  Numbers are real.
-/

namespace Verif.SatTest

open Verif.ParamModels Verif.AxisModels Verif.ABCD

noncomputable section

/-- What the input data says about the nuisance parameters: names, constraint weights and default centres
(`theta0default`, fitter.py:279-291). -/
structure Nuis where
  systs : List String
  weights : List ℝ
  theta0 : List ℝ

/-- The vectors allocated by `init_fit_parms`, index-aligned with `x`. -/
structure FitParms where
  parms : List String
  xdef : List ℝ
  cw : List ℝ
  x0 : List ℝ

/-- `init_fit_parms` (fitter.py:276-370): names, default values, constraint weights and centres.  The checks on the
shape of the prior means and on priors of POIs raise the same exception, their order is not modelled. -/
def initParms (m : PModel ℝ) (nu : Nuis) : Res FitParms :=
  match m.priorSigmas with
  | none => .ok
    { parms := m.params ++ nu.systs
      xdef := m.xdef ++ nu.theta0
      cw := List.replicate m.nparams 0 ++ nu.weights
      x0 := m.xdef ++ nu.theta0 }
  | some sg =>
    let means := m.priorMeans.getD m.xdef
    if means.length ≠ m.nparams then .error .value
    else match acceptPriors m.nparams m.npoi m.allowNeg sg with
      | .error e => .error e
      | .ok w => .ok
        { parms := m.params ++ nu.systs
          xdef := m.xdef ++ nu.theta0
          cw := w ++ nu.weights
          x0 := (List.range m.nparams).map (fun i =>
            priorCentre (sg.getD i none) (means.getD i 0) (m.xdef.getD i 0)) ++ nu.theta0 }

/-- `SaturatedProjectModel.__init__` with the default arguments (param_model.py:383-416): no expected signal, no negative
parameters, no priors. -/
def satModel (inp : InData ℝ) (info : MapInfo) : Res (PModel ℝ) :=
  match setParamDefault Real.sqrt (satParams info) (satNpoi info) false [] with
  | .error e => .error e
  | .ok d => .ok
    { npoi := satNpoi info
      npou := 0
      params := satParams info
      xdef := d
      allowNeg := false
      isLinear := satNpoi info == 0
      compute := satCompute inp info }

/-- `l[a:b].assign(v)`: the shapes must agree -/
def assignSlice (l : List ℝ) (a b : Nat) (v : List ℝ) : Res (List ℝ) :=
  if (slice l a b).length = v.length then .ok (l.take a ++ v ++ l.drop (a + v.length)) else .error .value

/-- The constraint centres of the running fit are carried over into the new layout (rabbit_fit.py:430-441). -/
def keepCentres (m c : PModel ℝ) (toy x0 : List ℝ) : Res (List ℝ) :=
  match assignSlice x0 c.nparams x0.length (toy.drop m.nparams) with
  | .error e => .error e
  | .ok x0 =>
    match (if m.npoi > 0 then assignSlice x0 0 m.npoi (toy.take m.npoi) else .ok x0) with
    | .error e => .error e
    | .ok x0 =>
      if m.npou > 0 then assignSlice x0 c.npoi (c.npoi + m.npou) (slice toy m.npoi m.nparams) else .ok x0

/-- Construction of the saturated fitter (rabbit_fit.py:404-443): the composite of the model of the fit and the
saturated model, freshly initialised vectors, and the centres of the running fit. -/
def satFitter (inp : InData ℝ) (info : MapInfo) (m : PModel ℝ) (nu : Nuis) (toy : List ℝ) : Res (PModel ℝ × FitParms) :=
  match satModel inp info with
  | .error e => .error e
  | .ok s => match composite [m, s] none with
    | .error e => .error e
    | .ok c => match initParms c nu with
      | .error e => .error e
      | .ok f => match keepCentres m c toy f.x0 with
        | .error e => .error e
        | .ok x0 => .ok (c, { f with x0 := x0 })

/-- `get_x` without blinding (fitter.py:690-735): POIs are squares unless they may be negative -/
def effective (m : PModel ℝ) (x : List ℝ) : List ℝ :=
  (if m.allowNeg then x.take m.npoi else (x.take m.npoi).map (· ^ 2)) ++ x.drop m.npoi

/-- The remaining ingredients of the likelihood.  `main` are the yields with the data term, the bin-by-bin term and the
regularisation (fitter.py:1682-1794, 2046-2124): they see the parameters only through the rates at the default values
(scaling of the additive systematics, evaluated with `full=True`), the rates of the present point for the unmasked and
for all bins, and the nuisance parameters.  `ext` are the external terms. -/
structure Lik where
  main : (rinit rate rateFull : Nat → Nat → ℝ) → (theta : List ℝ) → ℝ
  ext : List (Ext.Term ℝ)

/-- Gaussian constraints (fitter.py:2023-2041) -/
def constraints (f : FitParms) (e : List ℝ) : ℝ :=
  ((List.range e.length).map fun i => f.cw.getD i 0 * (1 / 2) * (e.getD i 0 - f.x0.getD i 0) ^ 2).sum

/-- the factor by which additive systematics are scaled (`_init_logk_scaled`, fitter.py:1648-1657): none without
parameters, otherwise the rates at the default values as stored (POIs are not squared here) -/
def initRates (m : PModel ℝ) : Res (Nat → Nat → ℝ) :=
  if m.nparams = 0 then .ok fun _ _ => 1
  else match m.compute m.xdef true with
    | .ok r => .ok r.at
    | .error e => .error e

/-- `reduced_nll` (fitter.py:2046-2130) at `x`; the default rates are evaluated in `init_fit_parms` -/
def loss (L : Lik) (m : PModel ℝ) (f : FitParms) (x : List ℝ) : Res ℝ :=
  let e := effective m x
  match initRates m, m.compute (e.take m.nparams) false, m.compute (e.take m.nparams) true with
  | .ok r0, .ok r, .ok rf => match Ext.build L.ext f.parms with
    | .error e => .error e
    | .ok b => .ok (L.main r0 r.at rf.at (e.drop m.nparams) + constraints f e + (Ext.computeExternal b x).getD 0)
  | .error e, _, _ => .error e
  | _, .error e, _ => .error e
  | _, _, .error e => .error e

/-- test statistic and number of degrees of freedom (rabbit_fit.py:454-456) -/
def statistic (info : MapInfo) (nll nllSat : ℝ) : ℝ × Nat := (2 * (nll - nllSat), satNpoi info)

/-- `Mu` with a stated default (param_model.py:245-276) as a parameter model -/
def muModel (nproc : Nat) (signals : List String) (xdef : List ℝ) (neg : Bool) : PModel ℝ :=
  { npoi := signals.length
    npou := 0
    params := signals
    xdef := xdef
    allowNeg := neg
    isLinear := signals.length == 0 || neg
    compute := fun param _ => match muCompute nproc param with
      | .error e => .error e
      | .ok l => .ok ⟨1, l.length, fun _ p => l.getD p 1⟩ }

/-- `load_models` (param_models/helpers.py:30-43) as far as the default values are concerned: every submodel is given the
same `expectSignal`.  A submodel is described by its names, number of POIs and sign choice, and uses
`set_param_default` (`Mu`, `Mixture`; models that ignore the option are not listed). -/
def loadDefaults (subs : List (List String × Nat × Bool)) (expect : List (String × ℝ)) : Res (List (List ℝ)) :=
  match subs with
  | [] => .ok []
  | (ps, npoi, neg) :: subs => match setParamDefault Real.sqrt ps npoi neg expect with
    | .error e => .error e
    | .ok d => match loadDefaults subs expect with
      | .error e => .error e
      | .ok ds => .ok (d :: ds)

end

end Verif.SatTest
