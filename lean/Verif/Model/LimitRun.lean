import Verif.Model.FitState

/-
The fits behind the asymptotic limits and their loop over data sets (bin/rabbit_limit.py:53-88, 243-372).  What is
computed from the two fitters afterwards is in `Verif.Model.Limits`.
-/

namespace Verif.LimitRun

open Verif.FitParams Verif.FitState

noncomputable section

variable {P K B F R O : Type*} [DecidableEq P]

/-- the variables of a fitter and its frozen parameters -/
structure Fitter (P K B R O : Type*) where
  vars : Vars P K B R O
  frz : FreezeState

/-- `fitter.set_nobs(fitter.expected_yield())` (rabbit_limit.py:62) -/
def setAsimov (c : Cfg P K B F R O) (v : Vars P K B R O) : Vars P K B R O × Res Unit :=
  setNobs c (c.yield v.x v.off (v.bb.map (·.beta))) none v

/-- The fit without signal (rabbit_limit.py:54-65).  `minimise` is `fitter.minimize()` for a given frozen set. -/
def backgroundFit (c : Cfg P K B F R O) (rx : Regex) (minimise : FreezeState → Vars P K B R O → Res (Vars P K B R O))
    (limits : List String) (f : Fitter P K B R O) : Res (Fitter P K B R O) :=
  match freezeParams rx limits f.frz with
  | (_, .error e) => .error e
  | (frz, .ok ()) => match minimise frz f.vars with
    | .error e => .error e
    | .ok v => match setAsimov c v with
      | (_, .error e) => .error e
      | (v, .ok ()) => match defreezeParams rx limits frz with
        | (_, .error e) => .error e
        | (frz, .ok ()) => .ok ⟨v, frz⟩

/-- the covariance from the Hessian (rabbit_limit.py:67-77); `hess` is `edmval_cov` of the derivatives, which may fail -/
def assignCov (hess : FreezeState → Vars P K B R O → Res (Matrix P P ℝ)) (noHessian : Bool) (f : Fitter P K B R O) :
    Res (Fitter P K B R O) :=
  if noHessian then .ok f
  else match hess f.frz f.vars with
    | .error e => .error e
    | .ok C => .ok ⟨{ f.vars with cov := some C }, f.frz⟩

/-- The fits of `do_asymptotic_limits` (rabbit_limit.py:53-85): the fitter of the Asimov data and the fitter of the
data, which is a copy of it (rabbit_limit.py:80) up to the fit. -/
def doLimits (c : Cfg P K B F R O) (rx : Regex) (minimise : FreezeState → Vars P K B R O → Res (Vars P K B R O))
    (hess : FreezeState → Vars P K B R O → Res (Matrix P P ℝ)) (limits : List String) (noHessian : Bool)
    (dataValues : B → ℝ) (fitData : Bool) (f : Fitter P K B R O) : Res (Fitter P K B R O × Fitter P K B R O) :=
  match (if fitData then backgroundFit c rx minimise limits f else .ok f) with
  | .error e => .error e
  | .ok f => match assignCov hess noHessian f with
    | .error e => .error e
    | .ok asimov =>
      if fitData then
        match setNobs c dataValues none asimov.vars with
        | (_, .error e) => .error e
        | (v, .ok ()) => match minimise asimov.frz v with
          | .error e => .error e
          | .ok v => .ok (asimov, ⟨v, asimov.frz⟩)
      else .ok (asimov, asimov)

/-- One pass of the loop (rabbit_limit.py:323-367): reset, data, then the fits; `observations` (rabbit_limit.py:357)
are the data for fits to data and for toys. -/
def limitRun (c : Cfg P K B F R O) (o : ToyOpts) (rx : Regex)
    (minimise : FreezeState → Vars P K B R O → Res (Vars P K B R O))
    (hess : FreezeState → Vars P K B R O → Res (Matrix P P ℝ)) (limits : List String) (noHessian : Bool) (fit : Fit)
    (d : Draws P K B) (dataValues : B → ℝ) (dataVars : Option (B → ℝ)) (f : Fitter P K B R O) :
    Res (Fitter P K B R O × Fitter P K B R O) :=
  match prepare c o fit d dataValues dataVars f.vars with
  | (_, .error e) => .error e
  | (v, .ok ()) =>
    let observations := if fit = .asimov then c.yield v.x v.off (v.bb.map (·.beta)) else dataValues
    doLimits c rx minimise hess limits noHessian observations (fit ≠ .asimov) ⟨v, f.frz⟩

end

end Verif.LimitRun
