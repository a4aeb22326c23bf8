import Verif.Model.Py
import Verif.Model.FitParams
import Mathlib.Analysis.SpecialFunctions.Log.Basic
import Mathlib.Analysis.Real.Sqrt
import Mathlib.Data.Matrix.Basic
import Mathlib.Data.Matrix.Diagonal

/-
The `tf.Variable`s of the fitter, their reset to defaults, the preparation of toys
(rabbit/fitter.py:737-930, rabbit/bbstat/bbstat.py:230-362, bin/rabbit_fit.py:915-987), and the loading
of an external fit result (rabbit/fitter.py:504-553).

Random number generators are parameters: a draw is a function of the parameters of the distribution.
-/

namespace Verif.FitState

noncomputable section

variable {P K B F R O : Type*} [DecidableEq P]

inductive BetaType where
  | gamma | normMult | normAdd
  deriving DecidableEq

/-- β variables, present only with bin-by-bin statistics enabled (bbstat.py:37-226) -/
@[ext] structure BetaVars (K : Type*) where
  beta : K → ℝ
  beta0 : K → ℝ
  logbeta0 : K → ℝ

/-- All variables of the fitter (fitter.py:183-236, 299-430). `varnobs` exists only for chi-square fits, `cov`
only without `--noHessian`; `regs` is what the regularisers store in `set_expectations`. -/
@[ext] structure Vars (P K B R O : Type*) where
  x : P → ℝ
  x0 : P → ℝ
  bb : Option (BetaVars K)
  nobs : B → ℝ
  lognobs : B → ℝ
  varnobs : Option (B → ℝ)
  nexpnom : B → ℝ
  varPrefit : P → ℝ
  cov : Option (Matrix P P ℝ)
  off : O
  regs : R

/-- What is fixed after construction. -/
structure Cfg (P K B F R O : Type*) where
  x0default : P → ℝ
  cw : P → ℝ
  unconstrErr : ℝ
  betaType : BetaType
  kstat : K → ℝ
  varbeta : K → ℝ
  chisq : Bool
  covFit : Bool
  doBlinding : Bool
  noOff : O
  /-- effective parameters `get_x()` -/
  effX : (P → ℝ) → O → P → ℝ
  /-- `expected_yield()` without profiling: a function of parameters, offsets and β -/
  yield : (P → ℝ) → O → Option (K → ℝ) → B → ℝ
  /-- `expected_yield(full=True)` -/
  yieldFull : (P → ℝ) → O → Option (K → ℝ) → F → ℝ
  /-- what `reg.set_expectations` stores, for all regularisers (regularization/svd.py:56-59) -/
  setExp : (P → ℝ) → (F → ℝ) → R
  /-- not `--noHessian` -/
  computeCov : Bool
  /-- `bbstat.enabled` -/
  bbEnabled : Bool

/-- `var_x0` (fitter.py:377-381) -/
def Cfg.varX0 (c : Cfg P K B F R O) (i : P) : ℝ := if c.cw i = 0 then 0 else (c.cw i)⁻¹

/-- `prefit_variance` (fitter.py:737-749) -/
def Cfg.prefitVariance (c : Cfg P K B F R O) (i : P) : ℝ := if c.cw i = 0 then c.unconstrErr ^ 2 else (c.cw i)⁻¹

open Classical in
/-- `set_nobs` (fitter.py:773-786) -/
def setNobs (c : Cfg P K B F R O) (values : B → ℝ) (variances : Option (B → ℝ)) (s : Vars P K B R O) :
    Vars P K B R O × Res Unit :=
  if c.chisq ∧ ∃ b, values b ≤ 0 then (s, .error .runtime)
  else
    ({ s with
        varnobs := if c.chisq then s.varnobs.map fun _ => variances.getD values else s.varnobs
        nobs := values
        lognobs := fun b => Real.log (if values b = 0 then 1 else values b) }, .ok ())

/-- `default_beta0` (bbstat.py:230-235) -/
def defaultBeta0 (t : BetaType) : K → ℝ := match t with
  | .gamma | .normMult => fun _ => 1
  | .normAdd => fun _ => 0

/-- `set_beta0` (bbstat.py:237-245) -/
def setBeta0 (v : K → ℝ) (b : BetaVars K) : BetaVars K :=
  { b with beta0 := v, logbeta0 := fun k => Real.log (if v k = 0 then 1 else v k) }

/-- `beta_default_assign` (bbstat.py:250-251) -/
def betaDefault (b : BetaVars K) : BetaVars K := { b with beta := b.beta0 }

/-- `defaultassign` (fitter.py:797-815) -/
def defaultAssign (c : Cfg P K B F R O) (s : Vars P K B R O) : Vars P K B R O :=
  let s := { s with varPrefit := c.prefitVariance
                    cov := s.cov.map fun _ => Matrix.diagonal c.prefitVariance
                    x0 := c.x0default
                    bb := s.bb.map fun b => betaDefault (setBeta0 (defaultBeta0 c.betaType) b)
                    x := c.x0default }
  let s := if c.doBlinding then { s with off := c.noOff } else s
  { s with regs := c.setExp (c.effX s.x s.off) (c.yieldFull s.x s.off (s.bb.map (·.beta))) }

/-- The random numbers consumed by one toy. -/
structure Draws (P K B : Type*) where
  /-- standard normal numbers for the constraint centres or parameter values -/
  z : P → ℝ
  /-- normal numbers of given mean and standard deviation for the start values -/
  normP : (P → ℝ) → (P → ℝ) → P → ℝ
  /-- multivariate normal numbers of given mean and covariance for the start values -/
  mvnP : (P → ℝ) → Matrix P P ℝ → P → ℝ
  gammaK : (K → ℝ) → K → ℝ
  poissonK : (K → ℝ) → K → ℝ
  normK : (K → ℝ) → (K → ℝ) → K → ℝ
  normK' : (K → ℝ) → (K → ℝ) → K → ℝ
  poissonB : (B → ℝ) → B → ℝ
  normB : (B → ℝ) → (B → ℝ) → B → ℝ
  /-- multivariate normal numbers with the covariance of the data -/
  mvnB : (B → ℝ) → B → ℝ

/-- `randomize_bayes` (bbstat.py:270-301) -/
def randomizeBayes (c : Cfg P K B F R O) (d : Draws P K B) (b : BetaVars K) : BetaVars K :=
  match c.betaType with
  | .gamma =>
    let gen := fun k => if c.kstat k = 0 then 0 else d.gammaK (fun k => c.kstat k * b.beta0 k + 1) k / c.kstat k
    { b with beta := gen }
  | .normMult => { b with beta := d.normK b.beta0 fun k => Real.sqrt (c.varbeta k) }
  | .normAdd => { b with beta := d.normK b.beta0 fun _ => 1 }

/-- `randomize_frequentist` (bbstat.py:327-362) -/
def randomizeFrequentist (c : Cfg P K B F R O) (d : Draws P K B) (b : BetaVars K) : BetaVars K :=
  match c.betaType with
  | .gamma => setBeta0 (fun k =>
      if c.kstat k = 0 then 0 else d.poissonK (fun k => c.kstat k * b.beta k) k / c.kstat k) b
  | .normMult => setBeta0 (d.normK b.beta fun k => Real.sqrt (c.varbeta k)) b
  | .normAdd => setBeta0 (d.normK b.beta fun _ => 1) b

/-- `randomize_postfit` (bbstat.py:303-325) -/
def randomizePostfit (c : Cfg P K B F R O) (d : Draws P K B) (b : BetaVars K) : BetaVars K :=
  { b with beta := d.normK' b.beta0 fun k => Real.sqrt (c.varbeta k) }

open Classical in
/-- `bayesassign` (fitter.py:817-826) -/
def bayesAssign (c : Cfg P K B F R O) (d : Draws P K B) (s : Vars P K B R O) : Vars P K B R O :=
  { s with x := fun i => if 0 < c.cw i then s.x0 i + Real.sqrt (c.varX0 i) * d.z i else c.x0default i
           bb := s.bb.map (randomizeBayes c d) }

/-- `frequentistassign` (fitter.py:828-837) -/
def frequentistAssign (c : Cfg P K B F R O) (d : Draws P K B) (s : Vars P K B R O) : Vars P K B R O :=
  { s with x0 := fun i => c.x0default i + Real.sqrt (c.varX0 i) * d.z i
           bb := s.bb.map (randomizeFrequentist c d) }

inductive SystRandomize where | bayesian | frequentist | none deriving DecidableEq
inductive DataRandomize where | poisson | normal | none deriving DecidableEq
inductive DataMode where | expected | observed deriving DecidableEq

/-- options of `toyassign`, restricted to the choices of the command line -/
structure ToyOpts where
  syst : SystRandomize
  data : DataRandomize
  mode : DataMode
  randomizeParameters : Bool

/-- the data part of `toyassign` (fitter.py:855-891) -/
def toyData (c : Cfg P K B F R O) (o : ToyOpts) (d : Draws P K B) (dataValues : B → ℝ) (dataVars : Option (B → ℝ))
    (s : Vars P K B R O) : Vars P K B R O × Res Unit :=
  let nom := match o.mode with
    | .expected => c.yield s.x s.off (s.bb.map (·.beta))
    | .observed => dataValues
  match o.data with
  | .poisson => if c.covFit then (s, .error .runtime) else setNobs c (d.poissonB nom) none s
  | .normal => if c.covFit then setNobs c (d.mvnB nom) none s
      else setNobs c (d.normB nom (if c.chisq then dataVars.getD nom else nom)) dataVars s
  | .none => setNobs c nom dataVars s

/-- the parameter part of `toyassign` (fitter.py:848-853) -/
def toySyst (c : Cfg P K B F R O) (o : ToyOpts) (d : Draws P K B) (s : Vars P K B R O) : Vars P K B R O :=
  match o.syst with
  | .bayesian => bayesAssign c d s
  | .frequentist => frequentistAssign c d s
  | .none => s

open Classical in
/-- the start values in `toyassign` (fitter.py:893-930) -/
def toyStart (c : Cfg P K B F R O) (o : ToyOpts) (d : Draws P K B) (s : Vars P K B R O) : Vars P K B R O :=
  let s := { s with x := c.x0default, bb := s.bb.map betaDefault }
  let s := { s with nexpnom := c.yield s.x s.off (s.bb.map (·.beta)) }
  if o.randomizeParameters then
    let x := match s.cov with
      | none => d.normP s.x fun i => Real.sqrt (s.varPrefit i)
      | some C => if ∀ i j, i ≠ j → C i j = 0 then d.normP s.x fun i => Real.sqrt (C i i) else d.mvnP s.x C
    { s with x := x, bb := s.bb.map (randomizePostfit c d) }
  else s

/-- `toyassign` (fitter.py:839-930) -/
def toyAssign (c : Cfg P K B F R O) (o : ToyOpts) (d : Draws P K B) (dataValues : B → ℝ) (dataVars : Option (B → ℝ))
    (s : Vars P K B R O) : Vars P K B R O × Res Unit :=
  match toyData c o d dataValues dataVars (toySyst c o d s) with
  | (s, .error e) => (s, .error e)
  | (s, .ok ()) => (toyStart c o d s, .ok ())

/-- one entry of the list of fits: -1, 0 or a toy (rabbit_fit.py:828-831) -/
inductive Fit where | asimov | data | toy
  deriving DecidableEq

/-- state in which a fit starts (rabbit_fit.py:936-958, up to the blinding offsets set at 977): reset, then
Asimov data, the data or a toy -/
def prepare (c : Cfg P K B F R O) (o : ToyOpts) (f : Fit) (d : Draws P K B) (dataValues : B → ℝ)
    (dataVars : Option (B → ℝ)) (s : Vars P K B R O) : Vars P K B R O × Res Unit :=
  let s := defaultAssign c s
  match f with
  | .asimov => setNobs c (c.yield s.x s.off (s.bb.map (·.beta))) none s
  | .data => setNobs c dataValues none s
  | .toy => toyAssign c o d dataValues dataVars s

/-- The loop over fits (rabbit_fit.py:915-987): returns the states in which the fits start.  `job` is everything
done with the fitter after the preparation (blinding offsets, minimisation, covariance, impacts, histograms);
it may change every variable.  An exception ends the program. -/
def runFits (c : Cfg P K B F R O) (o : ToyOpts) (job : Vars P K B R O → Vars P K B R O) (dataValues : B → ℝ)
    (dataVars : Option (B → ℝ)) : List (Fit × Draws P K B) → Vars P K B R O → List (Vars P K B R O)
  | [], _ => []
  | (f, d) :: fs, s => match prepare c o f d dataValues dataVars s with
    | (_, .error _) => []
    | (s, .ok ()) => s :: runFits c o job dataValues dataVars fs (job s)

/-! ### frozen set over the loop -/

/-- likelihood scan of a parameter: freezes it, minimises for each point, de-freezes it
(fitter.py:2383-2430; the frozen set is all that is kept here) -/
def scanFrozen (rx : FitParams.Regex) (parm : String) (s : FitParams.FreezeState) : FitParams.FreezeState :=
  (FitParams.defreezeParams rx [parm] (FitParams.freezeParams rx [parm] s).1).1

/-! ### loading an external result -/

/-- What NumPy documents for `np.intersect1d(a, b, assume_unique=True, return_indices=True)` when both inputs
have unique entries: the index pairs of the common values, each once. -/
def IntersectSpec (inter : (a b : List String) → List (Nat × Nat)) : Prop :=
  ∀ a b : List String, a.Nodup → b.Nodup → (inter a b).Nodup ∧
    ∀ i j : Nat, (i, j) ∈ inter a b ↔ ∃ n, a[i]? = some n ∧ b[j]? = some n

/-- an implementation (NumPy sorts the concatenation; the order of the pairs is irrelevant here) -/
def intersectImpl (a b : List String) : List (Nat × Nat) :=
  (List.range a.length).filterMap fun i => match a[i]? with
    | some n => match b.findIdx? (· == n) with
      | some j => some (i, j)
      | none => none
    | none => none

/-- fancy assignment `v[idxs] = w[idxs_ext]`, entry after entry -/
def scatter {ι κ α : Type*} [DecidableEq ι] (v : ι → α) (w : κ → α) (ps : List (ι × κ)) : ι → α :=
  ps.foldl (fun v p => Function.update v p.1 (w p.2)) v

/-- index pairs of `np.ix_(idxs, idxs)` in assignment order -/
def ixPairs (ps : List (Nat × Nat)) : List ((Nat × Nat) × (Nat × Nat)) :=
  ps.flatMap fun p => ps.map fun q => ((p.1, q.1), (p.2, q.2))

/-- Contents of the external file: names, values, optional covariance. -/
structure External where
  parms : List String
  x : Nat → ℝ
  cov : Option (Nat → Nat → ℝ)

/-- What `load_fitresult` touches: values, covariance (absent with `--noHessian`), `external_cov_loaded`, β. -/
structure Loaded where
  x : Nat → ℝ
  cov : Option (Nat → Nat → ℝ)
  covLoaded : Bool

/-- `load_fitresult` (fitter.py:504-550).  `inter` is the NumPy intersection; the final profiling of β
(fitter.py:552-553) does not change these fields. -/
def loadFitresult (inter : (a b : List String) → List (Nat × Nat)) (parms : List String) (e : External) (s : Loaded) :
    Loaded × Res Unit :=
  let ps := inter parms e.parms
  let s := { s with covLoaded := false, x := scatter s.x e.x ps }
  match e.cov with
  | none => (s, .ok ())
  | some ce => match s.cov with
    | none => (s, .error .runtime)
    | some C => ({ s with
        cov := some fun i j => scatter (fun p : Nat × Nat => C p.1 p.2) (fun p : Nat × Nat => ce p.1 p.2) (ixPairs ps) (i, j)
        covLoaded := true }, .ok ())

end

end Verif.FitState
