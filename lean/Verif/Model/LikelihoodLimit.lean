import Verif.Model.Limits
import Mathlib.Analysis.SpecialFunctions.Gaussian.GaussianIntegral

/-
Limits from the likelihood (rabbit/asymptotic_limits.py:29-187): the search for the largest value of a parameter that is not excluded, over the parameters of the
fit to data and of the fit to the asimov data together.  At this commit the only call (bin/rabbit_limit.py:209-212) is commented out.
Simplifications: exact arithmetic; not-a-number is `none`; the minimiser of SciPy (method `trust-constr`, which only sees the functions handed to it) and the fit of
the starting values are parameters; `_compute_nll` and its derivatives are parameters; log output is left out.
-/

namespace Verif.LikelihoodLimit

open Verif

/-- what is read from a fitter (asymptotic_limits.py:59-60, 73-85): number of parameters, likelihood with its derivatives as functions of the parameters, and the value given as minimum -/
structure Like where
  n : Nat
  nll : List ℝ → ℝ
  grad : List ℝ → List ℝ
  ref : ℝ

/-- `x.assign` (asymptotic_limits.py:42, 123-124, 137-138): the shape has to agree -/
def assign (f : Like) (x : List ℝ) : Res (List ℝ) := if x.length = f.n then .ok x else .error .value

/-- the parameters of both fitters from the vector of the search (asymptotic_limits.py:118-121, 132-135): the parameter of interest is stored once -/
def unpack (idx : Nat) (xval : List ℝ) : Res (List ℝ × List ℝ) :=
  let nx := (xval.length + 1) / 2
  let x1 := xval.take nx
  let x2 := xval.drop nx
  match x1[idx]? with
  | none => .error .index
  | some v => if idx ≤ x2.length then .ok (x1, x2.insertIdx idx v) else .error .index

/-- `tf.sqrt` (asymptotic_limits.py:59-60): not a number below zero -/
noncomputable def sqrt? (y : ℝ) : Option ℝ := if 0 ≤ y then some (Real.sqrt y) else none

/-- square root of twice the distance to the minimum (asymptotic_limits.py:59-60, 73-74) -/
noncomputable def qOf (f : Like) (x : List ℝ) : Option ℝ := sqrt? (2 * (f.nll x - f.ref))

/-- the parameters are assigned to the fitters (asymptotic_limits.py:118-124, 132-138) -/
def both (idx : Nat) (f a : Like) (xval : List ℝ) : Res (List ℝ × List ℝ) :=
  (unpack idx xval).bind fun p => (assign f p.1).bind fun x1 => (assign a p.2).map fun x2 => (x1, x2)

/-- value of the constraint from two square roots (asymptotic_limits.py:61) -/
noncomputable def constraintOf (Phi : ℝ → ℝ) (cl : ℝ) (qmu qA : Option ℝ) : Option ℝ := match qmu, qA with
  | some u, some v => some (Limits.constraint Phi cl u v)
  | _, _ => none

/-- `scipy_constraint` (asymptotic_limits.py:58-70, 115-127) -/
noncomputable def constraintAt (Phi : ℝ → ℝ) (cl : ℝ) (idx : Nat) (f a : Like) (xval : List ℝ) : Res (Option ℝ) :=
  (both idx f a xval).map fun p => constraintOf Phi cl (qOf f p.1) (qOf a p.2)

/-- `normal_pdf` (tfhelpers.py:143-146) -/
noncomputable def normalPdf (x : ℝ) : ℝ := Real.exp (-(1 / 2) * x ^ 2) / Real.sqrt (2 * Real.pi)

/-- derivative of `tf.sqrt(2 * _compute_nll())` (asymptotic_limits.py:79-85); not finite unless the likelihood is positive -/
noncomputable def rootGrad (f : Like) (x : List ℝ) : Option (List ℝ) :=
  if 0 < f.nll x then some ((f.grad x).map (· / Real.sqrt (2 * f.nll x))) else none

/-- derivatives of the constraint from those of the square roots (asymptotic_limits.py:87-102) -/
noncomputable def gradOf (cl : ℝ) (idx : Nat) (qmu qA : ℝ) (dmu dA : List ℝ) : List ℝ :=
  let d1 := dmu.map fun g => (normalPdf qmu - cl * normalPdf (qA - qmu)) * g
  let d2 := dA.map fun g => cl * normalPdf (qA - qmu) * g
  d1.set idx (d1.getD idx 0 + d2.getD idx 0) ++ d2.eraseIdx idx

/-- `_compute_limit_constraint_grad` (asymptotic_limits.py:72-113) -/
noncomputable def gradParts (cl : ℝ) (idx : Nat) (f a : Like) (p : List ℝ × List ℝ) : Option (List ℝ) :=
  match qOf f p.1, qOf a p.2, rootGrad f p.1, rootGrad a p.2 with
  | some qmu, some qA, some dmu, some dA => some (gradOf cl idx qmu qA dmu dA)
  | _, _, _, _ => none

/-- `scipy_constraint_grad` (asymptotic_limits.py:129-142) -/
noncomputable def gradAt (cl : ℝ) (idx : Nat) (f a : Like) (xval : List ℝ) : Res (Option (List ℝ)) :=
  (both idx f a xval).map (gradParts cl idx f a)

/-- `objective` (asymptotic_limits.py:153-155) -/
def objective (idx : Nat) (x : List ℝ) : ℝ := -x.getD idx 0

/-- `objective_jac` (asymptotic_limits.py:157-160) -/
noncomputable def objectiveJac (idx : Nat) (x : List ℝ) : List ℝ := (List.replicate x.length 0).set idx (-0.001)

/-- the vector from which the search starts (asymptotic_limits.py:38-51); `fitA` is the fit to the asimov data with the parameter frozen -/
def start (idx : Nat) (x : List ℝ) (a : Like) (fitA : List ℝ → List ℝ) : Res (List ℝ) :=
  match x[idx]? with
  | none => .error .index
  | some v => (assign a ((List.replicate x.length 0).set idx v)).map fun x0 => x ++ (fitA x0).eraseIdx idx

/-- `compute_likelihood_limit` (asymptotic_limits.py:29-187); `search` is the minimiser, which is given the start, the objective with its derivative and the constraint
with its derivative, and returns a vector and whether it succeeded, which is only logged (the bounds -1/2 and 0 of the constraint, asymptotic_limits.py:144-147, are part of the contract
of the search in `Props/LikelihoodLimit.lean`) -/
noncomputable def likelihoodLimit (Phi : ℝ → ℝ)
    (search : List ℝ → (List ℝ → ℝ) → (List ℝ → List ℝ) → (List ℝ → Res (Option ℝ)) → (List ℝ → Res (Option (List ℝ))) → Res (List ℝ × Bool))
    (fitA : List ℝ → List ℝ) (parms : List String) (param : String) (cl : ℝ) (f a : Like) (x : List ℝ) : Res ℝ :=
  if param ∉ parms then .error .index
  else
    let idx := parms.idxOf param
    (start idx x a fitA).bind fun x0 =>
      (search x0 (objective idx) (objectiveJac idx) (constraintAt Phi cl idx f a) (gradAt cl idx f a)).bind fun r =>
        match r.1[idx]? with
        | none => .error .index
        | some v => .ok v

end Verif.LikelihoodLimit
