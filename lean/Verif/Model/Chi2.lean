import Verif.Model.Impacts
import Mathlib.Analysis.Calculus.Deriv.Basic
import Mathlib.Analysis.Calculus.Deriv.Pi

/-
Data passed through a mapping (rabbit/mappings/mapping.py:52-82), residuals and linear chi-square
(rabbit/fitter.py:1396-1415, 1839-1931).

Simplifications: real arithmetic; derivatives taken by automatic differentiation are partial derivatives (of the
mapping, here) or inputs (of the loss and of the predictions).  `tf.linalg.pinv` is a parameter.
-/

namespace Verif.Chi2

open Verif.Cov Verif.Impacts

noncomputable section

variable {B O V : Type} {n : ℕ}

/-- `t.jacobian(f(x), x)`: the matrix of partial derivatives, shape (output, input) -/
def jac [DecidableEq B] (f : (B → ℝ) → O → ℝ) (x : B → ℝ) : Matrix O B ℝ :=
  Matrix.of fun o b => deriv (fun t => f (Function.update x b t) o) (x b)

open Classical in
/-- `tf.linalg.solve(M, R)`: raises on a singular matrix -/
def solve [Fintype B] [DecidableEq B] (M : Matrix B B ℝ) (R : Matrix B O ℝ) : Res (Matrix B O ℝ) :=
  if M.det = 0 then .error .exception else .ok (M⁻¹ * R)

/-- `output, variances_output, cov_output` -/
structure Out (O : Type) where
  output : O → ℝ
  variances : O → ℝ
  cov : Matrix O O ℝ

/-- the last lines of `_get_data` (mapping.py:80-82) -/
def Out.of (output : O → ℝ) (c : Matrix O O ℝ) : Out O := ⟨output, fun o => c o o, c⟩

/-- `Mapping._get_data` (mapping.py:52-82); `f` is `compute_flat(None, ·)`.  `compute_flat` returns a vector, so the
expansion of the Jacobian of a scalar (mapping.py:61-63) does not matter. -/
def getData [Fintype B] [DecidableEq B] (f : (B → ℝ) → O → ℝ) (data : B → ℝ) (var : Option (B → ℝ))
    (covInv : Option (Matrix B B ℝ)) : Res (Out O) :=
  let J := jac f data
  match covInv with
  | some W => match solve W J.transpose with
    | .error e => .error e
    | .ok S => .ok (Out.of (f data) (J * S))
  | none => match var with
    | some v => .ok (Out.of (f data) (Matrix.of (fun o b => J o b * v b) * J.transpose))
    | none => .ok (Out.of (f data) (Matrix.of (fun o b => J o b * data b) * J.transpose))

/-- `_residuals` (fitter.py:1898-1909): `pred` and its covariance come from `_expected_with_variance` -/
def residuals [Fintype B] [DecidableEq B] {K : Type} [Fintype K] [DecidableEq K] (f : (B → ℝ) → O → ℝ)
    (data : B → ℝ) (var : Option (B → ℝ)) (covInv : Option (Matrix B B ℝ)) (pred : O → ℝ) (cov : Mat n)
    (J : Matrix O (Fin n) ℝ) (bb : Option (BetaPart O K)) : Res ((O → ℝ) × Matrix O O ℝ) :=
  match getData f data var covInv with
  | .error e => .error e
  | .ok d => match expCov cov J bb with
    | .error e => .error e
    | .ok c => .ok (fun o => pred o - d.output o, c + d.cov)

/-- the chain rule of `_dndvars` (fitter.py:1411-1413): total derivative of the flattened result with respect to the
quantities `V`, from its partial derivatives and the response of the minimum -/
def dndvar (pdv : Matrix O V ℝ) (pdx : Matrix O (Fin n) ℝ) (dxdv : Matrix (Fin n) V ℝ) : Matrix O V ℝ :=
  pdv + pdx * dxdv

/-- the covariance of the data as `_residuals_profiled` finds it (fitter.py:1861-1870): the inverse covariance of a
covariance fit, the variances of a chi-square fit, or the data themselves -/
inductive DataUnc (B : Type)
  | covInv (W : Matrix B B ℝ)
  | var (v : B → ℝ)

/-- `D @ (v[:, None] * D.T)` -/
def sandwich [Fintype V] (D : Matrix O V ℝ) (v : V → ℝ) : Matrix O O ℝ :=
  D * Matrix.of fun a o => v a * D o a

/-- the bin-by-bin part (fitter.py:1874-1894): second derivative `l2` of the bin-by-bin term, its mixed derivative `l11`
with the centres, and the mask (`none` for the type `normal-additive`) -/
structure BetaUnc (K : Type) where
  l2 : K → ℝ
  l11 : K → ℝ
  mask : Option (K → Bool)

/-- `var_beta0` (fitter.py:1887-1892) -/
def BetaUnc.varBeta0 {K : Type} (b : BetaUnc K) (k : K) : ℝ :=
  match b.mask with
  | some m => if m k then 0 else b.l2 k / b.l11 k ^ 2
  | none => b.l2 k / b.l11 k ^ 2

/-- `res_cov` of `_residuals_profiled` (fitter.py:1857-1896) from the total derivatives of the residuals -/
def resCovProfiled [Fintype B] [DecidableEq B] {K : Type} [Fintype K] (Dx0 : Matrix O (Fin n) ℝ) (varX0 : Vec n)
    (Dn : Matrix O B ℝ) (unc : DataUnc B) (Db : Matrix O K ℝ) (bb : Option (BetaUnc K)) : Res (Matrix O O ℝ) :=
  let c0 := sandwich Dx0 varX0
  let stat : Res (Matrix O O ℝ) := match unc with
    | .covInv W => match solve W Dn.transpose with
      | .error e => .error e
      | .ok S => .ok (Dn * S)
    | .var v => .ok (sandwich Dn v)
  match stat with
  | .error e => .error e
  | .ok s => match bb with
    | none => .ok (c0 + s)
    | some b => .ok (c0 + s + sandwich Db b.varBeta0)

open Classical in
/-- `_chi2` (fitter.py:1911-1923): value and number of degrees of freedom -/
def chi2 [Fintype O] [DecidableEq O] (pinv : Matrix O O ℝ → Matrix O O ℝ) (r : O → ℝ) (C : Matrix O O ℝ)
    (reduction : ℕ) : Res (ℝ × ℤ) :=
  if reduction > 0 then .ok (r ⬝ᵥ (pinv C).mulVec r, Fintype.card O - reduction)
  else if C.det = 0 then .error .exception
  else .ok (r ⬝ᵥ C⁻¹.mulVec r, Fintype.card O - reduction)

end

end Verif.Chi2
