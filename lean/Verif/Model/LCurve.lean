import Verif.Model.Cov
import Mathlib.Analysis.SpecialFunctions.Pow.Real

/-
L-curve of the regularisation strength (rabbit/regularization/lcurve.py).

Simplifications: real arithmetic; a NaN result is an error; the values and derivatives that the gradient tapes deliver are
inputs, the algebra on them is the code's.  A failing Cholesky decomposition is an error (see `Cov.cholesky`).
-/

namespace Verif.LCurve

open Verif.Cov Matrix

noncomputable section

variable {n : ℕ}

/-- Values and derivatives at the current parameters and `tau`, for `f = ln + lc + lbeta` with the stored `beta`
(lcurve.py:36-48), the sum of the penalties (lcurve.py:50-55) and the loss: its Hessian, the derivative of its gradient
with respect to `tau` (lcurve.py:21-29), and the derivatives of these two with respect to `tau` at fixed parameters.
`lbeta` is `None` without bin-by-bin uncertainties (bbstat.py:365-377). -/
structure Tapes (n : ℕ) where
  ln : ℝ
  lc : ℝ
  lbeta : Option ℝ
  gradF : Vec n
  hessF : Mat n
  pen : ℝ
  gradP : Vec n
  hessP : Mat n
  hessL : Mat n
  mixL : Vec n
  hessLtau : Mat n
  mixLtau : Vec n

/-- gradient of the logarithm -/
def gradLog (v : ℝ) (g : Vec n) : Vec n := fun i => g i / v

/-- Hessian of the logarithm -/
def hessLog (v : ℝ) (g : Vec n) (H : Mat n) : Mat n := Matrix.of fun i j => H i j / v - g i * g j / v ^ 2

/-- `_compute_curvature` (lcurve.py:8-83) -/
def curvature (t : Tapes n) : Res ℝ :=
  match cholesky t.hessL with
  | none => .error .value
  | some U =>
    let dxdtau := -(choSolve U t.mixL)
    match t.lbeta with
    | none => .error .type
    | some lb =>
      let f := t.ln + t.lc + lb
      if f ≤ 0 ∨ t.pen ≤ 0 then .error .value
      else
        let gx := gradLog f t.gradF
        let gy := gradLog t.pen t.gradP
        let dxdtauTau := -(choSolve U t.mixLtau) - choSolve U (t.hessLtau.mulVec dxdtau)
        let dLx := gx ⬝ᵥ dxdtau
        let dLy := gy ⬝ᵥ dxdtau
        let d2Lx := dxdtau ⬝ᵥ (hessLog f t.gradF t.hessF).mulVec dxdtau + gx ⬝ᵥ dxdtauTau
        let d2Ly := dxdtau ⬝ᵥ (hessLog t.pen t.gradP t.hessP).mulVec dxdtau + gy ⬝ᵥ dxdtauTau
        if dLx ^ 2 + dLy ^ 2 = 0 then .error .value
        else .ok ((d2Ly * dLx - d2Lx * dLy) / (dLx ^ 2 + dLy ^ 2) ^ (3 / 2 : ℝ))

/-- `np.arange(min, max, step)` -/
def arange (a b s : ℝ) : List ℝ := (List.range ⌈(b - a) / s⌉₊).map fun i : Nat => a + (i : ℝ) * s

/-- the loop of `l_curve_scan_tau` (lcurve.py:97-105): parameters at the end, curvatures -/
def scanGo {X : Type} (minimize : ℝ → X → X) (curv : X → ℝ → Res ℝ) : X → List ℝ → Res (X × List ℝ)
  | x, [] => .ok (x, [])
  | x, v :: vs =>
    let x' := minimize v x
    match curv x' v with
    | .error e => .error e
    | .ok c => match scanGo minimize curv x' vs with
      | .error e => .error e
      | .ok (x'', cs) => .ok (x'', c :: cs)

/-- `l_curve_scan_tau` (lcurve.py:91-110): parameters and `tau` at the end, scanned values, curvatures -/
def scanTau {X : Type} (minimize : ℝ → X → X) (curv : X → ℝ → Res ℝ) (x : X) (tau0 a b s : ℝ) : Res (X × ℝ × List ℝ × List ℝ) :=
  match scanGo minimize curv x (arange a b s) with
  | .error e => .error e
  | .ok (x', cs) => .ok (x', tau0, arange a b s, cs)

/-- the step of `l_curve_optimize_tau` (lcurve.py:212-215) -/
def optStep (grad hess : ℝ) : ℝ :=
  let sign : ℝ := if hess ≠ 0 then (if 0 < hess then 1 else -1) else 1
  grad / (sign * max |hess| 1e-8)

/-- the loop of `l_curve_optimize_tau` (lcurve.py:200-224) with `fuel` iterations left; `val` is the value of the last
iteration, of the negative curvature -/
def optGo {X : Type} (minimize : ℝ → X → X) (vgh : X → ℝ → Res (ℝ × ℝ × ℝ)) : Nat → X → ℝ → ℝ → ℝ → Res (X × ℝ × ℝ × ℝ)
  | 0, x, tau, edm, val => .ok (x, tau, edm, val)
  | k + 1, x, tau, edm, val =>
    if edm < 0 ∨ 1e-16 < edm then
      let x' := minimize tau x
      match vgh x' tau with
      | .error e => .error e
      | .ok (v, g, h) => optGo minimize vgh k x' (tau - optStep g h) (1 / 2 * g * optStep g h) v
    else .ok (x, tau, edm, val)

/-- `l_curve_optimize_tau` (lcurve.py:149-234): parameters, `tau`, `edm` and the value returned as the maximal curvature -/
def optimizeTau {X : Type} (minimize : ℝ → X → X) (vgh : X → ℝ → Res (ℝ × ℝ × ℝ)) (x : X) (tau : ℝ) : Res (X × ℝ × ℝ × ℝ) :=
  optGo minimize vgh 50 x tau 1 0

end

end Verif.LCurve
