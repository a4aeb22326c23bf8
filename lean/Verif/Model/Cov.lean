import Verif.Model.Py
import Mathlib.LinearAlgebra.Matrix.NonsingularInverse
import Mathlib.Data.Real.Basic
import Mathlib.Data.List.FinRange

/-
Covariance matrix and estimated distance to the minimum (rabbit/scipyhelpers.py:5-49,
rabbit/tfhelpers.py:48-74, rabbit/fitter.py:555-561, 932-954, 1043-1061) and the one-step solution of linear
fits (rabbit/fitter.py:2316-2381).

Simplification throughout: real arithmetic instead of double precision.
-/

namespace Verif.Cov

noncomputable section

variable {n m : ℕ}

abbrev Mat (n : ℕ) := Matrix (Fin n) (Fin n) ℝ
abbrev Vec (n : ℕ) := Fin n → ℝ

/-- What a Cholesky routine returns: an invertible upper triangular `U` with `UᵀU = H` (the sign of the
diagonal of `U`, positive in LAPACK, plays no role below). -/
structure IsChol (H U : Mat n) : Prop where
  upper : ∀ i j, j < i → U i j = 0
  det : U.det ≠ 0
  mul : U.transpose * U = H

open Classical in
/-- `scipy.linalg.cholesky` / `tf.linalg.cholesky` (`U` is the transpose of the lower factor of the latter);
`none` stands for the failure both report, by an exception or by NaN entries, when there is no factor. -/
def cholesky (H : Mat n) : Option (Mat n) :=
  if h : ∃ U, IsChol H U then some h.choose else none

/-- `cho_solve` / `cholesky_solve`: two triangular solves -/
def choSolve (U : Mat n) (b : Vec n) : Vec n := U⁻¹.mulVec (U.transpose⁻¹.mulVec b)

/-- `cho_inv` (scipyhelpers.py:17-30), upper form -/
def choInv (U : Mat n) : Mat n := U⁻¹ * U⁻¹.transpose

/-- `scipy_edmval_cov` (scipyhelpers.py:33-49), taken on the CPU by `edmval_cov` (tfhelpers.py:69-74) -/
def edmvalCov (grad : Vec n) (hess : Mat n) : Res (ℝ × Mat n) :=
  match cholesky hess with
  | none => .error .value
  | some U => .ok ((1 / 2) * (grad ⬝ᵥ choSolve U grad), choInv U)

/-- `tf_edmval_cov` (tfhelpers.py:48-66), taken on a GPU: the inverse is built column by column from the
identity -/
def tfEdmvalCov (grad : Vec n) (hess : Mat n) : Res (ℝ × Mat n) :=
  match cholesky hess with
  | none => .error .value
  | some U => .ok ((1 / 2) * (grad ⬝ᵥ choSolve U grad),
      Matrix.of fun i j => choSolve U (fun k => if k = j then 1 else 0) i)

/-- `tf.gather(v, idxs, axis=0)` -/
def gatherV (idxs : List (Fin n)) (v : Vec n) : Vec idxs.length := fun a => v (idxs.get a)

/-- `tf.gather(tf.gather(M, idxs, axis=0), idxs, axis=1)` -/
def gatherM (idxs : List (Fin n)) (M : Mat n) : Mat idxs.length :=
  Matrix.of fun a b => M (idxs.get a) (idxs.get b)

/-- `tf.tensor_scatter_nd_update(cov, coords, updates)` with `coords` the `ij` mesh grid of `idxs` and `updates` the
flattened matrix (fitter.py:941-951).  The indices are distinct at every call. -/
def scatterM (cov : Mat n) (idxs : List (Fin n)) (upd : Mat idxs.length) : Mat n :=
  Matrix.of fun i j =>
    if h : i ∈ idxs ∧ j ∈ idxs then
      upd ⟨idxs.idxOf i, List.idxOf_lt_length_of_mem h.1⟩ ⟨idxs.idxOf j, List.idxOf_lt_length_of_mem h.2⟩
    else cov i j

/-- `floating_indices` (fitter.py:555-561); the freeze calls themselves are in `Model/FitParams.lean` -/
def floatingIdx (parms : Fin n → String) (frozen : List String) : List (Fin n) :=
  (List.finRange n).filter fun i => !frozen.contains (parms i)

/-- `Fitter.edmval_cov` (fitter.py:932-954); `cov` is the current content of `self.cov` -/
def fitterEdmvalCov (parms : Fin n → String) (frozen : List String) (cov : Mat n) (grad : Vec n) (hess : Mat n) :
    Res (ℝ × Mat n) :=
  if frozen.length > 0 then
    let fl := floatingIdx parms frozen
    match edmvalCov (gatherV fl grad) (gatherM fl hess) with
    | .error e => .error e
    | .ok (edm, c) => .ok (edm, scatterM cov fl c)
  else edmvalCov grad hess

open Classical in
/-- `tf.linalg.inv`: raises on a singular matrix -/
def tfInv (M : Mat n) : Res (Mat n) := if M.det = 0 then .error .exception else .ok M⁻¹

/-- `_cov_stat_floating` (fitter.py:1043-1061) for the leading `nstat` parameters -/
def covStatFloating (parms : Fin n → String) (frozen : List String) (hess : Mat n) (nstat : ℕ) (h : nstat ≤ n) :
    Res (Mat nstat) :=
  let lead : Fin nstat → Fin n := Fin.castLE h
  let hs : Mat nstat := hess.submatrix lead lead
  if frozen.length = 0 then tfInv hs
  else
    let fl := floatingIdx (fun i => parms (lead i)) frozen
    match tfInv (gatherM fl hs) with
    | .error e => .error e
    | .ok c => .ok (scatterM 0 fl c)

/-! ### linear fits -/

/-- A likelihood that is a quadratic polynomial of the parameters (`is_linear`, fitter.py:439-445). -/
structure Quad (n : ℕ) where
  c : ℝ
  g : Vec n
  H : Mat n

def Quad.val (q : Quad n) (x : Vec n) : ℝ := q.c + q.g ⬝ᵥ x + (1 / 2) * (x ⬝ᵥ q.H.mulVec x)

/-- The loss as a function of the variable `x` while the tape records: frozen entries pass through
`tf.stop_gradient` (`get_x`, fitter.py:690-735), so they stay at their current value `x₀`. -/
def Quad.tape (q : Quad n) (frozen : Fin n → Bool) (x₀ x : Vec n) : ℝ :=
  q.val fun i => if frozen i then x₀ i else x i

/-- gradient reported by `loss_val_grad_hess` for a symmetric `H`: no derivative reaches a frozen entry -/
def Quad.grad (q : Quad n) (frozen : Fin n → Bool) (x : Vec n) : Vec n :=
  fun i => if frozen i then 0 else q.g i + q.H.mulVec x i

/-- Hessian reported by `loss_val_grad_hess` -/
def Quad.hess (q : Quad n) (frozen : Fin n → Bool) : Mat n :=
  Matrix.of fun i j => if frozen i || frozen j then 0 else q.H i j

/-- `minimize`, linear branch with `compute_cov` (fitter.py:2318-2343): `x` after `assign_add(dx)`, or the
exception, raised before `x` is touched -/
def minimizeDense (q : Quad n) (frozen : Fin n → Bool) (x : Vec n) : Res (Vec n) :=
  match cholesky (q.hess frozen) with
  | none => .error .value
  | some U => .ok (x + choSolve U (-q.grad frozen x))

/-- `minimize`, linear branch under `--noHessian` (fitter.py:2344-2375).  `cg A b` is
`scipy.sparse.linalg.cg`: `none` when `info != 0`. -/
def minimizeCG (cg : (Vec n → Vec n) → Vec n → Option (Vec n)) (q : Quad n) (frozen : Fin n → Bool)
    (x : Vec n) : Res (Vec n) :=
  match cg (fun p => (q.hess frozen).mulVec p) (-q.grad frozen x) with
  | none => .error .value
  | some dx => .ok (x + dx)

end

end Verif.Cov
