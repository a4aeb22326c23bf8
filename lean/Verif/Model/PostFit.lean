import Verif.Model.Cov

/-
What `fit` reports after the minimisation (bin/rabbit_fit.py:518-690): estimated distance to the minimum, covariance,
variances stored with the parameters, and the number of degrees of freedom of the saturated test; the Hessian-free
routine `edmval_cov_rows_hessfree` (rabbit/fitter.py:956-1020).

Simplifications: real arithmetic; a NaN entry of the stored variances is `none`; the Hessian is an input.
-/

namespace Verif.PostFit

open Verif.Cov Matrix

noncomputable section

variable {n : ℕ}

/-- the options that `fit` reads: whether `--externalPostfit` is given, `--noEDM`, `--noHessian` -/
structure Opts where
  external : Bool := false
  noEDM : Bool := false
  noHessian : Bool := false

/-- numbers of POIs and of model parameters, `indata.noiidxs` (relative to the nuisance parameters) -/
structure Layout where
  npoi : Nat
  nparams : Nat
  noi : List Nat

/-- `poi_noi_idx` (bin/rabbit_fit.py:634-638) -/
def Layout.rows (l : Layout) : List Nat := List.range l.npoi ++ l.noi.map (· + l.npoi)

/-- Hessian as seen by Hessian-vector products: frozen parameters pass through `tf.stop_gradient` (fitter.py:690-735) -/
def maskH (parms : Fin n → String) (frozen : List String) (H : Mat n) : Mat n :=
  Matrix.of fun i j => if parms i ∈ frozen ∨ parms j ∈ frozen then 0 else H i j

/-- gradient of the loss with frozen parameters -/
def maskG (parms : Fin n → String) (frozen : List String) (g : Vec n) : Vec n := fun i => if parms i ∈ frozen then 0 else g i

/-- the loop over the rows (fitter.py:1008-1018): an index outside the vector raises `IndexError`, a solve that does not
converge `ValueError` -/
def covRows (cg : (Vec n → Vec n) → Vec n → Option (Vec n)) (A : Vec n → Vec n) : List Nat → Res (List (Vec n))
  | [] => .ok []
  | i :: l => if h : i < n then
      match cg A (Pi.single ⟨i, h⟩ 1) with
      | none => .error .value
      | some c => match covRows cg A l with
        | .error e => .error e
        | .ok r => .ok (c :: r)
    else .error .index

/-- `edmval_cov_rows_hessfree` (fitter.py:956-1020) -/
def rowsHessfree (cg : (Vec n → Vec n) → Vec n → Option (Vec n)) (A : Vec n → Vec n) (grad : Vec n) (idx : List Nat) :
    Res (ℝ × List (Vec n)) :=
  match cg A grad with
  | none => .error .value
  | some v => match covRows cg A idx with
    | .error e => .error e
    | .ok r => .ok ((1 / 2) * (grad ⬝ᵥ v), r)

/-- the loop filling `parms_variances_np` (bin/rabbit_fit.py:654-658) -/
def fillVariances : List (Nat × Vec n) → (Fin n → Option ℝ) → Fin n → Option ℝ
  | [], f => f
  | (i, c) :: l, f => fillVariances l fun k => if k.val = i then some (c k) else f k

/-- what is stored and left behind: `edmval`, the stored covariance, the covariance variable of the fitter (`None` under
`--noHessian`), the variances stored with the parameters -/
structure Out (n : ℕ) where
  edm : Option ℝ
  covHist : Option (Mat n)
  cov : Option (Mat n)
  variances : Fin n → Option ℝ

/-- the uncertainties in `fit` (bin/rabbit_fit.py:569-659).  `extCov`: a covariance was loaded from the external result;
`prev`: the covariance variable before, a matrix unless `--noHessian`. -/
def uncertainties (cg : (Vec n → Vec n) → Vec n → Option (Vec n)) (o : Opts) (dofit extCov : Bool) (l : Layout)
    (parms : Fin n → String) (frozen : List String) (prev : Mat n) (grad : Vec n) (H : Mat n) : Res (Out n) :=
  let before : Option (Mat n) := if o.noHessian then none else some prev
  if dofit || !o.external || !extCov then
    if !o.noEDM && !o.noHessian then
      match fitterEdmvalCov parms frozen prev (maskG parms frozen grad) (maskH parms frozen H) with
      | .error e => .error e
      | .ok (edm, c) => .ok ⟨some edm, some c, some c, fun i => some (c i i)⟩
    else if !o.noEDM then
      match rowsHessfree cg (fun p => (maskH parms frozen H).mulVec p) (maskG parms frozen grad) l.rows with
      | .error e => .error e
      | .ok (edm, rows) => .ok ⟨some edm, none, before, fillVariances (l.rows.zip rows) fun _ => none⟩
    else .ok ⟨none, none, before, fun _ => none⟩
  else .ok ⟨none, none, before, fun _ => none⟩

/-- `ndfsat` (bin/rabbit_fit.py:662-666) -/
def ndfsat (nobs nparams nsystnoconstraint : Nat) : Int := nobs - nparams - nsystnoconstraint

end

end Verif.PostFit
