import Verif.Model.Cov
import Mathlib.Analysis.Real.Sqrt

/-
Impacts (rabbit/impacts/traditional_impacts.py, rabbit/impacts/global_impacts.py), the labels of the grouped
impact tables (rabbit/workspace.py:16-30, 82-97), the derivatives they use (rabbit/fitter.py:1023-1146, 1372-1427),
propagated uncertainties (rabbit/fitter.py:1430-1629) and the warm start of contour scans
(rabbit/fitter.py:2625-2645).

Tables are lists of columns; a column has one entry per reported parameter (POIs, then NOIs).
Simplifications: real arithmetic; derivatives taken by automatic differentiation are inputs.
-/

namespace Verif.Impacts

open Verif.Cov

noncomputable section

variable {n : ℕ}

/-! ### rows -/

/-- `traditional_impacts._gather_poi_noi_vector` (traditional_impacts.py:19-34).  Entries of `noi` outside the
vector read zero through the mask, but `tf.gather` of the safe index 0 from an empty vector raises. -/
def gatherMasked {α : Type} [Zero α] (v : List α) (noi : List ℕ) (npoi nmodel : ℕ) : Res (List α) :=
  let tail := v.drop nmodel
  if noi ≠ [] ∧ tail = [] then .error .exception
  else .ok (v.take npoi ++ noi.map fun k => tail.getD k 0)

/-- `global_impacts._gather_poi_noi_vector` (global_impacts.py:19-24): out of range indices raise -/
def gatherRows {α : Type} (v : List α) (noi : List ℕ) (npoi nmodel : ℕ) : Res (List α) :=
  match noi.mapM fun k => (v.drop nmodel)[k]? with
  | none => .error .exception
  | some l => .ok (v.take npoi ++ l)

/-- labels of the rows of all impact tables (workspace.py:421-427) -/
def rowLabels (parms : List String) (npoi nmodel : ℕ) (noi : List ℕ) : List String :=
  parms.take npoi ++ noi.map fun k => (parms.drop nmodel).getD k ""

/-! ### traditional impacts -/

/-- rows of a matrix -/
def rowsOf {m : ℕ} (M : Matrix (Fin m) (Fin n) ℝ) : List (Vec n) := List.ofFn fun i j => M i j

/-- the denominator guard (traditional_impacts.py:64-65) -/
def safeSigma (cov : Mat n) (j : Fin n) : ℝ := if Real.sqrt (cov j j) > 0 then Real.sqrt (cov j j) else 1

open Classical in
/-- `_compute_impact_group` (traditional_impacts.py:10-16): one column of grouped impacts, one entry per row `v`;
`tf.linalg.solve` raises when the covariance of the group is singular -/
def groupColumn (cov : Mat n) (rows : List (Vec n)) (idxs : List (Fin n)) : Res (List ℝ) :=
  if (gatherM idxs cov).det = 0 then .error .exception
  else .ok (rows.map fun v =>
    Real.sqrt (gatherV idxs v ⬝ᵥ (gatherM idxs cov)⁻¹.mulVec (gatherV idxs v)))

/-- shift of syst-relative group members into the full parameter vector (traditional_impacts.py:92-96); `none`
when an index is out of range (`tf.gather` raises) -/
def shiftIdxs (n nmodel : ℕ) (idxs : List ℕ) : Option (List (Fin n)) :=
  idxs.mapM fun k => if h : nmodel + k < n then some ⟨nmodel + k, h⟩ else none

/-- the columns of the systematic groups -/
def systColumns (cov : Mat n) (rows : List (Vec n)) (nmodel : ℕ) (groups : List (List ℕ)) : Res (List (List ℝ)) :=
  groups.mapM fun g => match shiftIdxs n nmodel g with
    | none => .error .exception
    | some idxs => groupColumn cov rows idxs

/-- the columns of statistical uncertainties (traditional_impacts.py:68-89); `covStat`, `covStatNoBBB` are the
covariances of the leading parameters without constraints -/
def statColumns {ns : ℕ} (covStat : Mat ns) (covStatNoBBB : Option (Mat ns)) (npoi : ℕ) (noi : List ℕ)
    (nmodel : ℕ) : Res (List (List ℝ)) :=
  match covStatNoBBB with
  | some c =>
    match gatherMasked (List.ofFn fun i => Real.sqrt (c i i)) noi npoi nmodel with
    | .error e => .error e
    | .ok stat => match gatherMasked (List.ofFn fun i => covStat i i - c i i) noi npoi nmodel with
      | .error e => .error e
      | .ok bbb => .ok [stat, bbb.map fun x => Real.sqrt (max 0 x)]
  | none =>
    match gatherMasked (List.ofFn fun i => Real.sqrt (covStat i i)) noi npoi nmodel with
    | .error e => .error e
    | .ok stat => .ok [stat]

/-- `traditional_impacts.impacts_parms` (traditional_impacts.py:37-117) -/
def impactsParms {ns : ℕ} (cov : Mat n) (covStat : Mat ns) (covStatNoBBB : Option (Mat ns)) (npoi : ℕ)
    (noi : List ℕ) (groups : List (List ℕ)) (nmodel : ℕ) (paramGroups : List (List (Fin n))) :
    Res (List (Vec n) × List (List ℝ)) :=
  match gatherMasked (rowsOf cov) noi npoi nmodel with
  | .error e => .error e
  | .ok rows =>
    let impacts : List (Vec n) := rows.map fun v j => v j / safeSigma cov j
    match statColumns covStat covStatNoBBB npoi noi nmodel with
    | .error e => .error e
    | .ok stat =>
      match systColumns cov rows nmodel groups with
      | .error e => .error e
      | .ok syst => match paramGroups.mapM (groupColumn cov rows) with
        | .error e => .error e
        | .ok param => .ok (impacts, syst ++ stat ++ param)

/-- `getGroupedImpactsAxes` (workspace.py:16-30) -/
def groupedAxis (systgroups procs : List String) (bbb perProcess : Bool) (extra : List String) : List String :=
  systgroups ++ ["stat"] ++
    (if bbb then "binByBinStat" :: (if perProcess then procs.map fun p => "binByBinStat" ++ p else []) else []) ++ extra

/-- `_resolved_param_impact_groups` (fitter.py:1023-1041): groups keep their floating members, empty groups are
dropped.  Keys of the dict are distinct. -/
def resolvedParamGroups (parms : Fin n → String) (frozen : List (Fin n)) (groups : List (String × List String)) :
    List (String × List (Fin n)) :=
  let lookup (p : String) : Option (Fin n) := ((List.finRange n).reverse.find? fun i => parms i == p)
  (groups.map fun g => (g.1, (g.2.filterMap lookup).filter fun i => !frozen.contains i)).filter fun g => g.2 ≠ []

/-! ### global impacts -/

/-- `cov_dexpdx` of `global_impacts_parms` for one reported parameter `i` (global_impacts.py:279-286): the product of the
covariance with a one-hot vector -/
def covColumn (cov : Mat n) (i : Fin n) : Vec n := cov.mulVec fun k => if k = i then 1 else 0

/-- `_compute_global_impacts_x0` (global_impacts.py:183-193) for one column of `cov_dexpdx`: the second derivative
of the constraint term is the diagonal matrix of the constraint weights -/
def impactsX0 (cw : Vec n) (covDexpdx : Vec n) : Vec n := fun j => Real.sqrt (cw j) * covDexpdx j

/-- `_compute_global_impacts_beta0` (global_impacts.py:91-133) for one column: `sbeta` is the square root of the diagonal
second derivative `l2` of the bin-by-bin term, `dbetadx` the derivative of the profiled `β` -/
def impactsBeta0 {K : Type} [Fintype K] (l2 : K → ℝ) (dbetadx : Matrix K (Fin n) ℝ) (covDexpdx : Vec n) : K → ℝ :=
  fun k => Real.sqrt (l2 k) * dbetadx.mulVec covDexpdx k

/-- the squared data-statistics part, obtained as the remainder (global_impacts.py:311-316) -/
def varNobs {K : Type} [Fintype K] (varTotal : ℝ) (x0 : Vec n) (beta : Option (K → ℝ)) : ℝ :=
  varTotal - (∑ j, x0 j ^ 2) - match beta with
    | none => 0
    | some b => ∑ k, b k ^ 2

/-- `_compute_global_impact_group` (global_impacts.py:27-30) -/
def globalGroup (sq : Vec n) (idxs : List (Fin n)) : ℝ := Real.sqrt ((idxs.map sq).sum)

/-- one row of `_compute_grouped_impacts` (global_impacts.py:234-259) with `_prepend_append_groups` (212-231):
`nobs` and `betaTotal` are impacts, `betaProc` the impacts of the single processes (mode `full`) -/
def globalGroupedRow (systGroups paramGroups : List (List (Fin n))) (sq : Vec n) (nobs : ℝ) (betaTotal : Option ℝ)
    (betaProc : Option (List ℝ)) : List ℝ :=
  systGroups.map (globalGroup sq) ++
    (match betaTotal with
      | none => [nobs]
      | some t => [nobs, t] ++ betaProc.getD []) ++
    paramGroups.map (globalGroup sq)

/-- one row of the grouped global impacts with the shift of the systematic groups (global_impacts.py:221-224); an
index outside the table raises -/
def globalGrouped (nmodel : ℕ) (groups : List (List ℕ)) (paramGroups : List (List (Fin n))) (sq : Vec n) (nobs : ℝ)
    (betaTotal : Option ℝ) (betaProc : Option (List ℝ)) : Res (List ℝ) :=
  match groups.mapM (shiftIdxs n nmodel) with
  | none => .error .exception
  | some gs => .ok (globalGroupedRow gs paramGroups sq nobs betaTotal betaProc)

/-- the statistics impacts of one reported parameter in `full` mode: total and per process
(global_impacts.py:174-180); `β` has one entry per bin and process -/
def betaImpacts {B : Type} [Fintype B] {np : ℕ} (full : Bool) (b : B × Fin np → ℝ) : ℝ × Option (List ℝ) :=
  let per : Fin np → ℝ := fun p => ∑ i, b (i, p) ^ 2
  (Real.sqrt (∑ p, per p), if full then some (List.ofFn fun p => Real.sqrt (per p)) else none)

/-- `_dxdvars` (fitter.py:1372-1394): response of the minimum to shifts of the quantities `v`; `pd2` is the
mixed second derivative of the loss -/
def dxdvar {V : Type} (cov : Mat n) (pd2 : Matrix (Fin n) V ℝ) : Matrix (Fin n) V ℝ := -(cov * pd2)

/-- squared gaussian impacts of independent sources with variances `var` (global_impacts.py:450-451, 458, 463-465) -/
def gaussSq {V : Type} [Fintype V] (d var : V → ℝ) : ℝ := ∑ v, d v ^ 2 * var v

/-- squared gaussian impact of the data with a covariance matrix (global_impacts.py:453-456) -/
def gaussCov {V : Type} [Fintype V] [DecidableEq V] (d : V → ℝ) (covInv : Matrix V V ℝ) : ℝ := d ⬝ᵥ covInv⁻¹.mulVec d

/-! ### propagated uncertainties -/

/-- how the bin-by-bin variables `β` enter the propagation (fitter.py:1478-1499).  `Jb` is the derivative of the
predictions with respect to them.  `diag`: the second derivative of the loss is the diagonal `l2`, `mask` marks
`β` that are not varied (nothing is masked for the type `normal-additive`); `full`: covariance fits after
profiling, the second derivative is the matrix `S`. -/
inductive BetaPart (O K : Type)
  | diag (mask : K → Bool) (l2 : K → ℝ) (Jb : Matrix O K ℝ)
  | full (S : Matrix K K ℝ) (Jb : Matrix O K ℝ)

open Classical in
/-- `pd2ldbeta2_pdexpdbeta` (fitter.py:1481-1499); the solver raises for a singular matrix -/
def BetaPart.solve {O K : Type} [Fintype K] [DecidableEq K] : BetaPart O K → Res (Matrix K O ℝ)
  | .diag mask l2 Jb => .ok (Matrix.of fun k o => if mask k then 0 else Jb o k / l2 k)
  | .full S Jb => if S.det = 0 then .error .exception else .ok (S⁻¹ * Jb.transpose)

/-- `pdexpdbeta` -/
def BetaPart.jac {O K : Type} : BetaPart O K → Matrix O K ℝ
  | .diag _ _ Jb => Jb
  | .full _ Jb => Jb

/-- `_expected_with_variance` with `compute_cov` (fitter.py:1467-1509), covariance of the predictions.  `J` is the
derivative of the predictions with respect to the parameters. -/
def expCov {O K : Type} [Fintype K] [DecidableEq K] (cov : Mat n) (J : Matrix O (Fin n) ℝ) (bb : Option (BetaPart O K)) :
    Res (Matrix O O ℝ) :=
  match bb with
  | none => .ok (J * (cov * J.transpose))
  | some b => match b.solve with
    | .error e => .error e
    | .ok s => .ok (J * (cov * J.transpose) + b.jac * s)

/-- the matrix-free variances (fitter.py:1474-1476, 1503-1504) -/
def expVar {O K : Type} [Fintype K] [DecidableEq K] (cov : Mat n) (J : Matrix O (Fin n) ℝ) (bb : Option (BetaPart O K)) :
    Res (O → ℝ) :=
  match bb with
  | none => .ok fun o => ∑ j, ∑ k, J o j * cov j k * J o k
  | some b => match b.solve with
    | .error e => .error e
    | .ok s => .ok fun o => (∑ j, ∑ k, J o j * cov j k * J o k) + ∑ k, b.jac o k * s k o

/-- the shift of the predictions in `_expected_variations` (fitter.py:1610-1622): with correlations the columns
follow the profiled direction of each parameter.  `none` is NaN (division by a zero uncertainty). -/
def variation {O : Type} (corr : Bool) (cov : Mat n) (J : Matrix O (Fin n) ℝ) (o : O) (j : Fin n) : Option ℝ :=
  if corr then
    (if Real.sqrt (cov j j) = 0 then none else some (∑ k, J o k * (cov k j / Real.sqrt (cov j j))))
  else some (J o j * Real.sqrt (cov j j))

/-- `[down, up]` (fitter.py:1624-1627) -/
def downUp (expected d : ℝ) : ℝ × ℝ := (expected - d, expected + d)

/-! ### warm start of contour scans -/

/-- `gauss_dx` (fitter.py:2634-2643) -/
def gaussDx (cov : Mat n) (idx : Fin n) (q : ℝ) (frozen : List (Fin n)) : Vec n := fun j =>
  if frozen.contains j then 0 else Real.sqrt q * cov j idx / Real.sqrt (cov idx idx)

/-- `xval_init` (fitter.py:2646) -/
def warmStart (cov : Mat n) (idx : Fin n) (q sign : ℝ) (frozen : List (Fin n)) (x : Vec n) : Vec n := fun j =>
  x j + sign * gaussDx cov idx q frozen j

end

end Verif.Impacts
