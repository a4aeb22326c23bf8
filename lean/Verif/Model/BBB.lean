import Verif.Model.Likelihood
import Mathlib.Analysis.SpecialFunctions.Sqrt

/-
Bin-by-bin (Barlow-Beeston) treatment of the finite size of the templates, rabbit/bbstat/bbstat.py and
rabbit/bbstat/formulas.py, one bin at a time (every formula of `profile_and_apply` except the
covariance fit is element-wise in the bin).  float64 is ℝ.  `P` is the (finite) type of processes.
The 1-D `sumw2` branch (bbstat.py:145-147) is not modelled: the writer always stores 2-D arrays.
-/

namespace Verif.BBB

noncomputable section

variable {P : Type*} [Fintype P]

/-- The three bin-by-bin types (bbstat.py:21-25). -/
inductive Kind where
  | gamma | normMult | normAdd
deriving DecidableEq, Repr

/-- `lite` or `full` (one β per bin / one β per bin and process). -/
inductive Mode where
  | lite | full
deriving DecidableEq, Repr

/-- data term used by the fit -/
inductive Fit where
  | poisson | chisq | covariance
deriving DecidableEq, Repr

/-- `--binByBinStatType`, with the `automatic` choice (bbstat.py:78-86). -/
def resolveKind (requested : Option Kind) (covarianceFit : Bool) (mode : Mode) : Kind :=
  match requested with
  | some k => k
  | none =>
    if covarianceFit then .normAdd
    else match mode with
      | .full => .normMult
      | .lite => .gamma

/-- Construction check (bbstat.py:88-96): a covariance fit with the gamma type is refused. -/
def acceptKind (k : Kind) (covarianceFit enabled : Bool) : Res Kind :=
  if covarianceFit && enabled && k == .gamma then .error .exception else .ok k

/-- `solve_quad_eq` (formulas.py:10-12). -/
def solveQuadEq (a b c : ℝ) : ℝ := 1 / 2 * (-b + √(b ^ 2 - 4 * a * c)) / a

/-- lite `varbeta` (bbstat.py:143): summed variance of the bin. -/
def liteVar (sumw2 : P → ℝ) : ℝ := ∑ p, sumw2 p

/-- lite `sumw` (bbstat.py:134-144): summed weights of the processes with a variance. -/
def liteSumw (sumw sumw2 : P → ℝ) : ℝ := ∑ p, if sumw2 p = 0 then 0 else sumw p

/-- `betamask` of one entry (bbstat.py:149-172). -/
def betamask (minK sumw varbeta : ℝ) : Prop :=
  (varbeta = 0 ∨ sumw = 0) ∨
    (minK > 0 ∧ sumw ^ 2 / (if varbeta = 0 ∨ sumw = 0 then 1 else varbeta) < minK)

open Classical in
/-- `kstat` of one entry (bbstat.py:173). -/
def kstat (minK sumw varbeta : ℝ) : ℝ := if betamask minK sumw varbeta then 1 else sumw ^ 2 / varbeta

/-- Inputs of one bin in `profile_and_apply`, lite mode: the templates (`sumw`, `sumw2`), the current
yields `norm` of each process, the observation. -/
structure LiteBin (P : Type*) where
  sumw : P → ℝ
  sumw2 : P → ℝ
  norm : P → ℝ
  nobs : ℝ
  varnobs : ℝ
  beta0 : ℝ
  minK : ℝ

namespace LiteBin
variable (b : LiteBin P)

/-- `nexp` (sum over processes; fitter.py `_compute_yields_noBBB`). -/
def nexp : ℝ := ∑ p, b.norm p
/-- `n_active` (bbstat.py:474-476). -/
def nActive : ℝ := ∑ p, if b.sumw2 p = 0 then 0 else b.norm p
/-- `n_zero_var` (bbstat.py:477-479). -/
def nZero : ℝ := ∑ p, if b.sumw2 p = 0 then b.norm p else 0
/-- `n_active_safe` (bbstat.py:486). -/
def nActiveSafe : ℝ := if b.nActive > 0 then b.nActive else 1
/-- `varbeta` -/
def varbeta : ℝ := liteVar b.sumw2
/-- `kstat` -/
def k : ℝ := kstat b.minK (liteSumw b.sumw b.sumw2) (liteVar b.sumw2)
/-- `betamask` -/
def masked : Prop := betamask b.minK (liteSumw b.sumw b.sumw2) (liteVar b.sumw2)

open Classical in
/-- Profiled β in lite mode (bbstat.py:493-601 chi-square, 696-822 Poisson). -/
def profile (fit : Fit) (kind : Kind) : ℝ :=
  let A := b.nActiveSafe
  let Z := b.nZero
  let n := b.nobs
  let k := b.k
  let v := b.varnobs
  let β0 := b.beta0
  match fit, kind with
  | .chisq, .gamma =>            -- bbstat.py:496-500, 567
    if b.masked then β0 else solveQuadEq (A ^ 2) (k * v + (Z - n) * A) (-k * v * β0)
  | .chisq, .normMult =>         -- bbstat.py:570-574
    if b.masked then β0 else ((n - Z) * A / v + k * β0) / (k + A * A / v)
  | .chisq, .normAdd =>          -- bbstat.py:597-601
    (√b.varbeta * (n - b.nexp) + v * β0) / (v + b.varbeta)
  | .poisson, .gamma =>          -- bbstat.py:698-711, 776
    if b.masked then β0
    else solveQuadEq (A * (A + k)) (A * (Z - n - β0 * k) + k * Z) (-β0 * k * Z)
  | .poisson, .normMult =>       -- bbstat.py:778-794
    if b.masked then β0
    else solveQuadEq (k * A) (A ^ 2 - k * β0 * A + k * Z) (A * (Z - n) - k * β0 * Z)
  | .poisson, .normAdd =>        -- bbstat.py:810-822
    if b.varbeta = 0 then β0
    else solveQuadEq (if b.varbeta = 0 then 1 else √b.varbeta)
      (b.varbeta + b.nexp - √b.varbeta * β0) (√b.varbeta * (b.nexp - n) - b.nexp * β0)
  | .covariance, _ => β0         -- see Model/BBBCov.lean

open Classical in
/-- Application of β to the yields of one bin in lite mode (bbstat.py:843-909, the branches with
`proc_zero_var_mask`, which is always set for 2-D templates). -/
def apply (kind : Kind) (beta : ℝ) : P → ℝ :=
  match kind with
  | .gamma | .normMult => fun p =>      -- bbstat.py:866-876
    b.norm p * (if b.sumw2 p = 0 ∨ b.masked then 1 else beta)
  | .normAdd => fun p =>                -- bbstat.py:885-903
    b.norm p + √b.varbeta * beta * (if b.sumw2 p = 0 then 0 else b.norm p) /
      (if b.nActive > 0 then b.nActive else 1)

/-- yield of the bin after application: `tf.reduce_sum(norm, -1)` -/
def applied (kind : Kind) (beta : ℝ) : ℝ := ∑ p, b.apply kind beta p

end LiteBin

open Classical in
/-- `lbeta` of one entry, `full_nll=False` (bbstat.py:365-419).  `logbeta0` is the cached
`log(where(beta0 == 0, 1, beta0))` of `set_beta0` (bbstat.py:237-246). -/
def lbeta (kind : Kind) (masked : Prop) (k beta0 beta : ℝ) : ℝ :=
  match kind with
  | .gamma =>
    -k * beta0 * (Real.log (if beta0 = 0 then 1 else beta) - Real.log (if beta0 = 0 then 1 else beta0))
      + k * (beta - beta0)
  | .normMult => if masked then 0 else 1 / 2 * (beta - beta0) ^ 2 * k
  | .normAdd => 1 / 2 * (beta - beta0) ^ 2

/-- `lbeta` of one entry, `full_nll=True`, gamma type (bbstat.py:388-394). -/
def lbetaGammaFull (k beta0 beta : ℝ) : ℝ :=
  -k * beta0 * Real.log (if beta0 = 0 then 1 else beta) + k * beta + lgamma (k * beta0)
    + -k * beta0 * Real.log k

/-- data term of one bin as used with each fit type (fitter.py:2046-2073, one bin) -/
def dataTerm (fit : Fit) (nobs varnobs nexp : ℝ) : ℝ :=
  match fit with
  | .poisson => poissonBin nobs nexp
  | .chisq => 1 / 2 * ((nexp - nobs) ^ 2 / varnobs)
  | .covariance => 0

/-- The contribution of one bin to the NLL at a given β (lite). -/
def LiteBin.objective (b : LiteBin P) (fit : Fit) (kind : Kind) (beta : ℝ) : ℝ :=
  dataTerm fit b.nobs b.varnobs (b.applied kind beta) + lbeta kind b.masked b.k b.beta0 beta

end

end Verif.BBB
