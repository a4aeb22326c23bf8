import Verif.Model.BBB
import Mathlib.LinearAlgebra.Matrix.NonsingularInverse

/-
Bin-by-bin treatment, `full` mode (one β per bin and process), and the covariance fit,
rabbit/bbstat/bbstat.py:502-566, 576-694, 713-774, 795-830, 843-909.
-/

namespace Verif.BBB

noncomputable section

/-- Floating-point division as far as the profile needs it: `x / 0` is `inf` or `nan`, recorded as
`none`; everything computed from it is not a finite number. -/
def fdiv (x y : ℝ) : Option ℝ := if y = 0 then none else some (x / y)

/-- Inputs of one bin, full mode. -/
structure FullBin (P : Type*) where
  sumw : P → ℝ
  sumw2 : P → ℝ
  norm : P → ℝ
  nobs : ℝ
  varnobs : ℝ
  beta0 : P → ℝ
  minK : ℝ

namespace FullBin
variable {P : Type*} [Fintype P] (b : FullBin P)

/-- `betamask` entry (bbstat.py:149-172) with `varbeta = sumw2`, `sumw = sumw` (bbstat.py:129-131) -/
def masked (p : P) : Prop := betamask b.minK (b.sumw p) (b.sumw2 p)
/-- `kstat` entry -/
def k (p : P) : ℝ := kstat b.minK (b.sumw p) (b.sumw2 p)
/-- `nexp` of the bin -/
def nexp : ℝ := ∑ p, b.norm p

open Classical in
/-- `n2kstatsum` (bbstat.py:578-584, 797-802) -/
def n2k : ℝ := ∑ p, if b.masked p then 0 else b.norm p ^ 2 / b.k p

/-- `varbetasum` (bbstat.py:603, 825) -/
def varsum : ℝ := ∑ p, b.sumw2 p

open Classical in
/-- Profiled β in full mode for the Gaussian types.  `none`: the code divides by zero.
Divisions by `varnobs` and `kstat` are by non-zero numbers (`set_nobs` and `kstat` guarantee it for the
default variances); the only division that can be by zero at run time is `nobs / nbeta`. -/
def profile (fit : Fit) (kind : Kind) : Option (P → ℝ) :=
  match fit, kind with
  | .chisq, .normMult =>   -- bbstat.py:576-595
    let S := b.n2k
    let nbeta := (b.nobs / b.varnobs * S + ∑ p, b.norm p * b.beta0 p) / (1 + 1 / b.varnobs * S)
    some fun p => if b.masked p then b.beta0 p
      else b.beta0 p + 1 / b.varnobs * (b.nobs - nbeta) * b.norm p / b.k p
  | .chisq, .normAdd =>    -- bbstat.py:602-611
    let V := b.varsum
    let nbeta := ((∑ p, √(b.sumw2 p) * b.beta0 p) + V / b.varnobs * (b.nobs - b.nexp)) / (1 + V / b.varnobs)
    some fun p => b.beta0 p - √(b.sumw2 p) * ((b.nexp + nbeta - b.nobs) / b.varnobs)
  | .poisson, .normMult => -- bbstat.py:795-809
    let n2 := fun p => if b.masked p then 0 else b.norm p ^ 2 / b.k p
    let pbeta := ∑ p, (n2 p - b.beta0 p * b.norm p)
    let qbeta := -b.nobs * ∑ p, n2 p
    let nbeta := solveQuadEq 1 pbeta qbeta
    (fdiv b.nobs nbeta).map fun r => fun p =>
      if b.masked p then b.beta0 p else b.beta0 p + (r - 1) * b.norm p / b.k p
  | .poisson, .normAdd =>  -- bbstat.py:823-830
    let qbeta := -b.nobs * ∑ p, b.sumw2 p
    let pbeta := ∑ p, (b.sumw2 p - √(b.sumw2 p) * b.beta0 p - b.norm p)
    let nbeta := solveQuadEq 1 pbeta qbeta
    (fdiv b.nobs nbeta).map fun r => fun p => b.beta0 p + (r - 1) * √(b.sumw2 p)
  | _, _ => none           -- gamma: iterative, see `gammaBeta`; covariance: `CovFit`

open Classical in
/-- Application of β in full mode (bbstat.py:847-865 without the beta variations, 881-883). -/
def apply (kind : Kind) (beta : P → ℝ) : P → ℝ :=
  match kind with
  | .gamma | .normMult => fun p => if b.masked p then b.norm p else beta p * b.norm p
  | .normAdd => fun p => b.norm p + √(b.sumw2 p) * beta p

/-- yield of the bin after application -/
def applied (kind : Kind) (beta : P → ℝ) : ℝ := ∑ p, b.apply kind beta p

/-- NLL of the bin at given β (data term + `lbeta`) -/
def objective (fit : Fit) (kind : Kind) (beta : P → ℝ) : ℝ :=
  dataTerm fit b.nobs b.varnobs (b.applied kind beta) +
    ∑ p, lbeta kind (b.masked p) (b.k p) (b.beta0 p) (beta p)

/-! gamma type, full mode: Newton iteration on one number per bin -/

/-- minimum over the unmasked processes; `none` = `+inf` (all masked) (`tf.reduce_min`) -/
def minOver (f : P → Option ℝ) : Option ℝ :=
  (Finset.univ.toList.filterMap f).foldl (fun acc x => some (match acc with | none => x | some a => min a x)) none

open Classical in
/-- `threshold`, Poisson (bbstat.py:722-733): `nobs / min(1 + k/norm)`, `nobs / inf = 0`.  An unmasked
process with zero yield has `k / 0 = inf` and does not enter the minimum either. -/
def thresholdPoisson : ℝ :=
  match minOver fun p => if b.masked p ∨ b.norm p = 0 then none else some (1 + b.k p / b.norm p) with
  | some m => b.nobs / m
  | none => 0

open Classical in
/-- `threshold`, chi-square (bbstat.py:515-526): `nobs - varnobs · min(k/norm)`; with no process
in the minimum the code has `nobs - inf`, which makes `x` infinite: recorded as `none`. -/
def thresholdChisq : Option ℝ :=
  (minOver fun p => if b.masked p ∨ b.norm p = 0 then none else some (b.k p / b.norm p)).map fun m => b.nobs - b.varnobs * m

open Classical in
/-- β as a function of the total expected yield `x`, Poisson (bbstat.py:741-743, 981-983). -/
def gammaBetaPoisson (x : ℝ) (p : P) : ℝ :=
  if b.masked p then b.beta0 p
  else b.k p * b.beta0 p / ((1 - b.nobs / x) * b.norm p + b.k p)

open Classical in
/-- β as a function of the total expected yield `x`, chi-square (bbstat.py:534-539, 975-980). -/
def gammaBetaChisq (x : ℝ) (p : P) : ℝ :=
  if b.masked p then b.beta0 p
  else b.k p * b.beta0 p / (b.k p + (x - b.nobs) / b.varnobs * b.norm p)

/-- `x = threshold + exp(u)` and the bin function minimised by the Newton iteration, Poisson
(`fnll_nbeta`, bbstat.py:739-760) -/
def newtonObjectivePoisson (u : ℝ) : ℝ :=
  let beta := b.gammaBetaPoisson (b.thresholdPoisson + Real.exp u)
  poissonBin b.nobs (∑ p, beta p * b.norm p)
    + ∑ p, lbeta .gamma (b.masked p) (b.k p) (b.beta0 p) (beta p)

/-- the same, chi-square (bbstat.py:534-555), for a finite threshold -/
def newtonObjectiveChisq (thr u : ℝ) : ℝ :=
  let beta := b.gammaBetaChisq (thr + Real.exp u)
  1 / 2 * ((∑ p, beta p * b.norm p) - b.nobs) ^ 2 / b.varnobs
    + ∑ p, lbeta .gamma (b.masked p) (b.k p) (b.beta0 p) (beta p)

end FullBin

/-! `_newton_solve_nbeta` (bbstat.py:915-984).  The derivatives come from TensorFlow's automatic
differentiation; here they are arbitrary functions of the iterate (one per bin), so that what is proved
about the result holds whatever they return. -/

/-- `tf.maximum(hess, 1e-8)` -/
def safeHess (h : ℝ) : ℝ := max h (1 / 10 ^ 8)

/-- `tf.clip_by_value(grad / safe_hess, -1, 1)` -/
def newtonStep (g h : ℝ) : ℝ := max (-1) (min (g / safeHess h) 1)

/-- `body`: one clipped step for every bin (bbstat.py:949-954) -/
def newtonBody {B : Type*} (grad hess : B → ℝ → ℝ) (u : B → ℝ) : B → ℝ :=
  fun i => u i - newtonStep (grad i (u i)) (hess i (u i))

open Classical in
/-- `tf.while_loop(cond, body, maximum_iterations=50)` (bbstat.py:956-963): the loop stops when the
distance estimate of the last step is at most `1e-10` in all bins. -/
def newtonLoop {B : Type*} (grad hess : B → ℝ → ℝ) : Nat → (B → ℝ) → (B → ℝ)
  | 0, u => u
  | n + 1, u =>
    let u' := newtonBody grad hess u
    if ∃ i, 1 / 2 * grad i (u i) ^ 2 / safeHess (hess i (u i)) > 1 / 10 ^ 10 then newtonLoop grad hess n u'
    else u'

/-- the whole solve: start at `u = 0` in every bin (bbstat.py:529, 737), loop, one more unclipped
Newton step (bbstat.py:965-976) -/
def newtonSolve {B : Type*} (grad hess : B → ℝ → ℝ) : B → ℝ :=
  let u := newtonLoop grad hess 50 fun _ => 0
  fun i => u i - grad i (u i) / safeHess (hess i (u i))

/-! ### Covariance fit: all bins at once -/

open Matrix

/-- Inputs of the covariance fit, lite mode, `B` the (unmasked) bins. -/
structure CovLite (B : Type*) where
  W : Matrix B B ℝ        -- data_cov_inv
  nobs : B → ℝ
  nActive : B → ℝ         -- after `n_active_safe`
  nZero : B → ℝ
  nexp : B → ℝ
  k : B → ℝ
  varbeta : B → ℝ
  beta0 : B → ℝ
  masked : B → Prop

namespace CovLite
variable {B : Type*} [Fintype B] [DecidableEq B] (c : CovLite B)

/-- `A` of bbstat.py:617-620 -/
def matMult : Matrix B B ℝ := diagonal c.nActive * c.W * diagonal c.nActive + diagonal c.k
/-- `b` of bbstat.py:621-625 -/
def rhsMult : B → ℝ := diagonal c.nActive *ᵥ (c.W *ᵥ (c.nobs - c.nZero)) + fun i => c.k i * c.beta0 i

open Classical in
/-- Multiplicative Gaussian, lite (bbstat.py:614-632): `tf.linalg.solve` is multiplication with the
inverse, then masked bins are overwritten. -/
def profileMult : B → ℝ := fun i => if c.masked i then c.beta0 i else (c.matMult⁻¹ *ᵥ c.rhsMult) i

/-- matrix of `betaauxlu`, lite (bbstat.py:203-209) -/
def matAdd : Matrix B B ℝ :=
  diagonal (fun i => √(c.varbeta i)) * c.W * diagonal (fun i => √(c.varbeta i)) + 1

/-- Additive Gaussian, lite (bbstat.py:668-677) -/
def profileAdd : B → ℝ :=
  c.matAdd⁻¹ *ᵥ (diagonal (fun i => √(c.varbeta i)) *ᵥ (c.W *ᵥ (c.nobs - c.nexp)) + c.beta0)

end CovLite

/-- Inputs of the covariance fit, full mode. -/
structure CovFull (B P : Type*) where
  W : Matrix B B ℝ
  nobs : B → ℝ
  norm : B → P → ℝ
  k : B → P → ℝ
  varbeta : B → P → ℝ
  beta0 : B → P → ℝ
  masked : B → P → Prop

namespace CovFull
variable {B P : Type*} [Fintype B] [DecidableEq B] [Fintype P] (c : CovFull B P)

open Classical in
/-- `n2kstatsum` (bbstat.py:638-644) -/
def n2k (i : B) : ℝ := ∑ p, if c.masked i p then 0 else c.norm i p ^ 2 / c.k i p

open Classical in
/-- Multiplicative Gaussian, full (bbstat.py:633-665). -/
def profileMult : B → P → ℝ :=
  let A := diagonal c.n2k * c.W + 1
  let rhs := diagonal c.n2k *ᵥ (c.W *ᵥ c.nobs) + fun i => ∑ p, c.norm i p * c.beta0 i p
  let nbeta := A⁻¹ *ᵥ rhs
  fun i p => if c.masked i p then c.beta0 i p
    else c.beta0 i p - c.norm i p / c.k i p * (c.W *ᵥ (nbeta - c.nobs)) i

/-- Additive Gaussian, full (bbstat.py:678-694, LU of bbstat.py:210-221). -/
def profileAdd : B → P → ℝ :=
  let V : B → ℝ := fun i => ∑ p, c.varbeta i p
  let N : B → ℝ := fun i => ∑ p, c.norm i p
  let A := diagonal V * c.W + 1
  let rhs := diagonal V *ᵥ (c.W *ᵥ (c.nobs - N)) + fun i => ∑ p, √(c.varbeta i p) * c.beta0 i p
  let nbeta := A⁻¹ *ᵥ rhs
  fun i p => c.beta0 i p - √(c.varbeta i p) * (c.W *ᵥ (nbeta + N - c.nobs)) i

end CovFull

end

end Verif.BBB
