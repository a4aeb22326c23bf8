import Verif.Model.BBB

/-
The likelihood with its constant terms, `Fitter.full_nll` (rabbit/fitter.py:2015-2017, 2076-2121), with the β
constraints of rabbit/bbstat/bbstat.py:365-419 as whole arrays: the additive type adds a *vector* (`tf.shape`), so
that broadcasting matters.  float64 is ℝ; `tf.math.lgamma` is +inf at zero and at the negative integers, where
`lgamma` of the model is 0: the theorems are about arguments that are positive.
-/

namespace Verif.FullNll

open Verif.BBB

noncomputable section

/-- What `bbstat` holds: the type, the shape (bbstat.py:107-110), β0, kstat and the mask, one entry per bin and
process (`full`) or one per bin (`lite`; the second index then has one value, `P = 1`). -/
structure Beta (N P : ℕ) where
  mode : Mode
  kind : Kind
  k : Fin N → Fin P → ℝ
  beta0 : Fin N → Fin P → ℝ
  masked : Fin N → Fin P → Prop

/-- `lbeta`, `full_nll=False`: the sum over every entry (bbstat.py:381-419) -/
def lbetaReduced {N P : ℕ} (b : Beta N P) (beta : Fin N → Fin P → ℝ) : ℝ :=
  ∑ i, ∑ p, lbeta b.kind (b.masked i p) (b.k i p) (b.beta0 i p) (beta i p)

/-- one entry of the additive type with its constants (bbstat.py:407-417); `shape` is the number that `tf.shape`
contributes to the entry -/
def additiveEntry (shape k beta0 beta : ℝ) : ℝ :=
  1 / 2 * (beta - beta0) ^ 2 + shape * halfLog2PiLit + 1 / 2 * Real.log (1 / k)

/-- `lbeta`, `full_nll=True` (bbstat.py:384-419).  For the additive type `tf.shape(sigma2)` is a vector, which
broadcasts against the last axis.  Shape `(N,)`: the vector is `[N]`, every entry gets `N` times the constant.
Shape `(N, P)`: the vector is `[N, P]`; with two processes the first column gets `N` and the second `2` times the
constant, with one process the result has shape `(N, 2)`, otherwise the shapes do not match and TensorFlow fails. -/
def lbetaFull {N P : ℕ} (b : Beta N P) (beta : Fin N → Fin P → ℝ) : Res ℝ :=
  match b.kind with
  | .gamma => .ok (∑ i, ∑ p, lbetaGammaFull (b.k i p) (b.beta0 i p) (beta i p))
  | .normMult => .error .notImpl
  | .normAdd =>
    match b.mode with
    | .lite => .ok (∑ i, ∑ p, additiveEntry N (b.k i p) (b.beta0 i p) (beta i p))
    | .full =>
      if P = 1 then
        .ok (∑ i, ∑ p, (additiveEntry N (b.k i p) (b.beta0 i p) (beta i p) +
          additiveEntry P (b.k i p) (b.beta0 i p) (beta i p)))
      else if P = 2 then
        .ok (∑ i, ∑ p, additiveEntry (if p.val = 0 then N else P) (b.k i p) (b.beta0 i p) (beta i p))
      else .error .exception

variable {ι κ : Type*} [Fintype ι] [Fintype κ]

/-- the data term, by kind of fit (fitter.py:2046-2074) -/
inductive Data (ι : Type*)
  | poisson (nobs : ι → ℝ)
  | chisq (nobs varnobs : ι → ℝ)
  | covariance (W : Matrix ι ι ℝ) (nobs : ι → ℝ)

/-- `_compute_ln` (fitter.py:2046-2074) -/
def Data.ln (full : Bool) (nexp : ι → ℝ) : Data ι → ℝ
  | .poisson nobs => lnPoisson full nobs nexp
  | .chisq nobs varnobs => lnChisq nobs varnobs nexp
  | .covariance W nobs => lnCov W nobs nexp

/-- One evaluation point: what `_compute_nll_components` and `_compute_external_nll` read that depends on the
parameters.  `penalty`, `ext`: the values of the regularisation and of the external terms, if there are any
(fitter.py:2091-2107); both ignore `full_nll`. -/
structure Point (ι κ : Type*) (N P : ℕ) where
  nexp : ι → ℝ
  x : κ → ℝ
  beta : Fin N → Fin P → ℝ
  penalty : Option ℝ
  ext : Option ℝ

/-- `reduced_nll` (fitter.py:2019-2021); `beta = none`: no bin-by-bin uncertainties (bbstat.py:378-379) -/
def reducedNll {N P : ℕ} (d : Data ι) (cw x0 : κ → ℝ) (bb : Option (Beta N P)) (s : Point ι κ N P) : ℝ :=
  nllTotal (d.ln false s.nexp) (lc false cw x0 s.x) (bb.map fun b => lbetaReduced b s.beta) s.penalty s.ext

/-- `full_nll` (fitter.py:2015-2017) -/
def fullNll {N P : ℕ} (d : Data ι) (cw x0 : κ → ℝ) (bb : Option (Beta N P)) (s : Point ι κ N P) : Res ℝ :=
  match bb with
  | none => .ok (nllTotal (d.ln true s.nexp) (lc true cw x0 s.x) none s.penalty s.ext)
  | some b => match lbetaFull b s.beta with
    | .error e => .error e
    | .ok l => .ok (nllTotal (d.ln true s.nexp) (lc true cw x0 s.x) (some l) s.penalty s.ext)

end

end Verif.FullNll
