import Verif.Model.Logk
import Verif.Model.Interp
import Mathlib.Algebra.BigOperators.Group.Finset.Basic
import Mathlib.Analysis.SpecialFunctions.Log.Basic
import Mathlib.Analysis.Real.Sqrt

/-
Expected yields before bin-by-bin variations: `_init_logk_scaled` and `_compute_yields_noBBB`
(rabbit/fitter.py:1631-1794), for dense and sparse tensors.

Tensors are functions of natural-number indices together with their sizes; sparse tensors are lists of index/value
entries as stored (rabbit/inputdata.py:82-100).  The rate factor `rnorm` of the parameter model is a tensor whose
first dimension is either 1 (broadcast) or the number of bins.
-/

namespace Verif.Yields

noncomputable section

open Finset

/-- Sizes and flags of the input tensor (inputdata.py:73-110). -/
structure Shape where
  nbins : Nat
  nbinsfull : Nat
  nproc : Nat
  nsyst : Nat
  symmetric : Bool
  /-- `systematic_type == "log_normal"`; anything else is treated as "normal" in the sparse branch -/
  logNormal : Bool

/-- Rate factors with their first dimension. -/
structure Rates where
  rows : Nat
  val : Nat → Nat → ℝ

/-- numpy/tensorflow broadcasting of the first axis: row `b` of a tensor with 1 or `n` rows -/
def Rates.at (r : Rates) (b p : Nat) : ℝ := if r.rows = 1 then r.val 0 p else r.val b p

/-- Stored parameter-space columns: `nsyst`, or `2 * nsyst` for asymmetric tensors. -/
def Shape.ncol (s : Shape) : Nat := if s.symmetric then s.nsyst else 2 * s.nsyst

/-- `mthetaalpha` (fitter.py:1700-1718) -/
def mtheta (s : Shape) (θ : Nat → ℝ) (c : Nat) : ℝ :=
  if s.symmetric then θ c
  else if c / s.nsyst = 0 then θ (c % s.nsyst)
  else θ (c % s.nsyst) * Interp.alpha (θ (c % s.nsyst))

/-- Dense input: `norm[b, p]`, `logk[b, p, s]` or `logk[b, p, k, s]` (`k = 0` average, `k = 1` half difference). -/
structure Dense where
  norm : Nat → Nat → ℝ
  logk : Nat → Nat → Nat → Nat → ℝ

/-- `mlogk`: the reshape to `[nbins * nproc, ncol]` (fitter.py:1770-1778) -/
def Dense.mlogk (s : Shape) (d : Dense) (b p c : Nat) : ℝ :=
  if s.symmetric then d.logk b p 0 c else d.logk b p (c / s.nsyst) (c % s.nsyst)

/-- `logsnorm = mlogk @ mthetaalpha` (fitter.py:1780-1781) -/
def Dense.logsnorm (s : Shape) (d : Dense) (θ : Nat → ℝ) (b p : Nat) : ℝ :=
  ∑ c ∈ range s.ncol, d.mlogk s b p c * mtheta s θ c

/-- `normcentral` of the dense branch (fitter.py:1783-1788) -/
def Dense.yield (s : Shape) (d : Dense) (r : Rates) (θ : Nat → ℝ) (b p : Nat) : ℝ :=
  if s.logNormal then r.at b p * (Real.exp (d.logsnorm s θ b p) * d.norm b p)
  else d.norm b p * r.at b p + d.logsnorm s θ b p

/-- number of rows of the result: `full` or no masked bins, else the fitted bins (fitter.py:1754-1762) -/
def Shape.rowsOut (s : Shape) (full : Bool) : Nat := if full || s.nbinsfull = s.nbins then s.nbinsfull else s.nbins

/-- yields as returned: per bin and process, and summed over processes (fitter.py:1751-1794); rates that do not
broadcast against the sliced tensor raise -/
def Dense.compute (s : Shape) (d : Dense) (full : Bool) (r : Rates) (θ : Nat → ℝ) :
    Res ((Nat → ℝ) × (Nat → Nat → ℝ)) :=
  if r.rows = 1 ∨ r.rows = s.rowsOut full then
    .ok (fun b => ∑ p ∈ range s.nproc, d.yield s r θ b p, d.yield s r θ)
  else .error .value

/-- Sparse input: entries (bin, process, value) of `norm` and (norm position, column, value) of `logk`. -/
structure Sparse where
  norm : List (Nat × Nat × ℝ)
  logk : List (Nat × Nat × ℝ)

/-- `logsnorm = logk_csr @ mthetaalpha` (fitter.py:1728-1731) -/
def Sparse.logsnorm (s : Shape) (t : Sparse) (θ : Nat → ℝ) (pos : Nat) : ℝ :=
  ((t.logk.filter fun e => e.1 == pos).map fun e => e.2.2 * mtheta s θ e.2.1).sum

/-- values of `snormnorm_sparse` (fitter.py:1737-1747) -/
def Sparse.values (s : Shape) (t : Sparse) (r : Rates) (θ : Nat → ℝ) : List (Nat × Nat × ℝ) :=
  t.norm.zipIdx.map fun (e, i) =>
    (e.1, e.2.1,
      if s.logNormal then Real.exp (t.logsnorm s θ i) * e.2.2 * r.at e.1 e.2.1
      else e.2.2 * r.at e.1 e.2.1 + t.logsnorm s θ i)

/-- the sparse branch (fitter.py:1720-1775): multiplication with rates that do not broadcast against the full tensor
raises; slicing to the fitted bins; `unsorted_segment_sum` over bins; `tf.sparse.to_dense` (indices unique) -/
def Sparse.compute (s : Shape) (t : Sparse) (full : Bool) (r : Rates) (θ : Nat → ℝ) :
    Res ((Nat → ℝ) × (Nat → Nat → ℝ)) :=
  if r.rows = 1 ∨ r.rows = s.nbinsfull then
    let v := t.values s r θ
    let v := if !full && s.nbinsfull ≠ s.nbins then v.filter fun e => e.1 < s.nbins else v
    .ok (fun b => ((v.filter fun e => e.1 == b).map (·.2.2)).sum,
      fun b p => ((v.filter fun e => e.1 == b && e.2.1 == p).map (·.2.2)).sum)
  else .error .value

/-- `_init_logk_scaled`, dense (fitter.py:1676-1680): `rinit` is the rate factor at the default parameters, `nparams`
the number of model parameters -/
def Dense.scaled (s : Shape) (nparams : Nat) (rinit : Rates) (d : Dense) : Dense :=
  if s.logNormal ∨ nparams = 0 then d
  else { d with logk := fun b p k c => d.logk b p k c * rinit.at b p }

/-- `_init_logk_scaled`, sparse (fitter.py:1658-1671): two-level gather through the norm indices -/
def Sparse.scaled (s : Shape) (nparams : Nat) (rinit : Rates) (t : Sparse) : Sparse :=
  if s.logNormal ∨ nparams = 0 then t
  else { t with logk := t.logk.map fun e =>
    (e.1, e.2.1, e.2.2 * match t.norm[e.1]? with
      | some n => rinit.at n.1 n.2.1
      | none => 0) }

/-- The real constants of the writer. -/
def num : Logk.Num ℝ := ⟨Real.log, Real.log 0.001, √3⟩

end

end Verif.Yields
