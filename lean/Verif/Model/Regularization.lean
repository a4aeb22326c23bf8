import Verif.Model.Workspace
import Mathlib.Algebra.Field.Defs

/-
Curvature regularisation (rabbit/regularization/svd.py) and its part in the likelihood (rabbit/fitter.py:2091-2098).
The mapping is a parameter.  Exact arithmetic.
-/

namespace Verif.Regularization

open Verif.Grid Verif.Workspace

variable {V : Type}

/-- `SVD` (svd.py:6-55) -/
structure Svd (V : Type) where
  mapping : Mp V
  shape : List Nat

/-- `SVD.__init__` (svd.py:11-55) -/
def svdInit (m : Mp V) : Res (Svd V) :=
  if m.info.length > 1 then .error .notImpl
  else
    let shape := m.info.flatMap fun kc => kc.2.axes.map fun a => if kc.2.flow then a.extent else a.size
    if shape.length = 1 ∨ shape.length = 2 ∨ shape.length = 3 then .ok ⟨m, shape⟩ else .error .notImpl

/-- the convolution kernels (svd.py:28-51) at an offset -/
def kernel [Ring V] : List Nat → V
  | [a] => ([1, -2, 1] : List V).getD a 0
  | [a, b] => (([[0, 1, 0], [1, -4, 1], [0, 1, 0]] : List (List V)).getD a []).getD b 0
  | [a, b, c] =>
    (Dict.get? (List.zip [[1, 1, 1], [0, 1, 1], [2, 1, 1], [1, 0, 1], [1, 2, 1], [1, 1, 0], [1, 1, 2]]
      ([-6, 1, 1, 1, 1, 1, 1] : List V)) [a, b, c]).getD 0
  | _ => 0

/-- where an entry of the padded tensor comes from: one copied bin on either side (svd.py:81-83, padding `SYMMETRIC`) -/
def source (n x : Nat) : Nat := if x = 0 then 0 else min (x - 1) (n - 1)

/-- `tf.nn.conv*d` of the padded tensor (svd.py:85-96), entry `i` -/
def curvature [Ring V] (t : Tensor V) (i : List Nat) : V :=
  ((grid (List.replicate t.shape.length 3)).map fun o =>
    kernel o * t.val (List.zipWith source t.shape (List.zipWith (· + ·) i o))).sum

/-- `set_expectations` (svd.py:56-59) -/
def Svd.expectations [Zero V] (s : Svd V) (obs : Tensor V) : Res (Tensor V) :=
  match s.mapping.flat obs with
  | .error e => .error e
  | .ok l => ofFlat s.shape l

/-- the ratio to the expectation; one where nothing is expected (svd.py:62-69) -/
def ratioTo [Div V] [Zero V] [One V] [DecidableEq V] (nexp0 nexp : Tensor V) : Tensor V :=
  ⟨nexp.shape, fun i => if nexp0.val i ≠ 0 then nexp.val i / nexp0.val i else 1⟩

/-- `compute_nll_penalty` (svd.py:61-100); padding refuses an axis without bins -/
def Svd.penalty [Field V] [DecidableEq V] (s : Svd V) (nexp0 : Tensor V) (obs : Tensor V) : Res V :=
  match s.mapping.flat obs with
  | .error e => .error e
  | .ok l => match ofFlat s.shape l with
    | .error e => .error e
    | .ok nexp =>
      if 0 ∈ s.shape then .error .value
      else .ok ((grid s.shape).map fun i => curvature (ratioTo nexp0 nexp) i * curvature (ratioTo nexp0 nexp) i).sum

/-- the part of the likelihood (fitter.py:2091-2096); `w` is `exp(2 tau)` -/
def penaltyTerm [Ring V] (w : V) (penalties : List V) : Option V :=
  if penalties = [] then none else some (penalties.map (· * w)).sum

end Verif.Regularization
