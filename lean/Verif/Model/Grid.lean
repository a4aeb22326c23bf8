import Mathlib.Data.List.Basic
import Mathlib.Algebra.BigOperators.Group.List.Basic
import Verif.Model.Py

/-
Row-major multi-indices and dense tensors: what `np.arange(n).reshape(shape)`, `itertools.product(*ranges)`,
`tf.reshape` and `tf.broadcast_to` do in rabbit/param_models and rabbit/mappings.
The libraries are trusted to behave as written here.
-/

namespace Verif.Grid

/-- `itertools.product(*[range(n) for n in shape])`: all multi-indices, the last index runs fastest -/
def grid : List Nat → List (List Nat)
  | [] => [[]]
  | n :: ns => (List.range n).flatMap fun i => (grid ns).map (i :: ·)

/-- position of a multi-index in a row-major array -/
def ravel : List Nat → List Nat → Nat
  | _ :: ns, i :: is => i * ns.prod + ravel ns is
  | _, _ => 0

/-- A tensor: values at multi-indices inside the shape. -/
structure Tensor (V : Type*) where
  shape : List Nat
  val : List Nat → V

/-- `tf.reshape(t, [-1])` -/
def Tensor.flat {V : Type*} (t : Tensor V) : List V := (grid t.shape).map t.val

/-- `tf.reshape(values, shape)` of a flat tensor; raises unless the sizes agree -/
def ofFlat {V : Type*} [Zero V] (shape : List Nat) (l : List V) : Res (Tensor V) :=
  if l.length = shape.prod then .ok ⟨shape, fun i => l.getD (ravel shape i) 0⟩ else .error .value

/-- broadcasting of a multi-index to a tensor of shape `shape`: axes of size 1 are read at 0 -/
def clampIdx (shape idx : List Nat) : List Nat := List.zipWith (fun n i => if n = 1 then 0 else i) shape idx

/-- `tf.broadcast_to(t, shape)` for equal ranks; raises when an axis has neither size 1 nor the requested size -/
def Tensor.broadcastTo {V : Type*} (t : Tensor V) (shape : List Nat) : Res (Tensor V) :=
  if t.shape.length = shape.length ∧ ∀ p ∈ t.shape.zip shape, p.1 = 1 ∨ p.1 = p.2 then
    .ok ⟨shape, fun i => t.val (clampIdx t.shape i)⟩
  else .error .value

end Verif.Grid
