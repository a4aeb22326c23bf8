import Verif.Model.Grid
import Verif.Model.Storage
import Mathlib.Algebra.Group.Pi.Basic

/-
Dense tensor operations used by rabbit/mappings: what `tf.reduce_sum`, `tf.transpose`, `tf.gather`, `tf.reshape`,
Python slicing of a tensor and `tfhelpers.segment_sum_along_axis` do.  The TensorFlow operations are trusted to behave
as written here; `segment_sum_along_axis` is rabbit code and is modelled in `Verif.Storage`.
-/

namespace Verif.Grid

variable {V : Type}

/-- `tf.reduce_sum(t)` -/
def Tensor.total [AddMonoid V] (t : Tensor V) : V := t.flat.sum

/-- `t[a:b]` along the first axis for `0 ≤ a`, `0 ≤ b`; bounds are clamped like Python does -/
def Tensor.rows (t : Tensor V) (a b : Nat) : Tensor V where
  shape := match t.shape with
    | [] => []
    | n :: s => (min b n - a) :: s
  val := fun i => match i with
    | [] => t.val []
    | k :: r => t.val ((a + k) :: r)

/-- `tf.reshape(t, shape)`; raises unless the sizes agree -/
def Tensor.reshape [Zero V] (t : Tensor V) (s : List Nat) : Res (Tensor V) := ofFlat s t.flat

/-- `tf.gather(t, indices=idx, axis=-1)`; raises on an index out of range -/
def Tensor.gatherLast (t : Tensor V) (idx : List Nat) : Res (Tensor V) :=
  if idx.any fun k => decide (t.shape.getLastD 0 ≤ k) then .error .value
  else .ok ⟨t.shape.dropLast ++ [idx.length], fun i => t.val (i.dropLast ++ [idx.getD (i.getLastD 0) 0])⟩

/-- the entries of a list at positions not in `axes` -/
def dropAxes {α : Type} (axes : List Nat) (l : List α) : List α :=
  (l.zipIdx.filter fun p => !axes.contains p.2).map (·.1)

/-- `tf.reduce_sum(t, axis=axes)` for a list of non-negative axes; the empty list sums nothing -/
def Tensor.reduceSum [AddMonoid V] (t : Tensor V) (axes : List Nat) : Tensor V where
  shape := dropAxes axes t.shape
  val := fun i => (((grid t.shape).filter fun j => dropAxes axes j == i).map t.val).sum

/-- `tf.transpose(t, perm)`: axis `m` of the result is axis `perm[m]` of `t`; raises unless `perm` is a permutation -/
def Tensor.transpose (t : Tensor V) (perm : List Nat) : Res (Tensor V) :=
  if perm.length = t.shape.length ∧ perm.Nodup ∧ ∀ k ∈ perm, k < t.shape.length then
    .ok ⟨perm.map fun k => t.shape.getD k 0,
      fun i => t.val ((List.range t.shape.length).map fun k => i.getD (perm.idxOf k) 0)⟩
  else .error .value

/-- An entry of a Python index tuple: an integer, or `slice(start, stop, step)`. -/
inductive Pick where
  | int (k : Int)
  | slc (start stop step : Option Int)
deriving DecidableEq, Repr

/-- a slice bound: negative values count from the end, the result is clamped to the axis -/
def bound (n : Nat) (b : Int) : Nat := if b < 0 then (b + n).toNat else min b.toNat n

/-- positions that one entry of the index tuple selects on an axis of size `n`, and whether the axis is kept.
A step must be positive (negative steps are not modelled; the histogram library refuses them before). -/
def Pick.positions (n : Nat) : Pick → Res (Bool × List Nat)
  | .int k =>
    if 0 ≤ k ∧ k < n then .ok (false, [k.toNat])
    else if -(n : Int) ≤ k ∧ k < 0 then .ok (false, [(k + n).toNat])
    else .error .index
  | .slc start stop step =>
    let a := match start with | none => 0 | some s => bound n s
    let b := match stop with | none => n | some s => bound n s
    match step with
    | none => .ok (true, (List.range (b - a)).map fun m => a + m)
    | some st =>
      if st ≤ 0 then .error .value
      else .ok (true, (List.range ((b - a + st.toNat - 1) / st.toNat)).map fun m => a + m * st.toNat)

/-- positions of all entries of the index tuple -/
def allPositions : List Nat → List Pick → Res (List (Bool × List Nat))
  | n :: ns, p :: ps => match p.positions n with
    | .error e => .error e
    | .ok c => match allPositions ns ps with
      | .error e => .error e
      | .ok cs => .ok (c :: cs)
  | _, [] => .ok []
  | [], _ :: _ => .error .value

/-- the entry of the indexed tensor that an output index reads -/
def readIdx : List (Bool × List Nat) → List Nat → List Nat
  | [], i => i
  | (false, js) :: r, i => js.getD 0 0 :: readIdx r i
  | (true, js) :: r, i :: is => js.getD i 0 :: readIdx r is
  | (true, _) :: _, [] => []

/-- shape of the indexed tensor -/
def readShape : List (Bool × List Nat) → List Nat → List Nat
  | [], s => s
  | (false, _) :: r, s => readShape r s.tail
  | (true, js) :: r, s => js.length :: readShape r s.tail

/-- `t[picks]`: remaining axes are taken completely -/
def Tensor.index (t : Tensor V) (picks : List Pick) : Res (Tensor V) :=
  match allPositions t.shape picks with
  | .error e => .error e
  | .ok ps => .ok ⟨readShape ps t.shape, fun i => t.val (readIdx ps i)⟩

/-- `segment_sum_along_axis(t, ids, k, num_segments)` (tfhelpers.py:105-140).  The rows handed to
`tf.math.segment_sum` are the slices of `t` at fixed index on axis `k`. -/
def Tensor.segmentSum [AddMonoid V] (t : Tensor V) (ids : List Int) (k num : Nat) : Res (Tensor V) :=
  let rows : List (List Nat → V) := (List.range (t.shape.getD k 0)).map fun j rest => t.val (rest.insertIdx k j)
  match Storage.segmentSumAlongAxis rows ids num with
  | .error e => .error e
  | .ok r => .ok ⟨t.shape.set k num, fun i => (r.getD (i.getD k 0) 0) (i.eraseIdx k)⟩

/-- an elementwise binary operation of two tensors.  Only equal shapes are modelled; TensorFlow would also broadcast
axes of size one. -/
def Tensor.map2 (f : V → V → V) (t u : Tensor V) : Res (Tensor V) :=
  if t.shape = u.shape then .ok ⟨t.shape, fun i => f (t.val i) (u.val i)⟩ else .error .value

/-- division of a tensor by a number -/
def Tensor.divBy [Div V] (t : Tensor V) (c : V) : Tensor V := ⟨t.shape, fun i => t.val i / c⟩

/-- `tf.concat([t.flat …])` is list concatenation; a rank one tensor from a list -/
def ofList [Zero V] (l : List V) : Tensor V := ⟨[l.length], fun i => l.getD (i.headD 0) 0⟩

end Verif.Grid
