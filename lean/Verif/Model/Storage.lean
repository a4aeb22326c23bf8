import Verif.Model.Py
import Mathlib.Algebra.BigOperators.Group.List.Basic

/-
Chunked storage of flat arrays (rabbit/h5pyutils_write.py:30-79, rabbit/h5pyutils_read.py:5-36) and the
sparse / segment helpers of rabbit/tfhelpers.py:8-29, 105-140.

The HDF5 library is trusted: a dataset is an array filled with zeros on which slices can be assigned, and
attributes are returned as stored.  Compression is not modelled.
-/

namespace Verif.Storage

variable {α : Type _}

/-- An array: shape and row-major data. -/
structure Arr (α : Type _) where
  shape : List Nat
  data : List α
  deriving DecidableEq, Repr

/-- A stored dataset: flat data and the `original_shape` attribute. -/
structure Dset (α : Type _) where
  flat : List α
  originalShape : List Nat

/-- `int(min(arrflat.size, max(1, math.floor(maxChunkBytes / esize))))`, 1 for an empty array
(h5pyutils_write.py:37-42) -/
def chunkSize (size esize maxChunkBytes : Nat) : Nat :=
  if size = 0 then 1 else min size (max 1 (maxChunkBytes / esize))

/-- `h5dset[i : i + aout.size] = aout` -/
def assignSlice (dset : List α) (i : Nat) (aout : List α) : List α :=
  dset.take i ++ aout ++ dset.drop (i + aout.length)

/-- The writing loop (h5pyutils_write.py:53-57) over the given offsets: chunks without a nonzero element are
skipped (`isZero` is "equal to zero", for which `np.count_nonzero` does not count an element). -/
def writeLoop (isZero : α → Bool) (arr : List α) (chunk : Nat) : List Nat → List α → List α
  | [], dset => dset
  | i :: is, dset =>
    let aout := (arr.drop i).take chunk
    writeLoop isZero arr chunk is (if aout.any (fun a => !isZero a) then assignSlice dset i aout else dset)

/-- `range(0, size, chunk)` -/
def offsets (size chunk : Nat) : List Nat := (List.range ((size + chunk - 1) / chunk)).map (· * chunk)

/-- `writeFlatInChunks` (h5pyutils_write.py:30-61); a new dataset is filled with zeros -/
def writeFlatInChunks (isZero : α → Bool) (zero : α) (esize maxChunkBytes : Nat) (a : Arr α) : Dset α :=
  let chunk := chunkSize a.data.length esize maxChunkBytes
  { flat := writeLoop isZero a.data chunk (offsets a.data.length chunk) (List.replicate a.data.length zero)
    originalShape := a.shape }

/-- `maketensor` (h5pyutils_read.py:5-28): zeros of the original shape for an empty dataset, otherwise the data -/
def maketensor (d : Dset α) : Arr α :=
  if d.flat.length = 0 then { shape := d.originalShape, data := [] } else { shape := d.originalShape, data := d.flat }

/-- A sparse tensor: `(nnz, rank)` index array, values, dense shape. -/
structure SparseT (α : Type _) where
  indices : List (List Nat)
  values : List α
  denseShape : List Nat
  deriving DecidableEq, Repr

/-- stored group of a sparse tensor -/
structure SparseGroup (α : Type _) where
  indices : Dset Nat
  values : Dset α
  denseShape : List Nat

/-- `writeSparse` (h5pyutils_write.py:64-79); index arrays have 8-byte entries -/
def writeSparse (isZero : α → Bool) (zero : α) (isize esize maxChunkBytes : Nat) (t : SparseT α) : SparseGroup α :=
  { indices := writeFlatInChunks (fun n : Nat => n == 0) 0 isize maxChunkBytes
      { shape := [t.indices.length, t.denseShape.length], data := t.indices.flatten }
    values := writeFlatInChunks isZero zero esize maxChunkBytes { shape := [t.values.length], data := t.values }
    denseShape := t.denseShape }

/-- cut a flat list into `n` rows of length `k` (row-major view of an `(n, k)` array) -/
def rows (k : Nat) : Nat → List α → List (List α)
  | 0, _ => []
  | n + 1, l => l.take k :: rows k n (l.drop k)

/-- `makesparsetensor` (h5pyutils_read.py:31-36) -/
def makesparsetensor (g : SparseGroup α) : SparseT α :=
  let ind := maketensor g.indices
  { indices := rows (ind.shape.getD 1 0) (ind.shape.getD 0 0) ind.data
    values := (maketensor g.values).data
    denseShape := g.denseShape }

/-- `simple_sparse_slice0end` (tfhelpers.py:8-29) -/
def sparseSlice (t : SparseT α) (stop : Nat) : SparseT α :=
  let mask := t.indices.map fun ix => decide (ix.getD 0 0 < stop)
  { indices := ((t.indices.zip mask).filter (·.2)).map (·.1)
    values := ((t.values.zip mask).filter (·.2)).map (·.1)
    denseShape := stop :: t.denseShape.drop 1 }

/-- `tf.cumsum` of 0/1 values -/
def cumsumAux : Nat → List Bool → List Nat
  | _, [] => []
  | acc, b :: bs => let acc := acc + (if b then 1 else 0); acc :: cumsumAux acc bs

/-- number of positions where `cumsum(ids == -1) == range(1, n + 1)` (tfhelpers.py:112-118) -/
def nLeading (ids : List Int) : Nat :=
  (((cumsumAux 0 (ids.map (· == -1))).zip (List.range ids.length)).filter fun p => p.1 == p.2 + 1).length

/-- `tf.math.segment_sum` for valid ids (trusted): entry `k` is the sum of the rows with id `k`, the size is the
last id plus one; unsorted or negative ids are an error. -/
def segmentSum [AddMonoid α] (x : List α) (ids : List Int) : Res (List α) :=
  if ids.any (· < 0) ∨ ¬ ids.IsChain (· ≤ ·) then .error .value
  else
    let size := match ids.getLast? with
      | some i => i.toNat + 1
      | none => 0
    .ok ((List.range size).map fun k : Nat => (((x.zip ids).filter fun p => p.2 == (k : Int)).map (·.1)).sum)

/-- `segment_sum_along_axis` (tfhelpers.py:105-140) along the first axis; the transpositions only move the axis
to the front and back, so a row `α` is the whole remaining tensor.  `set_shape` fails unless the number of
segments is the expected one. -/
def segmentSumAlongAxis [AddMonoid α] (x : List α) (ids : List Int) (numSegments : Nat) : Res (List α) :=
  let nleading := nLeading ids
  let ntrailing := nLeading ids.reverse
  let x' := (x.take (x.length - ntrailing)).drop nleading
  let ids' := (ids.take (ids.length - ntrailing)).drop nleading
  match segmentSum x' ids' with
  | .error e => .error e
  | .ok r => if r.length = numSegments then .ok r else .error .value

end Verif.Storage
