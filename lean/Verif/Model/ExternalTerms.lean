import Verif.Model.Storage
import Mathlib.Algebra.Field.Basic
import Mathlib.Data.List.Basic

/-
External likelihood terms: registration (rabbit/tensorwriter.py:1316-1448), writing (2174-2240), reading,
resolution against the fit parameters and evaluation (rabbit/external_likelihood.py:34-224).

Numbers are elements of a field (exact arithmetic).  `hist` and `wums.SparseHist` are trusted: `values()` of a
histogram excludes flow bins, `SparseHist._flat_indices` are row-major in the extents (with flow bins) of the
axes.  Dataset names containing '/' (nested HDF5 groups) are not modelled.
-/

namespace Verif.Ext

open Verif.Storage

variable {K : Type} [Field K] [DecidableEq K]

/-- A histogram axis: string categories with the number of bins including flow, or any other axis. -/
inductive Axis where
  | strCat (labels : List String) (extent : Nat)
  | other
  deriving DecidableEq, Repr

/-- `grad` argument: an object without `axes`, or a histogram with its values. -/
inductive GradIn (K : Type) where
  | noAxes
  | hist (axes : List Axis) (values : List K)

/-- `hess` argument: a scipy sparse matrix (has no `axes`), a `SparseHist` (flat index, value), or a dense histogram. -/
inductive HessIn (K : Type) where
  | scipy
  | sparse (axes : List Axis) (entries : List (Nat × K))
  | dense (axes : List Axis) (values : List (List K))

/-- One entry of `self.external_terms` (tensorwriter.py:1440-1448); sparse entries are (row, col, value). -/
structure Term (K : Type) where
  name : String
  params : List String
  grad : Option (List K)
  hessDense : Option (List (List K))
  hessSparse : Option (List (Nat × Nat × K))

/-- `_strcategory_labels` (tensorwriter.py:1316-1328) -/
def labels : Axis → Res (List String)
  | .strCat l _ => .ok l
  | .other => .error .type

/-- gradient part of `add_external_likelihood_term` (tensorwriter.py:1379-1392) -/
def checkGrad : Option (GradIn K) → Res (Option (List String × List K))
  | none => .ok none
  | some .noAxes => .error .value
  | some (.hist axes values) =>
    match axes with
    | [a] => do
      let p ← labels a
      if values.length ≠ p.length then .error .runtime else .ok (some (p, values))
    | _ => .error .value

/-- labels of the two Hessian axes, compared with each other and with the gradient (tensorwriter.py:1398-1419) -/
def checkHessAxes (params : Option (List String)) (axes : List Axis) : Res (List String) :=
  match axes with
  | [a, b] => do
    let p0 ← labels a
    let p1 ← labels b
    if p0 ≠ p1 then .error .value
    else match params with
      | some p => if p ≠ p0 then .error .value else .ok p
      | none => .ok p0
  | _ => .error .value

/-- `add_external_likelihood_term` (tensorwriter.py:1330-1448); the list is extended only when nothing raises.
`np.divmod(flat, n)` with `n = 0` yields zeros in numpy as in Lean. -/
def addTerm (terms : List (Term K)) (grad : Option (GradIn K)) (hess : Option (HessIn K)) (name : Option String) :
    Res (List (Term K)) := do
  if grad.isNone && hess.isNone then throw .value
  let name := name.getD s!"ext{terms.length}"
  if terms.any (fun t => t.name == name) then throw .runtime
  let g ← checkGrad grad
  match hess with
  | none => match g with
    | some (p, v) => pure (terms ++ [⟨name, p, some v, none, none⟩])
    | none => throw .value
  | some .scipy => throw .attr
  | some (.sparse axes entries) => do
    let p ← checkHessAxes (g.map (·.1)) axes
    pure (terms ++ [⟨name, p, g.map (·.2), none, some (entries.map fun e => (e.1 / p.length, e.1 % p.length, e.2))⟩])
  | some (.dense axes values) => do
    let p ← checkHessAxes (g.map (·.1)) axes
    if values.length ≠ p.length ∨ ∃ r ∈ values, r.length ≠ p.length then throw .runtime
    pure (terms ++ [⟨name, p, g.map (·.2), some values, none⟩])

/-- The stored subgroup of a term. -/
structure TermGroup (K : Type) where
  name : String
  params : List String
  grad : Option (Dset K)
  hessDense : Option (Dset K)
  hessSparse : Option (SparseGroup K)

/-- `already_sorted` (tensorwriter.py:2211-2219) -/
def alreadySorted : List (Nat × Nat × K) → Bool
  | e :: e' :: es => (e.1 < e'.1 || (e.1 == e'.1 && e.2.1 ≤ e'.2.1)) && alreadySorted (e' :: es)
  | _ => true

/-- row-major sorting of the sparse entries (tensorwriter.py:2211-2229).  `np.argsort` is not stable; entries with
equal index may come in either order, which the model fixes to the stable one. `ravel_multi_index` raises for
indices outside `(n, n)`. -/
def sortEntries (n : Nat) (es : List (Nat × Nat × K)) : Res (List (Nat × Nat × K)) :=
  if alreadySorted es then .ok es
  else if es.any (fun e => decide (n ≤ e.1 ∨ n ≤ e.2.1)) then .error .value
  else .ok (pySort (fun a b => decide (a.1 * n + a.2.1 ≤ b.1 * n + b.2.1)) es)

/-- writing of one term (tensorwriter.py:2179-2240); `chunk` is `self.chunkSize`, 8-byte elements -/
def writeTerm (chunk : Nat) (t : Term K) : Res (TermGroup K) := do
  let n := t.params.length
  let z : K → Bool := fun a => decide (a = 0)
  let grad := t.grad.map fun g => writeFlatInChunks z 0 8 chunk ⟨[g.length], g⟩
  match t.hessDense, t.hessSparse with
  | some h, _ =>
    pure ⟨t.name, t.params, grad, some (writeFlatInChunks z 0 8 chunk ⟨[n, n], h.flatten⟩), none⟩
  | none, some es => do
    let es ← sortEntries n es
    pure ⟨t.name, t.params, grad, none,
      some (writeSparse z 0 8 8 chunk ⟨es.map fun e => [e.1, e.2.1], es.map (·.2.2), [n, n]⟩)⟩
  | none, none => pure ⟨t.name, t.params, grad, none, none⟩

/-- reading of one term (external_likelihood.py:56-87) -/
def readTerm (g : TermGroup K) : Term K :=
  { name := g.name
    params := g.params
    grad := g.grad.map fun d => (maketensor d).data
    hessDense := g.hessDense.map fun d =>
      let t := maketensor d
      rows (t.shape.getD 1 0) (t.shape.getD 0 0) t.data
    hessSparse := g.hessSparse.map fun d =>
      let t := makesparsetensor d
      (t.indices.zip t.values).map fun e => (e.1.getD 0 0, e.1.getD 1 0, e.2) }

/-- `parms_idx = {name: i for i, name in enumerate(parms_str)}` (external_likelihood.py:116) -/
def parmsIdx (parms : List String) : Dict String Nat :=
  parms.zipIdx.foldl (fun d p => d.set p.1 p.2) []

/-- resolved term: indices into the parameter vector instead of names -/
structure Built (K : Type) where
  indices : List Nat
  grad : Option (List K)
  hessDense : Option (List (List K))
  hessCsr : Option (List (Nat × Nat × K))

/-- resolution of one name (external_likelihood.py:128-134) -/
def resolve (idx : Dict String Nat) (p : String) : Res Nat :=
  match idx.get? p with
  | some j => .ok j
  | none => .error .runtime

/-- resolution of one term (external_likelihood.py:124-173); the dense Hessian wins -/
def buildTerm (idx : Dict String Nat) (t : Term K) : Res (Built K) := do
  let indices ← t.params.mapM (resolve idx)
  pure ⟨indices, t.grad, t.hessDense, if t.hessDense.isSome then none else t.hessSparse⟩

/-- `build_tf_external_terms` (external_likelihood.py:91-174) -/
def build (terms : List (Term K)) (parms : List String) : Res (List (Built K)) := do
  let idx := parmsIdx parms
  if idx.length ≠ parms.length then throw .runtime
  terms.mapM (buildTerm idx)

/-- `reduce_sum(a * b)` -/
def dot (a b : List K) : K := (List.zipWith (· * ·) a b).sum

/-- CSR matrix times vector -/
def csrMatvec (n : Nat) (es : List (Nat × Nat × K)) (x : List K) : List K :=
  (List.range n).map fun r => ((es.filter fun e => e.1 == r).map fun e => e.2.2 * x.getD e.2.1 0).sum

/-- contribution of one resolved term (external_likelihood.py:206-223) -/
def termValue (x : List K) (t : Built K) : K :=
  let xsub := t.indices.map fun i => x.getD i 0
  let g := match t.grad with
    | some g => dot g xsub
    | none => 0
  let h := match t.hessDense, t.hessCsr with
    | some h, _ => (1 / 2) * dot xsub (h.map fun r => dot r xsub)
    | none, some es => (1 / 2) * dot xsub (csrMatvec xsub.length es xsub)
    | none, none => 0
  g + h

/-- `compute_external_nll` (external_likelihood.py:177-224) -/
def computeExternal (terms : List (Built K)) (x : List K) : Option K :=
  if terms.isEmpty then none else some (terms.foldl (fun acc t => acc + termValue x t) 0)

/-- One user call. -/
structure Call (K : Type) where
  grad : Option (GradIn K)
  hess : Option (HessIn K)
  name : Option String

/-- registering a list of terms -/
def addAll (calls : List (Call K)) : Res (List (Term K)) :=
  calls.foldlM (fun ts c => addTerm ts c.grad c.hess c.name) []

/-- The whole path of the terms from the user's calls to the value added to the likelihood.  HDF5 returns the
subgroups in its own order, `order`. -/
def pipeline (order : List (TermGroup K) → List (TermGroup K)) (chunk : Nat) (calls : List (Call K))
    (parms : List String) (x : List K) : Res (Option K) := do
  let terms ← addAll calls
  let stored ← terms.mapM (writeTerm chunk)
  let built ← build ((order stored).map readTerm) parms
  pure (computeExternal built x)

end Verif.Ext
