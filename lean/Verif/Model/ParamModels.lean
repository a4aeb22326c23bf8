import Verif.Model.Py
import Mathlib.Algebra.BigOperators.Group.List.Basic
import Mathlib.Algebra.Field.Basic

/-
Parameter models (rabbit/param_models/param_model.py): signal strengths, mixtures, and the composite of several
models.  Numbers are elements of a field (exact arithmetic).
-/

namespace Verif.ParamModels

/-- `Mu.compute` (param_model.py:266-276): the parameters followed by ones; `tf.ones` with a negative size raises.
The result has one row that is broadcast over the bins. -/
def muCompute {V : Type} [One V] (nproc : Nat) (param : List V) : Res (List V) :=
  if nproc < param.length then .error .value
  else .ok (param ++ List.replicate (nproc - param.length) 1)

/-- `Ones.compute` (param_model.py:241-244) -/
def onesCompute {V : Type} [One V] (nproc : Nat) : List V := List.replicate nproc 1

variable {V : Type}

/-- A two-dimensional tensor of rate factors; both dimensions may be 1 and are then broadcast. -/
structure Rates (V : Type) where
  rows : Nat
  cols : Nat
  val : Nat → Nat → V

/-- entry read for bin `b` and process `p` after broadcasting -/
def Rates.at (r : Rates V) (b p : Nat) : V := r.val (if r.rows = 1 then 0 else b) (if r.cols = 1 then 0 else p)

/-- size of a broadcast dimension; different sizes other than 1 raise -/
def bdim (a b : Nat) : Res Nat :=
  if a = b then .ok a else if a = 1 then .ok b else if b = 1 then .ok a else .error .value

/-- `a * b` of two tensors -/
def Rates.mul [Mul V] (a b : Rates V) : Res (Rates V) :=
  match bdim a.rows b.rows, bdim a.cols b.cols with
  | .ok r, .ok c => .ok ⟨r, c, fun i p => a.at i p * b.at i p⟩
  | _, _ => .error .value

/-- The attributes of a parameter model (param_model.py:8-50).  `priorSigmas` holds `none` for NaN entries. -/
structure PModel (V : Type) where
  npoi : Nat
  npou : Nat
  params : List String
  xdef : List V
  allowNeg : Bool
  isLinear : Bool
  priorSigmas : Option (List (Option V)) := none
  priorMeans : Option (List V) := none
  groups : Dict String (List String) := []
  compute : List V → Bool → Res (Rates V)

/-- `Ones` (param_model.py:227-244): no parameters, one row of ones -/
def onesModel [One V] (nproc : Nat) : PModel V where
  npoi := 0
  npou := 0
  params := []
  xdef := []
  allowNeg := false
  isLinear := true
  compute := fun _ _ => .ok ⟨1, nproc, fun _ p => (onesCompute nproc).getD p 1⟩

/-- `nparams` (param_model.py:35-38) -/
def PModel.nparams (m : PModel V) : Nat := m.npoi + m.npou

/-- `set_param_default` (param_model.py:52-83); `sqrt` is `tf.sqrt`, `value` the parsed numbers.  Updates of the
same entry are applied in the order of the options. -/
def setParamDefault [One V] (sqrt : V → V) (params : List String) (npoi : Nat) (allowNeg : Bool) (expect : List (String × V)) :
    Res (List V) :=
  if expect.any fun e => !params.contains e.1 then .error .value
  else
    let d := expect.foldl (fun d e => d.set (params.idxOf e.1) e.2) (List.replicate params.length 1)
    .ok ((if allowNeg then d.take npoi else (d.take npoi).map sqrt) ++ d.drop npoi)

/-- per-block concatenation of `CompositeParamModel` (param_model.py:122-131): the first `npoi` entries of every
submodel, then the remaining entries of every submodel -/
def blocks {α : Type} (ms : List (PModel V)) (f : PModel V → List α) : List α :=
  (ms.map fun m => (f m).take m.npoi).flatten ++ (ms.map fun m => (f m).drop m.npoi).flatten

/-- `poi_flags` (param_model.py:133): the set of flags of the submodels with POIs -/
def poiFlags (ms : List (PModel V)) : List Bool :=
  (ms.filter fun m => m.npoi > 0).foldl (fun s m => setAdd s m.allowNeg) []

/-- `allowNegativeParam` of the composite (param_model.py:133-151) -/
def compositeAllowNeg (ms : List (PModel V)) (explicit : Option Bool) : Res Bool :=
  if (poiFlags ms).length > 1 then .error .value
  else
    let derived := (poiFlags ms).head?
    match explicit with
    | none => .ok (derived.getD false)
    | some e => if derived ≠ none ∧ derived ≠ some e then .error .value else .ok e

/-- sigmas of a submodel without declaration: NaN (param_model.py:170-175) -/
def subSigmas (m : PModel V) : List (Option V) := m.priorSigmas.getD (List.replicate m.nparams none)

/-- means of a submodel without declaration: its default values (param_model.py:176-181) -/
def subMeans (m : PModel V) : List V := m.priorMeans.getD m.xdef

/-- `groups.setdefault(k, []).extend(v)` over all submodels (param_model.py:193-200) -/
def mergeGroups (ms : List (PModel V)) : Dict String (List String) :=
  ms.foldl (fun g m => m.groups.foldl (fun g kv => g.set kv.1 ((g.get? kv.1).getD [] ++ kv.2)) g) []

/-- `param[a:b]` -/
def slice {α : Type} (l : List α) (a b : Nat) : List α := (l.drop a).take (b - a)

/-- the loop of `CompositeParamModel.compute` (param_model.py:202-220) -/
def computeParts (param : List V) (full : Bool) : Nat → Nat → List (PModel V) → Res (List (Rates V))
  | _, _, [] => .ok []
  | poi, pou, m :: ms =>
    let mparam := (if m.npoi > 0 then slice param poi (poi + m.npoi) else []) ++
      (if m.npou > 0 then slice param pou (pou + m.npou) else [])
    match m.compute mparam full with
    | .error e => .error e
    | .ok r => match computeParts param full (poi + m.npoi) (pou + m.npou) ms with
      | .error e => .error e
      | .ok rs => .ok (r :: rs)

/-- `functools.reduce(lambda a, b: a * b, results)` (param_model.py:222); raises TypeError for an empty list -/
def reduceMul [Mul V] : List (Rates V) → Res (Rates V)
  | [] => .error .type
  | r :: rs => rs.foldlM (fun a b => a.mul b) r

/-- `CompositeParamModel` (param_model.py:86-223) -/
def composite [Mul V] (ms : List (PModel V)) (explicit : Option Bool) : Res (PModel V) :=
  match compositeAllowNeg ms explicit with
  | .error e => .error e
  | .ok neg =>
    let npoi := (ms.map (·.npoi)).sum
    let npou := (ms.map (·.npou)).sum
    let declared := ms.any fun m => m.priorSigmas.isSome
    let active := ms.filter fun m => m.nparams > 0
    .ok
      { npoi := npoi
        npou := npou
        params := blocks ms (·.params)
        xdef := blocks ms (·.xdef)
        allowNeg := neg
        isLinear := npoi + npou == 0 || (neg && decide (active.length ≤ 1) && active.all (·.isLinear))
        priorSigmas := if declared then some (blocks ms subSigmas) else none
        priorMeans := if declared then some (blocks ms subMeans) else none
        groups := mergeGroups ms
        compute := fun param full => match computeParts param full 0 npoi ms with
          | .error e => .error e
          | .ok rs => reduceMul rs }

/-! ### Mixture -/

/-- `np.where(np.isin(procs, names))[0]` -/
def whereIsin (procs names : List String) : List Nat :=
  (List.range procs.length).filter fun i => names.contains (procs.getD i "")

/-- The constructed `Mixture` model: indices of primary and complementary processes and parameter names
(param_model.py:286-343).  The names are given as strings (the byte encoding is not modelled). -/
structure Mixture where
  primary : List Nat
  complementary : List Nat
  npoi : Nat
  params : List String

/-- `Mixture.__init__` (param_model.py:286-343) -/
def mixture (procs prim comp : List String) : Res Mixture :=
  if prim.length ≠ comp.length then .error .value
  else if prim.any fun n => !procs.contains n then .error .value
  else if comp.any fun n => !procs.contains n then .error .value
  else .ok
    { primary := whereIsin procs prim
      complementary := whereIsin procs comp
      npoi := prim.length
      params := List.zipWith (fun p c => p ++ "_" ++ c ++ "_mixing") prim comp }

/-- `tf.tensor_scatter_nd_update` of a vector: one update per index, in order (TensorFlow leaves the order of updates
of the same entry open); raises on different lengths or an index out of range -/
def scatter1 (base : List V) (idxs : List Nat) (upd : List V) : Res (List V) :=
  if idxs.length ≠ upd.length then .error .value
  else if idxs.any fun i => decide (base.length ≤ i) then .error .value
  else .ok ((idxs.zip upd).foldl (fun l e => l.set e.1 e.2) base)

/-- one update of a scatter into a matrix -/
def scatterStep (f : Nat → Nat → V) (e : (Nat × Nat) × V) : Nat → Nat → V :=
  fun b p => if b = e.1.1 ∧ p = e.1.2 then e.2 else f b p

/-- `tf.tensor_scatter_nd_update(tf.ones([rows, cols]), idxs, upd)` (abcd_model.py:317-321): raises on different lengths
or an index out of range (the behaviour on CPU; on GPU such updates are dropped) -/
def scatter2 [One V] (rows cols : Nat) (idxs : List (Nat × Nat)) (upd : List V) : Res (Rates V) :=
  if idxs.length ≠ upd.length then .error .value
  else if idxs.any fun i => decide (rows ≤ i.1) || decide (cols ≤ i.2) then .error .value
  else .ok ⟨rows, cols, (idxs.zip upd).foldl scatterStep fun _ _ => 1⟩

/-- `Mixture.compute` (param_model.py:361-374); `ones * param` broadcasts and raises unless `param` has `npoi` (or one)
entries -/
def mixtureCompute [One V] [Sub V] (nproc : Nat) (m : Mixture) (param : List V) : Res (List V) :=
  if param.length = m.npoi then
    scatter1 (List.replicate nproc 1) (m.primary ++ m.complementary) (param ++ param.map fun x => 1 - x)
  else if param.length = 1 then
    let p := List.replicate m.npoi (param.headD 1)
    scatter1 (List.replicate nproc 1) (m.primary ++ m.complementary) (p ++ p.map fun x => 1 - x)
  else .error .value

end Verif.ParamModels
