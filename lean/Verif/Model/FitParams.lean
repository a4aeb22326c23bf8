import Verif.Model.Py
import Mathlib.Analysis.SpecialFunctions.Exp
import Mathlib.Data.Fin.Tuple.Basic

/-
Selection of parameters by name, freezing, blinding and the effective parameter vector,
rabbit/fitter.py:33-59, 555-735.
-/

namespace Verif.FitParams

/-- Python's `re.compile`: `none` when the expression is not valid (`re.error` is raised), otherwise the
predicate "`fullmatch` succeeds".  The regular-expression language itself is not modelled: every theorem
holds for an arbitrary `rx`. -/
abbrev Regex := String → Option (String → Bool)

/-- `[re.compile(expr) for expr in regular_expressions]` (fitter.py:47); `re.error` is `Err.value` -/
def compileAll (rx : Regex) : List String → Res (List (String → Bool))
  | [] => .ok []
  | e :: es => match rx e with
    | none => .error .value
    | some f => match compileAll rx es with
      | .error err => .error err
      | .ok fs => .ok (f :: fs)

/-- the loop of `match_regexp_params` (fitter.py:49-58) with its `matched` and `seen` accumulators -/
def matchLoop (exact : List String) (fs : List (String → Bool)) :
    List String → List String → List String → List String
  | [], matched, _ => matched
  | s :: ns, matched, seen =>
    if exact.contains s || fs.any (fun f => f s) then
      if seen.contains s then matchLoop exact fs ns matched seen
      else matchLoop exact fs ns (matched ++ [s]) (seen ++ [s])
    else matchLoop exact fs ns matched seen

/-- `match_regexp_params` (fitter.py:33-59); names are compared after decoding, so byte strings and
strings are not distinguished. -/
def matchParams (rx : Regex) (exprs names : List String) : Res (List String) :=
  match compileAll rx exprs with
  | .error e => .error e
  | .ok fs => .ok (matchLoop exprs fs names [] [])

/-- Part of the `Fitter` state concerned with freezing (fitter.py:425-432). -/
structure FreezeState where
  parms : List String
  frozenParams : List String
  mask : List Bool
  frozenIndices : List Nat
  floatingIndices : List Nat
  deriving DecidableEq, Repr

/-- `update_frozen_params` (fitter.py:555-561) -/
def updateFrozen (s : FreezeState) : FreezeState :=
  let m := s.parms.map fun p => s.frozenParams.contains p
  { s with
    mask := m
    frozenIndices := (List.range m.length).filter fun i => m.getD i false
    floatingIndices := (List.range m.length).filter fun i => !m.getD i false }

/-- `freeze_params` (fitter.py:563-568): the expressions are resolved before the state is touched -/
def freezeParams (rx : Regex) (exprs : List String) (s : FreezeState) : FreezeState × Res Unit :=
  match matchParams rx exprs s.parms with
  | .error e => (s, .error e)
  | .ok ms => (updateFrozen { s with frozenParams := s.frozenParams ++ ms }, .ok ())

/-- `defreeze_params` (fitter.py:570-578) -/
def defreezeParams (rx : Regex) (exprs : List String) (s : FreezeState) : FreezeState × Res Unit :=
  match matchParams rx exprs s.parms with
  | .error e => (s, .error e)
  | .ok ms => (updateFrozen { s with frozenParams := s.frozenParams.filter fun x => !ms.contains x }, .ok ())

/-- A call that changes the frozen set. -/
inductive FreezeOp where
  | freeze (exprs : List String)
  | defreeze (exprs : List String)
  deriving DecidableEq, Repr

def FreezeOp.run (rx : Regex) (op : FreezeOp) (s : FreezeState) : FreezeState × Res Unit :=
  match op with
  | .freeze e => freezeParams rx e s
  | .defreeze e => defreezeParams rx e s

/-- state before the first call (fitter.py:425-430) -/
def FreezeState.init (parms : List String) : FreezeState :=
  updateFrozen { parms, frozenParams := [], mask := [], frozenIndices := [], floatingIndices := [] }

/-- a history of calls; a call that raises leaves the state as it is -/
def runFreeze (rx : Regex) (s : FreezeState) : List FreezeOp → FreezeState
  | [] => s
  | op :: ops => runFreeze rx (op.run rx s).1 ops

/-! ### blinding offsets -/

noncomputable section

/-- The loop building `param_to_seed` (fitter.py:631-641): first matching group wins. -/
def seedLoop (rx : Regex) (names : List String) : List String → Dict String String → Res (Dict String String)
  | [], d => .ok d
  | expr :: es, d => match matchParams rx [expr] names with
    | .error e => .error e
    | .ok ms => seedLoop rx names es
        (ms.foldl (fun d p => if d.has p then d else d.set p expr) d)

/-- Result of `init_blinding_values`: `_blinding_values_poi`, `_blinding_values_theta`. -/
structure BlindValues (npoi nsyst : ℕ) where
  poi : Fin npoi → ℝ
  theta : Fin nsyst → ℝ

/-- `init_blinding_values` (fitter.py:580-674).  `rand` is `deterministic_random_from_string`
(fitter.py:607-622): a fixed function of the seed string for a given data set. -/
def initBlinding (rx : Regex) (rand : String → ℝ) {npoi nsyst : ℕ} (poiNames : Fin npoi → String)
    (systs : Fin nsyst → String) (noiidxs : List (Fin nsyst)) (unblind groups : List String) :
    Res (BlindValues npoi nsyst) :=
  let names := List.ofFn poiNames ++ noiidxs.map systs
  match matchParams rx unblind names with
  | .error e => .error e
  | .ok un => match seedLoop rx names groups [] with
    | .error e => .error e
    | .ok seeds =>
      if un.any fun p => seeds.has p then .error .runtime
      else .ok
        { theta := fun i =>
            if i ∈ noiidxs ∧ systs i ∉ un then rand ((seeds.get? (systs i)).getD (systs i)) else 0
          poi := fun i =>
            if poiNames i ∉ un then Real.exp (rand ((seeds.get? (poiNames i)).getD (poiNames i))) else 1 }

/-- Sizes and switches of the fit. -/
structure Cfg where
  npoi : ℕ
  npou : ℕ
  nsyst : ℕ
  allowNeg : Bool
  doBlinding : Bool

/-- number of fit parameters -/
abbrev Cfg.n (c : Cfg) : ℕ := c.npoi + c.npou + c.nsyst

/-- values held by the offset variables (fitter.py:262-273) -/
abbrev Cfg.Offsets (c : Cfg) := BlindValues c.npoi c.nsyst

/-- ones for the POIs, zeros for the systematics (fitter.py:684-688) -/
def Cfg.noOffsets (c : Cfg) : c.Offsets := { poi := fun _ => 1, theta := fun _ => 0 }

/-- `set_blinding_offsets` (fitter.py:676-688); without `do_blinding` there are no offset variables and
the call does nothing. -/
def Cfg.setBlinding (c : Cfg) (vals : c.Offsets) (blind : Bool) (current : c.Offsets) : c.Offsets :=
  if !c.doBlinding then current else if blind then vals else c.noOffsets

section tape
variable (c : Cfg)

/-- `tf.where(mask, tf.stop_gradient(v), v)`: for automatic differentiation the entry is the constant
`stop` where the mask is set and the variable elsewhere.  The forward value is obtained for
`stop = y`. -/
def stopAt (mask : Bool) (stop y : ℝ) : ℝ := if mask then stop else y

/-- `get_poi` (fitter.py:718-730); `xs` the point at which gradients are stopped, `y` the variable. -/
def getPoi (mask : Fin c.n → Bool) (off : c.Offsets) (xs y : Fin c.n → ℝ) (i : Fin c.npoi) : ℝ :=
  let j := Fin.castAdd c.nsyst (Fin.castAdd c.npou i)
  let val := fun v : ℝ => if c.allowNeg then v else v ^ 2
  let poi := stopAt (mask j) (val (xs j)) (val (y j))
  if c.doBlinding then poi * off.poi i else poi

/-- `get_model_nui` (fitter.py:703-716) -/
def getNui (mask : Fin c.n → Bool) (xs y : Fin c.n → ℝ) (i : Fin c.npou) : ℝ :=
  let j := Fin.castAdd c.nsyst (Fin.natAdd c.npoi i)
  stopAt (mask j) (xs j) (y j)

/-- `get_theta` (fitter.py:690-701) -/
def getTheta (mask : Fin c.n → Bool) (off : c.Offsets) (xs y : Fin c.n → ℝ) (i : Fin c.nsyst) : ℝ :=
  let j := Fin.natAdd (c.npoi + c.npou) i
  let theta := stopAt (mask j) (xs j) (y j)
  if c.doBlinding then theta + off.theta i else theta

/-- `get_x` (fitter.py:732-735) -/
def getX (mask : Fin c.n → Bool) (off : c.Offsets) (xs y : Fin c.n → ℝ) : Fin c.n → ℝ :=
  Fin.append (Fin.append (getPoi c mask off xs y) (getNui c mask xs y)) (getTheta c mask off xs y)

/-- The terms of `_compute_nll` (fitter.py:2076-2124) as functions of what they read.
`main`: yields, data term, β term (fitter.py:1682-1794, 2046-2074, 437ff of bbstat) read the parameters
through `get_poi`, `get_model_nui`, `get_theta` only; `cw`, `x0`: `_compute_lc`; `penalty`: regularizers,
read `get_x` and the yields; `ext`: external terms, read `self.x` directly (fitter.py:2102-2106). -/
structure Terms where
  main : (Fin c.npoi → ℝ) → (Fin c.npou → ℝ) → (Fin c.nsyst → ℝ) → ℝ
  cw : Fin c.n → ℝ
  x0 : Fin c.n → ℝ
  penalty : (Fin c.n → ℝ) → (Fin c.npoi → ℝ) → (Fin c.npou → ℝ) → (Fin c.nsyst → ℝ) → ℝ
  ext : (Fin c.n → ℝ) → ℝ

/-- `_compute_nll` seen by automatic differentiation with the gradient stopped at `xs`. -/
def nllTape (t : Terms c) (mask : Fin c.n → Bool) (off : c.Offsets) (xs y : Fin c.n → ℝ) : ℝ :=
  let poi := getPoi c mask off xs y
  let nui := getNui c mask xs y
  let theta := getTheta c mask off xs y
  let x := getX c mask off xs y
  t.main poi nui theta + ∑ i, t.cw i * (1 / 2) * (x i - t.x0 i) ^ 2 + t.penalty x poi nui theta + t.ext y

/-- the value of the likelihood at `x` -/
def nllAt (t : Terms c) (mask : Fin c.n → Bool) (off : c.Offsets) (x : Fin c.n → ℝ) : ℝ :=
  nllTape c t mask off x x

end tape

end

end Verif.FitParams
