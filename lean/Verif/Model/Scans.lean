import Verif.Model.FitParams
import Mathlib.Algebra.Field.Basic
import Mathlib.Algebra.Order.Group.Unbundled.Basic
import Mathlib.Logic.Function.Basic
import Mathlib.Analysis.Real.Sqrt

/-
The iterative fit with its callback (rabbit/fitter.py:62-101, 2236-2314), the likelihood scans (2383-2502), the contour
scan (2504-2690), asymmetric impacts (rabbit/impacts/asym_impacts.py, global_asym_impacts.py) and non-profiled impacts
(rabbit/impacts/nonprofiled_impacts.py).

Parameter vectors are functions of the parameter index; their length is the number of parameter names.  The minimisers
(SciPy, Cholesky solve) are parameters: arbitrary functions of the number of calls made so far and of the current
state, which may leave any parameter vector behind and may fail.  The likelihood is an arbitrary function of the parameter
values.  Logging and timing are not modelled.
-/

namespace Verif.Scans

open Verif.FitParams

/-! ### The callback of the iterative fit -/

/-- what SciPy passes to the callback: parameter vector and loss (`none` is NaN) -/
structure Iter (X L : Type) where
  x : X
  loss : Option L

/-- `FitterCallback` (fitter.py:62-101) without the timing -/
structure Callback (X L : Type) where
  iiter : Nat
  xval : X
  history : List L
  /-- `early_stopping`: values ≤ 0 switch it off -/
  es : Int

section callback
variable {X L : Type} [LinearOrder L]

/-- `FitterCallback.__init__` -/
def Callback.init (x : X) (es : Int) : Callback X L := ⟨0, x, [], es⟩

/-- `self.early_stopping > 0 and len(self.loss_history) > self.early_stopping and
self.loss_history[-self.early_stopping] <= loss` (fitter.py:86-90) -/
def Callback.stops (c : Callback X L) (loss : L) : Bool :=
  decide (0 < c.es) && decide (c.es < c.history.length) &&
    match c.history[c.history.length - c.es.toNat]? with
    | some h => decide (h ≤ loss)
    | none => false

/-- `FitterCallback.__call__` (fitter.py:75-101) -/
def Callback.call (c : Callback X L) (it : Iter X L) : Callback X L × Res Unit :=
  match it.loss with
  | none => (c, .error .value)
  | some loss =>
    if c.stops loss then (c, .error .value)
    else ({ c with history := c.history ++ [loss], xval := it.x, iiter := c.iiter + 1 }, .ok ())

/-- how SciPy's `minimize` ends if the callback never raises -/
inductive Ending (X : Type) where
  | returns (x : X)
  | raises

/-- `scipy.optimize.minimize(..., callback=callback)`: SciPy calls the callback after every iteration; an exception of the
callback propagates.  The result is the callback afterwards and the returned vector. -/
def scipyMinimize : List (Iter X L) → Ending X → Callback X L → Callback X L × Res X
  | [], .returns x, c => (c, .ok x)
  | [], .raises, c => (c, .error .exception)
  | it :: its, e, c => match c.call it with
    | (c', .error err) => (c', .error err)
    | (c', .ok ()) => scipyMinimize its e c'

/-- `Fitter.fit` (fitter.py:2236-2314): the value of `self.x` afterwards and the callback -/
def fitIter (its : List (Iter X L)) (e : Ending X) (es : Int) (x : X) : X × Callback X L :=
  match scipyMinimize its e (Callback.init x es) with
  | (c, .ok x') => (x', c)
  | (c, .error _) => (c.xval, c)

end callback

/-! ### State of the fitter seen by the scans -/

abbrev Vec (V : Type) := Nat → V

/-- `self.x`, `self.x0` and the frozen parameters -/
structure Sess (V : Type) where
  x : Vec V
  x0 : Vec V
  fr : FreezeState

section
variable {V : Type} [Field V]

/-- `np.where(self.parms.astype(str) == param)[0][0]` -/
def paramIdx (parms : List String) (param : String) : Res Nat :=
  match parms.findIdx? (· == param) with
  | some i => .ok i
  | none => .error .index

/-- `np.linspace(a, b, n)[i]` -/
def linspace (a b : V) (n i : Nat) : V := if n = 1 then a else a + i * ((b - a) / ((n : V) - 1))

/-! ### One-dimensional likelihood scan -/

/-- accumulators of a scan: number of fits made, `self.x`, `scan_vals`, `dnlls` -/
structure Scan1 (V : Type) where
  calls : Nat
  x : Vec V
  vals : List V
  dnlls : List (Option V)

/-- body of the inner loop of `nll_scan` (fitter.py:2409-2421) for `i > 0` -/
def scanPoint (fit : Nat → Vec V → Vec V) (nll : Vec V → V) (idx n : Nat) (centre best : V) (off : Nat → V) (sign : Int)
    (a : Scan1 V) (i : Nat) : Scan1 V :=
  let v := centre + sign * off i
  let x := fit a.calls (Function.update a.x idx v)
  let pos := ((n / 2 : Nat) + sign * i : Int).toNat
  ⟨a.calls + 1, x, a.vals.set pos v, a.dnlls.set pos (some (nll x - best))⟩

/-- one sign of the outer loop (fitter.py:2407-2424): the points `1, …, m`, then `self.x.assign(xval)` -/
def scanSide (fit : Nat → Vec V → Vec V) (nll : Vec V → V) (idx n m : Nat) (xval : Vec V) (best : V) (off : Nat → V)
    (a : Scan1 V) (sign : Int) : Scan1 V :=
  let r := (List.range' 1 m).foldl (scanPoint fit nll idx n (xval idx) best off sign) a
  { r with x := xval }

/-- `nll_scan` (fitter.py:2383-2430).  `sd` is `self.cov[idx, idx] ** 0.5`, or 1 with `use_prefit`.  The parameter is
frozen before its index is looked up. -/
def nllScan (rx : Regex) (fit : Nat → Vec V → Vec V) (nll : Vec V → V) (param : String) (range : V) (points : Nat)
    (sd : Nat → V) (s : Sess V) : Sess V × Res (List V × List (Option V)) :=
  match freezeParams rx [param] s.fr with
  | (fr, .error e) => ({ s with fr }, .error e)
  | (fr, .ok ()) => match paramIdx fr.parms param with
    | .error e => ({ s with fr }, .error e)
    | .ok idx =>
      let len := points / 2 + 1
      let off := fun i => linspace 0 range len i * sd idx
      let n := 2 * len - 1
      let best := nll s.x
      let a : Scan1 V := ⟨0, s.x, (List.replicate n 0).set (n / 2) (s.x idx), (List.replicate n none).set (n / 2) (some 0)⟩
      let a := [-1, 1].foldl (scanSide fit nll idx n (len - 1) s.x best off) a
      match defreezeParams rx [param] fr with
      | (fr', .error e) => ({ s with x := a.x, fr := fr' }, .error e)
      | (fr', .ok ()) => ({ s with x := a.x, fr := fr' }, .ok (a.vals, a.dnlls))

/-! ### Two-dimensional likelihood scan -/

/-- position and direction of the spiral -/
structure Spiral where
  i : Int
  j : Int
  drow : Int
  dcol : Int
  r : Int
  deriving DecidableEq, Repr

/-- the turns (fitter.py:2462-2473) -/
def Spiral.turn (s : Spiral) : Spiral :=
  let s := if s.i = s.r ∧ s.drow = 1 then { s with drow := 0, dcol := 1 } else s
  if s.j = s.r ∧ s.dcol = 1 then { s with dcol := 0, drow := -1 }
  else if s.i = -s.r ∧ s.drow = -1 then { s with dcol := -1, drow := 0 }
  else if s.j = -s.r ∧ s.dcol = -1 then { s with drow := 1, dcol := 0 }
  else s

/-- one step (fitter.py:2475-2479) -/
def Spiral.step (s : Spiral) : Spiral :=
  let s := s.turn
  let s := { s with i := s.i + s.drow, j := s.j + s.dcol }
  if s.i = -s.r ∧ s.j = -s.r then { s with r := s.r + 1 } else s

/-- `while r - 1 < best_fit` (fitter.py:2461): the visited `(i, j)`; `none` if `fuel` iterations are not enough -/
def Spiral.visits (best : Int) : Nat → Spiral → Option (List (Int × Int))
  | fuel, s =>
    if s.r - 1 < best then match fuel with
      | 0 => none
      | fuel + 1 => (Spiral.visits best fuel s.step).map fun l => (s.step.i, s.step.j) :: l
    else some []

/-- the initial state (fitter.py:2455-2460) -/
def Spiral.start : Spiral := ⟨0, 0, 0, -1, 1⟩

/-- accumulators of the two-dimensional scan -/
structure Scan2 (V : Type) where
  calls : Nat
  x : Vec V
  dnlls : Nat → Nat → Option V

/-- a Python index into an axis of length `n`; negative ones count from the end -/
def pyIndex (n : Nat) (i : Int) : Res Nat :=
  if 0 ≤ i ∧ i < n then .ok i.toNat
  else if -(n : Int) ≤ i ∧ i < 0 then .ok (i + n).toNat
  else .error .index

/-- one grid point (fitter.py:2481-2496) -/
def scanCell (fit : Nat → Vec V → Vec V) (nll : Vec V → V) (idx0 idx1 n : Nat) (bestFit : Int) (best : V)
    (xs ys : Nat → V) (a : Scan2 V) (ij : Int × Int) : Res (Scan2 V) :=
  match pyIndex n (bestFit - ij.1), pyIndex n (bestFit + ij.2) with
  | .ok ix, .ok iy =>
    let x := fit a.calls (Function.update (Function.update a.x idx0 (xs ix)) idx1 (ys iy))
    .ok ⟨a.calls + 1, x, fun p q => if p = ix ∧ q = iy then some (nll x - best) else a.dnlls p q⟩
  | .error e, _ => .error e
  | _, .error e => .error e

/-- the loop over the grid points -/
def scanCells (fit : Nat → Vec V → Vec V) (nll : Vec V → V) (idx0 idx1 n : Nat) (bestFit : Int) (best : V)
    (xs ys : Nat → V) : Scan2 V → List (Int × Int) → Res (Scan2 V)
  | a, [] => .ok a
  | a, ij :: l => match scanCell fit nll idx0 idx1 n bestFit best xs ys a ij with
    | .error e => .error e
    | .ok a' => scanCells fit nll idx0 idx1 n bestFit best xs ys a' l

/-- the scanned values (fitter.py:2442-2448): around the current value in units of the uncertainty, or the plain grid with
`use_prefit` -/
def gridValues (usePrefit : Bool) (range : V) (n : Nat) (centre sd : V) (i : Nat) : V :=
  if usePrefit then linspace (-range) range n i else centre + linspace (-range) range n i * sd

/-- `nll_scan2D` (fitter.py:2432-2502).  `fuel` bounds the number of iterations of the `while` loop; `Err.exception` stands
for running out of it (shown not to happen). -/
def nllScan2D (rx : Regex) (fit : Nat → Vec V → Vec V) (nll : Vec V → V) (fuel : Nat) (p0 p1 : String) (range : V)
    (points : Nat) (usePrefit : Bool) (sd : Nat → V) (s : Sess V) :
    Sess V × Res ((Nat → V) × (Nat → V) × (Nat → Nat → Option V)) :=
  match freezeParams rx [p0, p1] s.fr with
  | (fr, .error e) => ({ s with fr }, .error e)
  | (fr, .ok ()) => match paramIdx fr.parms p0, paramIdx fr.parms p1 with
    | .error e, _ => ({ s with fr }, .error e)
    | _, .error e => ({ s with fr }, .error e)
    | .ok idx0, .ok idx1 =>
      let xs := gridValues usePrefit range points (s.x idx0) (sd idx0)
      let ys := gridValues usePrefit range points (s.x idx1) (sd idx1)
      let bestFit : Int := (((points + 1) / 2 : Nat) : Int) - 1
      match pyIndex points bestFit with
      | .error e => ({ s with fr }, .error e)
      | .ok b => match Spiral.visits bestFit fuel Spiral.start with
        | none => ({ s with fr }, .error .exception)
        | some cells => match scanCells fit nll idx0 idx1 points bestFit (nll s.x) xs ys
            ⟨0, s.x, fun p q => if p = b ∧ q = b then some 0 else none⟩ cells with
          | .error e => ({ s with fr }, .error e)
          | .ok a => match defreezeParams rx [p0, p1] fr with
            | (fr', .error e) => ({ s with fr := fr' }, .error e)
            | (fr', .ok ()) => ({ s with fr := fr' }, .ok (xs, ys, a.dnlls))

/-! ### Contour scan -/

/-- SciPy's constrained minimisation: it leaves some vector in `self.x`, and returns a solution, reports failure or
raises -/
inductive Contour (V : Type) where
  | success (left sol : Vec V)
  | failure (left : Vec V)
  | raises (left : Vec V)

/-- one side of the contour (fitter.py:2608-2718): interval and parameter shifts, `none` for NaN.  `obs` is the observable
(`fun`) evaluated at the solution, `none` to scan the parameter itself. -/
def contourSide (opt : Nat → Vec V → Contour V) (obs : Option (Vec V → V)) (idx : Nat) (xval : Vec V) (dx : Vec V)
    (calls : Nat) (sign : V) : Vec V × Res (Option V × Option (Vec V)) :=
  match opt calls (fun k => xval k + sign * dx k) with
  | .raises left => (left, .error .exception)
  | .failure _ => (xval, .ok (none, none))
  | .success _ sol =>
    let val := match obs with
      | none => sol idx - xval idx
      | some f => f sol
    (xval, .ok (some val, some fun k => sol k - xval k))

/-- the loop over the sides -/
def contourLoop (opt : Nat → Vec V → Contour V) (obs : Option (Vec V → V)) (idx : Nat) (xval : Vec V) (dx : Vec V) :
    Vec V → Nat → List V → Vec V × Res (List (Option V × Option (Vec V)))
  | x, _, [] => (x, .ok [])
  | _, calls, sign :: signs => match contourSide opt obs idx xval dx calls sign with
    | (x', .error e) => (x', .error e)
    | (x', .ok r) => match contourLoop opt obs idx xval dx x' (calls + 1) signs with
      | (x'', .error e) => (x'', .error e)
      | (x'', .ok rs) => (x'', .ok (r :: rs))

/-- `contour_scan` (fitter.py:2504-2720).  `dx` is the Gaussian displacement of `Model/Impacts.lean` (`gaussDx`), given the
frozen indices. -/
def contourScan (opt : Nat → Vec V → Contour V) (obs : Option (Vec V → V)) (dx : Nat → List Nat → Vec V) (param : String)
    (signs : List V) (calls : Nat) (s : Sess V) : Sess V × Res (List (Option V × Option (Vec V))) :=
  match paramIdx s.fr.parms param with
  | .error e => (s, .error e)
  | .ok idx => match contourLoop opt obs idx s.x (dx idx s.fr.frozenIndices) s.x calls signs with
    | (x, r) => ({ s with x }, r)

/-! ### Grouped asymmetric impacts -/

/-- `_scan_interval` for all targets with the state threaded through; an exception stops (asym_impacts.py:135, 147-151) -/
def scanTargets (scan : Nat → String → Sess V → Sess V × Res (List (Option V × Option (Vec V)))) :
    Nat → List String → Sess V → Sess V × Res (List (String × List (Option V × Option (Vec V))))
  | _, [], s => (s, .ok [])
  | c, t :: ts, s => match scan c t s with
    | (s', .error e) => (s', .error e)
    | (s', .ok r) => match scanTargets scan (c + 2) ts s' with
      | (s'', .error e) => (s'', .error e)
      | (s'', .ok rs) => (s'', .ok ((t, r) :: rs))

/-- `scan_with_frozen` (asym_impacts.py:137-155): freezes the members that are not frozen yet, scans the targets that are
not frozen, and unfreezes what it froze also when a scan raises -/
def scanWithFrozen (rx : Regex) (scan : Nat → String → Sess V → Sess V × Res (List (Option V × Option (Vec V))))
    (calls : Nat) (already targets members : List String) (s : Sess V) :
    Sess V × Res (List (String × List (Option V × Option (Vec V)))) :=
  let toFreeze := members.filter fun m => !already.contains m
  let run := fun s => scanTargets scan calls (targets.filter fun t => !(members.contains t || already.contains t)) s
  if toFreeze.isEmpty then run s
  else match freezeParams rx toFreeze s.fr with
    | (fr, .error e) => ({ s with fr }, .error e)
    | (fr, .ok ()) => match run { s with fr } with
      | (s', r) => match defreezeParams rx toFreeze s'.fr with
        | (fr', .error e) => ({ s' with fr := fr' }, .error e)
        | (fr', .ok ()) => ({ s' with fr := fr' }, r)

/-- the loop over the groups and the final "stat" column (asym_impacts.py:157-179) -/
def scanGroups (rx : Regex) (scan : Nat → String → Sess V → Sess V × Res (List (Option V × Option (Vec V))))
    (already targets : List String) : Nat → List (List String) → Sess V →
    Sess V × Res (List (List (String × List (Option V × Option (Vec V)))))
  | _, [], s => (s, .ok [])
  | c, g :: gs, s => match scanWithFrozen rx scan c already targets g s with
    | (s', .error e) => (s', .error e)
    | (s', .ok r) => match scanGroups rx scan already targets (c + 2 * targets.length) gs s' with
      | (s'', .error e) => (s'', .error e)
      | (s'', .ok rs) => (s'', .ok (r :: rs))

/-- `grouped_asym_impacts` (asym_impacts.py:95-192): total intervals, then one scan per group; the last entry of `groups`
is the list of constrained nuisances ("stat").  The quadrature difference is `quadSubtract`. -/
def groupedScans (rx : Regex) (scan : Nat → String → Sess V → Sess V × Res (List (Option V × Option (Vec V))))
    (targets : List String) (groups : List (List String)) (s : Sess V) :
    Sess V × Res (List (String × List (Option V × Option (Vec V))) ×
      List (List (String × List (Option V × Option (Vec V))))) :=
  match scanTargets scan 0 targets s with
  | (s1, .error e) => (s1, .error e)
  | (s1, .ok totals) => match scanGroups rx scan s.fr.frozenParams targets (2 * targets.length) groups s1 with
    | (s2, .error e) => (s2, .error e)
    | (s2, .ok gs) => (s2, .ok (totals, gs))

/-! ### Asymmetric global impacts -/

/-- outcome of `fitter.minimize()` (and profiling): the vector left in `self.x` and whether an exception was raised -/
structure Refit (V : Type) where
  x : Vec V
  raised : Bool

/-- one shifted refit (global_asym_impacts.py:150-186).  `start` is the warm start of `self.x`. -/
def asymOne (minimize : Nat → Vec V → Vec V → Refit V) (start : Nat → V → Vec V) (xnom x0nom : Vec V) (calls idx : Nat)
    (shift : V) (s : Sess V) : Sess V × Vec V :=
  let x0' := Function.update x0nom idx (x0nom idx + shift)
  let r := minimize calls (start idx shift) x0'
  ({ s with x := r.x, x0 := x0' }, if r.raised then fun _ => 0 else fun k => r.x k - xnom k)

/-- the loop over sources and signs -/
def asymLoop (minimize : Nat → Vec V → Vec V → Refit V) (start : Nat → V → Vec V) (xnom x0nom : Vec V) (width : Nat → V)
    (sigma : V) (signs : V × V) : Nat → List Nat → Sess V → Sess V × List (Vec V × Vec V)
  | _, [], s => (s, [])
  | calls, idx :: l, s =>
    let a := asymOne minimize start xnom x0nom calls idx (signs.1 * sigma * width idx) s
    let b := asymOne minimize start xnom x0nom (calls + 1) idx (signs.2 * sigma * width idx) a.1
    let r := asymLoop minimize start xnom x0nom width sigma signs (calls + 2) l b.1
    (r.1, (a.2, b.2) :: r.2)

/-- the warm start (global_asym_impacts.py:163-170); `dxdx0` with `linear_warmstart` -/
def warmX (dxdx0 : Option (Nat → Nat → V)) (xnom : Vec V) (idx : Nat) (shift : V) : Vec V :=
  match dxdx0 with
  | some d => fun k => xnom k + d k idx * shift
  | none => Function.update xnom idx (xnom idx + shift)

/-- `global_asym_impacts_parms` (global_asym_impacts.py:52-240) up to the grouping; the final assignments restore the
nominal state -/
def globalAsym (minimize : Nat → Vec V → Vec V → Refit V) (dxdx0 : Option (Nat → Nat → V)) (width : Nat → V) (sigma : V)
    (signs : V × V) (idxs : List Nat) (s : Sess V) : Sess V × List (Vec V × Vec V) :=
  let r := asymLoop minimize (warmX dxdx0 s.x) s.x s.x0 width sigma signs 0 idxs s
  ({ r.1 with x := s.x, x0 := s.x0 }, r.2)

/-- the sources kept by `include` and `exclude` (fitter.py:1267-1273, 1288-1294) -/
def asymSelect (rx : Regex) (incl excl : Option (List String)) (names : List String) : Res (String → Bool) :=
  match (match incl with
    | none => (.ok none : Res (Option (List String)))
    | some es => match matchParams rx es names with
      | .error e => .error e
      | .ok r => .ok (some r)), (match excl with
    | none => (.ok none : Res (Option (List String)))
    | some es => match matchParams rx es names with
      | .error e => .error e
      | .ok r => .ok (some r)) with
  | .error e, _ => .error e
  | _, .error e => .error e
  | .ok i, .ok x => .ok fun n => (match i with
      | none => true
      | some keep => keep.contains n) && (match x with
      | none => true
      | some drop => !drop.contains n)

/-- the scanned sources (fitter.py:1259-1298): constrained nuisances, then priored parameters labelled `<param>_prior`.
`constrained i` is `constraintweights[i] > 0`; `priorIdxs` is `param_prior_idxs` (empty without active priors). -/
def asymSources (rx : Regex) (incl excl : Option (List String)) (nparams : Nat) (parms : List String)
    (constrained : Nat → Bool) (priorIdxs : List Nat) : Res (List (Nat × String)) :=
  let systs := parms.drop nparams
  match asymSelect rx incl excl systs with
  | .error e => .error e
  | .ok sel =>
    let nuis := (List.range systs.length).filterMap fun i =>
      if constrained i && sel (systs.getD i "") then some (nparams + i, systs.getD i "") else none
    match asymSelect rx incl excl (priorIdxs.map fun p => parms.getD p "") with
    | .error e => if priorIdxs.isEmpty then .ok nuis else .error e
    | .ok selp => .ok (nuis ++ priorIdxs.filterMap fun p =>
        if selp (parms.getD p "") then some (p, parms.getD p "" ++ "_prior") else none)

/-- rows of a group (global_asym_impacts.py:205-217): positions of the scanned members; `pos_in_scanned` keeps the last
position of an index -/
def asymGroupRows (idxs members : List Nat) : List Nat :=
  members.filterMap fun i => if idxs.contains i then some (idxs.length - 1 - idxs.reverse.idxOf i) else none

/-- the group table (global_asym_impacts.py:205-221): groups without scanned members are left out, "Total" covers all
rows -/
def asymGroups (idxs : List Nat) (groups : List (String × List Nat)) : List (String × List Nat) :=
  (groups.map fun g => (g.1, asymGroupRows idxs g.2)).filter (fun g => !g.2.isEmpty) ++
    if idxs.isEmpty then [] else [("Total", List.range idxs.length)]

/-! ### Non-profiled impacts -/

/-- the two refits of one frozen parameter (nonprofiled_impacts.py:67-89): the refits start from the nominal vector with
the parameter and its centre at `sign * err_x0[idx] + x0_tmp[idx]`; afterwards the centre is put back -/
def nonprofOne (minimize : Nat → Vec V → Vec V → Vec V) (xtmp x0tmp : Vec V) (err : Nat → V) (calls idx : Nat) (x0 : Vec V) :
    (Vec V × Vec V) × Vec V :=
  let var := fun sign : V => sign * err idx + x0tmp idx
  let x0a := Function.update x0 idx (var 1)
  let xa := minimize calls (Function.update xtmp idx (var 1)) x0a
  let x0b := Function.update x0a idx (var (-1))
  let xb := minimize (calls + 1) (Function.update xtmp idx (var (-1))) x0b
  ((fun k => xtmp k - xa k, fun k => xtmp k - xb k), Function.update x0b idx (x0tmp idx))

/-- the loop over the frozen parameters -/
def nonprofLoop (minimize : Nat → Vec V → Vec V → Vec V) (xtmp x0tmp : Vec V) (err : Nat → V) :
    Nat → List Nat → Vec V → List (Vec V × Vec V) × Vec V
  | _, [], x0 => ([], x0)
  | calls, idx :: l, x0 =>
    let a := nonprofOne minimize xtmp x0tmp err calls idx x0
    let r := nonprofLoop minimize xtmp x0tmp err (calls + 2) l a.2
    (a.1 :: r.1, r.2)

/-- rows of the table selected for a group (nonprofiled_impacts.py:94-105): positions of the frozen indices that occur in
the group's index list -/
def groupRows (frozenIndices idxs : List Nat) : List Nat :=
  (List.range frozenIndices.length).filter fun k => idxs.contains (frozenIndices.getD k 0)

/-- what the procedure returns: labels and rows, group names with the selected rows (the "Total" group, added last, selects
all rows) -/
structure Nonprof (V : Type) where
  labels : List String
  rows : List (Vec V × Vec V)
  groups : List (String × List Nat)

/-- `nonprofiled_impacts_parms` (nonprofiled_impacts.py:24-116) when no refit raises -/
def nonprofiled (minimize : Nat → Vec V → Vec V → Vec V) (err : Nat → V) (systgroups : List (String × List Nat))
    (s : Sess V) : Sess V × Nonprof V :=
  let r := nonprofLoop minimize s.x s.x0 err 0 s.fr.frozenIndices s.x0
  let gs := (systgroups.map fun g => (g.1, groupRows s.fr.frozenIndices g.2)).filter fun g => !g.2.isEmpty
  ({ s with x0 := r.2 }, ⟨s.fr.frozenParams, r.1, gs ++ [("Total", List.range s.fr.frozenIndices.length)]⟩)

end

/-! ### Envelopes -/

noncomputable section

/-- `_envelope` (nonprofiled_impacts.py:13-20, global_asym_impacts.py:30-46) for one parameter: the pairs are the two shifts
of the rows of the group -/
def envelope (rows : List (ℝ × ℝ)) : ℝ × ℝ :=
  (-Real.sqrt (rows.map fun v => (min 0 (min v.1 v.2)) ^ 2).sum, Real.sqrt (rows.map fun v => (max 0 (max v.1 v.2)) ^ 2).sum)

/-- one side of `_quad_subtract` (asym_impacts.py:70-92), `none` for NaN; infinities are not modelled -/
def quadSide (down : Bool) (tot frozen : Option ℝ) : Option ℝ :=
  match tot, frozen with
  | some t, some f =>
    let mag := Real.sqrt (max (t ^ 2 - f ^ 2) 0)
    some (if down then -mag else mag)
  | _, _ => none

end

end Verif.Scans
