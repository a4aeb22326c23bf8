import Verif.Model.Py

/-
Readers of fit results: rabbit/io_tools.py:28-213, with the functions of rabbit/workspace.py:318-320, 379-394, 421-472 that write what
they read, and the table printed by bin/rabbit_print_pulls_and_constraints.py:63-165.

Simplifications: a histogram is its named axes with their categories, and a value and a variance for every tuple of bin
numbers (no flow); the bins of the axis `downUpVar` (a regular axis) are labelled by their numbers; histograms are read
without the pickling layer (`.get()`); square root, `re.search` and `np.argsort` are parameters; numbers of any type.
-/

namespace Verif.IoTools

variable {V : Type}

/-- a stored histogram -/
structure Hist (V : Type) where
  axes : Dict String (List String)
  val : List Nat → V
  var : List Nat → V

/-- a numpy array of at most two dimensions -/
inductive Arr (V : Type) where
  | scalar (v : V)
  | vec (l : List V)
  | mat (l : List (List V))
deriving DecidableEq, Repr

/-- `np.array(h.axes[name])`: an unknown axis raises `KeyError` -/
def Hist.axis (h : Hist V) (name : String) : Res (List String) := Dict.get h.axes name

/-- `h[{name: label}]`: the axis is dropped.  An unknown axis raises `ValueError`, an unknown category `KeyError`. -/
def Hist.pick (h : Hist V) (name label : String) : Res (Hist V) :=
  match h.axes[h.axes.findIdx fun a => a.1 == name]? with
  | none => .error .value
  | some (_, cats) =>
    if label ∈ cats then
      let k := h.axes.findIdx fun a => a.1 == name
      .ok ⟨h.axes.eraseIdx k, fun ix => h.val (ix.insertIdx k (cats.idxOf label)), fun ix => h.var (ix.insertIdx k (cats.idxOf label))⟩
    else .error .key

/-- the entries of a histogram of at most two axes as an array; more axes do not occur here -/
def Hist.arr (h : Hist V) (f : List Nat → V) : Res (Arr V) :=
  match h.axes with
  | [] => .ok (.scalar (f []))
  | [a] => .ok (.vec ((List.range a.2.length).map fun i => f [i]))
  | [a, b] => .ok (.mat ((List.range a.2.length).map fun i => (List.range b.2.length).map fun j => f [i, j]))
  | _ => .error .value

/-- `h.values()` -/
def Hist.values (h : Hist V) : Res (Arr V) := h.arr h.val

/-- `np.einsum("i j i -> i j", h.values())`: three axes, the first as long as the third -/
def Hist.diag (h : Hist V) : Res (Arr V) :=
  match h.axes with
  | [a, b, c] =>
    if a.2.length = c.2.length then
      .ok (.mat ((List.range a.2.length).map fun i => (List.range b.2.length).map fun j => h.val [i, j, i]))
    else .error .value
  | _ => .error .value

/-- indexing a list with a boolean mask: `IndexError` if the lengths differ -/
def maskList {α : Type} (m : List Bool) (l : List α) : Res (List α) :=
  if m.length = l.length then .ok (((l.zip m).filter fun x => x.2).map fun x => x.1) else .error .index

/-- `a[mask]` -/
def Arr.mask (m : List Bool) : Arr V → Res (Arr V)
  | .scalar _ => .error .index
  | .vec l => (maskList m l).map .vec
  | .mat l => (maskList m l).map .mat

/-- `np.take(l, indices, axis=0)`: `IndexError` beyond the end -/
def takeList {α : Type} (l : List α) : List Nat → Res (List α)
  | [] => .ok []
  | i :: is =>
    match l[i]? with
    | none => .error .index
    | some x => (takeList l is).map fun r => x :: r

/-- rabbit/io_tools.py:126-130: scalars are passed through -/
def Arr.take : Arr V → List Nat → Res (Arr V)
  | .scalar v, _ => .ok (.scalar v)
  | .vec l, idx => (takeList l idx).map .vec
  | .mat l, idx => (takeList l idx).map .mat

/-- `np.append(a, v)` without an axis: the array is flattened -/
def Arr.append (a : Arr V) (v : V) : List V :=
  match a with
  | .scalar x => [x, v]
  | .vec l => l ++ [v]
  | .mat l => l.flatten ++ [v]

/-- the patterns of a request: `None`, one string or a list -/
inductive Pats where
  | none
  | one (s : String)
  | many (l : List String)
deriving DecidableEq, Repr

/-- rabbit/io_tools.py:106-112 -/
def Pats.list : Pats → List String
  | .none => []
  | .one s => [s]
  | .many l => l

/-- rabbit/io_tools.py:114-115 -/
def matchesAny (search : String → String → Bool) (pats : List String) (label : String) : Bool := pats.any fun p => search p label

/-- rabbit/io_tools.py:96-132 `_filter_nuisance_data`.  With no labels, `np.array([])` is an array of floats, for which `&=` and `~`
raise `TypeError`. -/
def filterData (search : String → String → Bool) (labels : List String) (pulls constraints : Arr V) (keep exclude : Pats) :
    Res (List String × Arr V × Arr V) :=
  if keep = .none ∧ exclude = .none then .ok (labels, pulls, constraints)
  else if (keep.list ≠ [] ∨ exclude.list ≠ []) ∧ labels = [] then .error .type
  else
    let mask := labels.map fun l =>
      (if keep.list ≠ [] then matchesAny search keep.list l else true) && (if exclude.list ≠ [] then !matchesAny search exclude.list l else true)
    (maskList mask labels).bind fun ls =>
    (pulls.mask mask).bind fun ps =>
    (constraints.take ((List.range mask.length).filter fun i => mask.getD i false)).map fun cs => (ls, ps, cs)

/-- rabbit/io_tools.py:135-162 `get_pulls_and_constraints` -/
def readPulls (sqrt : V → V) (search : String → String → Bool) (res : Dict String (Hist V)) (prefit asym : Bool) (keep exclude : Pats) :
    Res (List String × Arr V × Arr V) :=
  (Dict.get res (if prefit then "parms_prefit" else "parms")).bind fun h =>
  (h.axis "parms").bind fun labels =>
  h.values.bind fun pulls =>
  (if asym then
    (Dict.get res "contour_scans").bind fun hi => (hi.pick "confidence_level" "1.0").bind fun hi => hi.diag
  else h.arr fun ix => sqrt (h.var ix)).bind fun constraints =>
  filterData search labels pulls constraints keep exclude

/-- the arrays returned by `read_impacts_poi` -/
structure Impacts (V : Type) where
  pulls : Option (Arr V × Arr V × Arr V × Arr V)
  impacts : Arr V
  labels : List String
deriving DecidableEq, Repr

/-- rabbit/io_tools.py:50-65: the histogram of impacts of one parameter of interest -/
def impactHist (res : Dict String (Hist V)) (poi : String) (grouped : Bool) (kind : String) (asym : Bool) : Res (Hist V) :=
  (if asym && kind == "traditional" && !Dict.has res "impacts_asym" then
    (Dict.get res "contour_scans").bind fun h => h.pick "confidence_level" "1.0"
  else Dict.get res ((if kind == "traditional" then "impacts" else kind ++ "_impacts") ++ (if asym then "_asym" else "") ++
    (if grouped then "_grouped" else ""))).bind fun h => h.pick "parms" poi

/-- rabbit/io_tools.py:77-91: pulls and constraints, before and after the fit, beside the impacts -/
def pullsFor (sqrt : V → V) (search : String → String → Bool) (res : Dict String (Hist V)) (asym : Bool) (labels : List String) :
    Res (Arr V × Arr V × Arr V × Arr V) :=
  (readPulls sqrt search res false asym .none .none).bind fun (_, p, c) =>
  (readPulls sqrt search res true asym .none .none).bind fun (pl, p0, c0) =>
  if pl.length ≠ labels.length then
    let mask := pl.map fun l => decide (l ∈ labels)
    (p.mask mask).bind fun p => (p0.mask mask).bind fun p0 => (c.mask mask).bind fun c => (c0.mask mask).map fun c0 => (p, p0, c, c0)
  else .ok (p, p0, c, c0)

/-- rabbit/io_tools.py:39-93 `read_impacts_poi` -/
def readImpacts (sqrt : V → V) (search : String → String → Bool) (res : Dict String (Hist V)) (poi : String) (grouped : Bool) (kind : String)
    (pulls addTotal asym : Bool) : Res (Impacts V) :=
  (impactHist res poi grouped kind asym).bind fun h =>
  h.values.bind fun impacts =>
  (h.axis "impacts").bind fun labels =>
  (if addTotal then
    (Dict.get res "parms").bind fun hp => (hp.pick "parms" poi).map fun hp =>
      (Arr.vec (impacts.append (sqrt (hp.var []))), labels ++ ["Total"])
  else .ok (impacts, labels)).bind fun (impacts, labels) =>
  if pulls then (pullsFor sqrt search res (asym && kind == "traditional") labels).map fun p => ⟨some p, impacts, labels⟩
  else .ok ⟨none, impacts, labels⟩

/-! ## what the workspace writes -/

/-- rabbit/workspace.py:318-320 `add_parms_hist` -/
def addParms (parms : List String) (name : String) (values variances : Nat → V) (res : Dict String (Hist V)) : Dict String (Hist V) :=
  Dict.set res name ⟨[("parms", parms)], fun ix => values (ix.getD 0 0), fun ix => variances (ix.getD 0 0)⟩

/-- rabbit/workspace.py:421-445 `add_impacts_hists`, the histograms of the single parameters: rows for the parameters of interest
`pois`, columns for all parameters.  The histogram of these values is stored without variances (`zero`). -/
def addImpacts (zero : V) (parms pois : List String) (name : String) (values : Nat → Nat → V) (res : Dict String (Hist V)) :
    Dict String (Hist V) :=
  Dict.set res name ⟨[("parms", pois), ("impacts", parms)], fun ix => values (ix.getD 0 0) (ix.getD 1 0), fun _ => zero⟩

/-- rabbit/workspace.py:447-472 `add_impacts_asym_hist`, the histogram of the single parameters `sel` -/
def addImpactsAsym (zero : V) (parms sel : List String) (name : String) (values : Nat → Nat → Nat → V) (res : Dict String (Hist V)) :
    Dict String (Hist V) :=
  Dict.set res name ⟨[("impacts", sel), ("downUpVar", ["0", "1"]), ("parms", parms)],
    fun ix => values (ix.getD 0 0) (ix.getD 1 0) (ix.getD 2 0), fun _ => zero⟩

/-- rabbit/workspace.py:379-394 `add_contour_scan_hist` (called with its default name in bin/rabbit_fit.py:768) -/
def addScan (zero : V) (parms sel levels : List String) (values : Nat → Nat → Nat → Nat → V) (res : Dict String (Hist V)) :
    Dict String (Hist V) :=
  Dict.set res "contour_scan" ⟨[("impacts", sel), ("confidence_level", levels), ("downUpVar", ["0", "1"]), ("parms", parms)],
    fun ix => values (ix.getD 0 0) (ix.getD 1 0) (ix.getD 2 0) (ix.getD 3 0), fun _ => zero⟩

/-! ## printing -/

/-- bin/rabbit_print_pulls_and_constraints.py:84-118 and 151-165 (without `--asym`): all columns in the order given by
`np.argsort` of one of them, joined row by row -/
def table (order : Option (List Nat)) (labels : List String) (pulls constraints pulls0 constraints0 : List V) :
    Res (List (String × V × V × V × V)) :=
  match order with
  | none => .ok (labels.zip (pulls.zip (constraints.zip (pulls0.zip constraints0))))
  | some o =>
    (takeList labels o).bind fun l => (takeList pulls o).bind fun p => (takeList constraints o).bind fun c =>
    (takeList pulls0 o).bind fun p0 => (takeList constraints0 o).map fun c0 => l.zip (p.zip (c.zip (p0.zip c0)))

/-! ## covariance of channels -/

/-- rabbit/io_tools.py:194-204: positions of the bins of the selected channels in the covariance of all channels -/
def channelIdxs (channels : Dict String (List V)) (sel : List String) : List (List Nat) :=
  let stops := (List.range channels.length).map fun k => ((channels.take (k + 1)).map fun c => c.2.length).sum
  let starts := 0 :: stops.dropLast
  let idxs := (List.range channels.length).filter fun i => decide ((channels.map fun c => c.1).getD i "" ∈ sel)
  idxs.map fun i => (List.range (stops.getD i 0 - starts.getD i 0)).map fun j => starts.getD i 0 + j

/-- rabbit/io_tools.py:165-213 `get_postfit_hist_cov`, for one mapping: the flat histograms of the channels (in the order of the
file) and the covariance of all their bins.  `np.concat` of nothing raises `ValueError`. -/
def postfitCov (channels : Dict String (List V)) (cov : Nat → Nat → V) (sel : Option (List String)) :
    Res (List (List V) × List (List V) × List String) :=
  match sel with
  | none =>
    let n := (channels.map fun c => c.2.length).sum
    .ok (channels.map fun c => c.2, (List.range n).map fun i => (List.range n).map fun j => cov i j, channels.map fun c => c.1)
  | some sel =>
    let found := (channels.map fun c => c.1).filter fun c => decide (c ∈ sel)
    if sel ≠ found then .error .runtime
    else if channelIdxs channels sel = [] then .error .value
    else
      let idxs := (channelIdxs channels sel).flatten
      .ok (sel.filterMap fun c => Dict.get? channels c, idxs.map fun i => idxs.map fun j => cov i j, found)

/-! ## columns of the plots -/

/-- the columns `impact_down`, `impact_up` made from the two bins of `downUpVar`
(bin/rabbit_plot_pulls_and_impacts.py:704-705 and 825-826) -/
def impactColumns (slots : V × V) : V × V := (slots.2, slots.1)

/-- the columns `constraint_down`, `constraint_up` (bin/rabbit_plot_pulls_and_impacts.py:732-733 and 846-847) -/
def constraintColumns [Neg V] (slots : V × V) : V × V := (-slots.2, slots.1)

end Verif.IoTools
