import Verif.Model.Tensor
import Mathlib.Algebra.Field.Basic

/-
Plots of covariance and correlation matrices (bin/rabbit_plot_cov.py).
Histograms are tensors (contents without flow bins), `sqrt` is a parameter.  Not modelled: drawing, titles, labels of axes, log files; plots made
before an exception are not kept.
-/

namespace Verif.CovPlot

open Verif.Grid

variable {V : Type}

/-- the options that are used -/
structure Args where
  correlation : Bool := false
  dataCovariance : Bool := false
  prefit : Bool := false
  selectionAxes : List String := []
  post : String := ""
  preliminary : Bool := false

/-- `"_".join(filter(lambda x: x, parts))` (rabbit_plot_cov.py:144) -/
def joinNames (parts : List String) : String := "_".intercalate (parts.filter (· ≠ ""))

/-- the name of the file of a plot (rabbit_plot_cov.py:131-146); missing channel, axes or suffix are empty strings (an empty list of names is
joined to the empty string and left out too) -/
def fileName (a : Args) (channel : String) (axes : List String) (suffix : String) : String :=
  joinNames ["hist_" ++ (if a.correlation then "corr" else "cov"),
    if a.dataCovariance then "data" else if a.prefit then "prefit" else "postfit", channel, "_".intercalate axes, suffix, a.post] ++
  (if a.preliminary then "_preliminary" else "")

section
variable [Field V]

/-- contents with more than two axes are brought to the form of a matrix (rabbit_plot_cov.py:85-87, 327-331) -/
def flatten (t : Tensor V) : Res (Tensor V) :=
  if 2 < t.shape.length then t.reshape [(t.shape.take (t.shape.length / 2)).prod, (t.shape.take (t.shape.length / 2)).prod] else .ok t

/-- `matrix / np.outer(std_dev, std_dev)` with `std_dev = np.sqrt(np.diag(matrix))` (rabbit_plot_cov.py:89-91) -/
def correlation (sqrt : V → V) (t : Tensor V) : Tensor V :=
  ⟨t.shape, fun ix => t.val ix / (sqrt (t.val [ix.getD 0 0, ix.getD 0 0]) * sqrt (t.val [ix.getD 1 0, ix.getD 1 0]))⟩

/-- the matrix that is drawn (`plot_matrix`, rabbit_plot_cov.py:82-92) -/
def plotMatrix (sqrt : V → V) (a : Args) (t : Tensor V) : Res (Tensor V) :=
  (flatten t).map fun t => if a.correlation then correlation sqrt t else t

/-- the part of the covariance of the parameters that is plotted, with the labels of its rows (rabbit_plot_cov.py:186-208): for unknown parameters
the list of names is indexed with an array, which is a `TypeError` -/
def paramCov (parms : List String) (cov : Nat → Nat → V) (req : List String) : Res (Option (List String) × Tensor V) :=
  if req = [] then .ok (none, ⟨[parms.length, parms.length], fun ix => cov (ix.getD 0 0) (ix.getD 1 0)⟩)
  else if ¬ ∀ p ∈ req, p ∈ parms then .error .type
  else
    let idx := req.map fun p => parms.idxOf p
    .ok (some (idx.map fun k => parms.getD k ""), ⟨[idx.length, idx.length], fun ix => cov (idx.getD (ix.getD 0 0) 0) (idx.getD (ix.getD 1 0) 0)⟩)

/-- the mappings that are plotted (rabbit_plot_cov.py:229-237) -/
def instanceKeys (keys : List String) (margs : List String) : Res (List String) :=
  if margs = [] then .ok keys
  else
    let ks := keys.filter fun k => (" ".intercalate margs).toList.isPrefixOf k.toList
    if ks = [] then .error .value else .ok ks

/-- the mappings of all requests (rabbit_plot_cov.py:227-239); without `-m` the list of requests is empty (rabbit_plot_cov.py:28-39) -/
def plottedKeys (keys : List String) (requests : List (List String)) : Res (List String) :=
  (requests.mapM (instanceKeys keys)).map List.flatten

/-- `h_cov[start:stop, start:stop]` of a histogram (rabbit_plot_cov.py:293): two indices need two axes; the end is clipped -/
def block (t : Tensor V) (start stop : Nat) : Res (Tensor V) :=
  match t.shape with
  | [n, m] => .ok ⟨[min stop n - start, min stop m - start], fun ix => t.val [start + ix.getD 0 0, start + ix.getD 1 0]⟩
  | _ => .error .index

/-- a channel of a mapping in the results: the axes of its histogram and its own covariance, if stored -/
structure Ch (V : Type) where
  axes : List (String × Nat)
  cov : Option (Tensor V) := none

/-- a mapping in the results: the covariance of all channels, if stored -/
structure Inst (V : Type) where
  cov : Option (Tensor V) := none
  channels : Dict String (Ch V)

/-- the indices of one half of the axes at fixed bins of the selection axes (rabbit_plot_cov.py:344-347, 358): other axes are taken completely -/
def picks (sel : List String) : List (String × Nat) → List Nat → List Pick
  | [], _ => []
  | (a, _) :: as, bs => if a ∈ sel then .int (bs.headD 0) :: picks sel as bs.tail else .slc none none none :: picks sel as bs

/-- the covariance at fixed bins of the selection axes (rabbit_plot_cov.py:314-336, 358) -/
def binCov (sel : List String) (axes : List (String × Nat)) (cov : Tensor V) (bins : List Nat) : Res (Tensor V) :=
  (flatten cov).bind fun c =>
  (c.reshape (c.shape.headD 0 :: axes.map (·.2))).bind fun v =>
  (v.reshape (axes.map (·.2) ++ axes.map (·.2))).bind fun h =>
  h.index (picks sel axes bins ++ picks sel axes bins)

/-- the suffix of a plot in bins of the selection axes (rabbit_plot_cov.py:348-364); `text` writes the center or edge of a bin -/
def binName (text : String → Nat → String) (channel : String) (sel : List (String × Nat)) (bins : List Nat) : String :=
  channel ++ "_" ++ "_".intercalate (List.zipWith (fun x i => x.1 ++ "_" ++ text x.1 i) sel bins)

/-- the plot at fixed bins of the selection axes (rabbit_plot_cov.py:341-374).  Without other axes the histogram becomes a number, which has no
`values`. -/
def binPlot (sqrt : V → V) (text : String → Nat → String) (a : Args) (channel : String) (axes : List (String × Nat)) (cov : Tensor V)
    (bins : List Nat) : Res (String × Tensor V) :=
  let other := axes.filter fun x => x.1 ∉ a.selectionAxes
  (binCov a.selectionAxes axes cov bins).bind fun t =>
    if other = [] then .error .attr
    else (plotMatrix sqrt a t).map fun m =>
      (fileName a channel (other.map (·.1)) (binName text channel (axes.filter fun x => x.1 ∈ a.selectionAxes) bins), m)

/-- the plots in the bins of the selection axes (rabbit_plot_cov.py:310-374), with the suffix that is left in the variable of that name -/
def binPlots (sqrt : V → V) (text : String → Nat → String) (a : Args) (channel : String) (axes : List (String × Nat)) (cov : Tensor V)
    (suffix : String) : Res (List (String × Tensor V) × String) :=
  let sel := axes.filter fun x => x.1 ∈ a.selectionAxes
  if sel = [] then .ok ([], suffix)
  else ((grid (sel.map (·.2))).mapM (binPlot sqrt text a channel axes cov)).map fun ps =>
    (ps, ((grid (sel.map (·.2))).getLast?.map (binName text channel sel)).getD suffix)

/-- the loop over the channels (rabbit_plot_cov.py:264-374): `hcov` and `suffix` are variables of the loop; `multi` is whether there is more than one
channel -/
def channelLoop (sqrt : V → V) (text : String → Nat → String) (a : Args) (multi : Bool) :
    Dict String (Ch V) → Option (Tensor V) → Nat → String → Res (List (String × Tensor V))
  | [], _, _, _ => .ok []
  | (channel, ch) :: rest, none, start, suffix =>
    match ch.cov with
    | none => .error .value
    | some c =>
      (plotMatrix sqrt a c).bind fun m =>
      (binPlots sqrt text a channel ch.axes c suffix).bind fun ps =>
      (channelLoop sqrt text a multi rest (some c) start ps.2).map fun r => (fileName a channel (ch.axes.map (·.1)) suffix, m) :: (ps.1 ++ r)
  | (channel, ch) :: rest, some h, start, suffix =>
    if multi then
      let stop := start + (ch.axes.map (·.2)).prod
      (block h start stop).bind fun c =>
      (plotMatrix sqrt a c).bind fun m =>
      (binPlots sqrt text a channel ch.axes c suffix).bind fun ps =>
      (channelLoop sqrt text a multi rest (some h) stop ps.2).map fun r => (fileName a channel (ch.axes.map (·.1)) suffix, m) :: (ps.1 ++ r)
    else
      (binPlots sqrt text a channel ch.axes h suffix).bind fun ps =>
      (channelLoop sqrt text a multi rest (some h) start ps.2).map fun r => ps.1 ++ r

/-- all plots of a mapping (rabbit_plot_cov.py:251-374), with the suffix made from its key -/
def instancePlots (sqrt : V → V) (text : String → Nat → String) (a : Args) (suffix : String) (i : Inst V) : Res (List (String × Tensor V)) :=
  match i.cov with
  | none => channelLoop sqrt text a (decide (1 < i.channels.length)) i.channels none 0 suffix
  | some h =>
    (plotMatrix sqrt a h).bind fun m =>
    (channelLoop sqrt text a (decide (1 < i.channels.length)) i.channels (some h) 0 suffix).map fun r => (fileName a "" [] suffix, m) :: r

end

end Verif.CovPlot
