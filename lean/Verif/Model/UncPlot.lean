import Verif.Model.HistPlot

/-
Plots of the uncertainties of histograms by source: bin/rabbit_plot_hists_uncertainties.py.

Simplifications: histograms as in Model/IoTools.lean; square root is a parameter; `divideHists(…, rel_unc=True)` of wums divides values by those of the
prediction and variances by their square (bins without prediction are not treated apart), `scaleHist` multiplies variances by the square of the factor; of the
user's configuration module only the grouping asked for is kept (labels of systematics, of selections and axes are text); `unrolledHist` of wums and drawing
are not modelled.  Mappings, channels and suffixes are chosen as in rabbit_plot_hists.py (`HistPlot.plotted`, `HistPlot.suffixOf`;
rabbit_plot_hists_uncertainties.py:411-444 repeats these lines).
-/

namespace Verif.UncPlot

open Verif.IoTools (Hist)

variable {V : Type}

/-- options: `--absolute`, `--flterUncertainties`, `--selectionAxes`, `--impactType` and the entry of the configuration under `--grouping` -/
structure Opts where
  absolute : Bool := false
  filter : Option (List String) := none
  selection : List String := ["charge", "passIso", "passMT", "cosThetaStarll", "qGen"]
  gaussian : Bool := false
  grouping : Option (List String) := none
  noUncertainty : Bool := false

/-- name of the histogram of impacts (rabbit_plot_hists_uncertainties.py:270, 446) -/
def impactsName (gaussian : Bool) : String := "hist_postfit_inclusive_" ++ ((if gaussian then "gaussian_global" else "global") ++ "_impacts_grouped")

section
variable [Field V]

/-- `hh.divideHists(h, total, rel_unc=True)`: further axes of the first histogram come last -/
def divide (h total : Hist V) : Hist V :=
  let n := total.axes.length
  { h with val := fun ix => h.val ix / total.val (ix.take n), var := fun ix => h.var ix / total.val (ix.take n) ^ 2 }

/-- `hh.scaleHist(h, c)` -/
def scale (c : V) (h : Hist V) : Hist V := { h with val := fun ix => h.val ix * c, var := fun ix => h.var ix * c ^ 2 }

/-- impacts as they are drawn (rabbit_plot_hists_uncertainties.py:284-288) -/
def impactsOf (absolute : Bool) (h total : Hist V) : Hist V := if absolute then h else scale 100 (divide h total)

/-- the total uncertainty as it is drawn (rabbit_plot_hists_uncertainties.py:284-295) -/
def totalOf (sqrt : V → V) (absolute : Bool) (total : Hist V) : Hist V :=
  let t := if absolute then total else divide total total
  let t := { t with val := fun ix => sqrt (t.var ix) }
  if absolute then t else scale 100 t

end

/-- the categories of the impacts (rabbit_plot_hists_uncertainties.py:279-282) -/
def stored : Option (Hist V) → Res (List String)
  | none => .ok []
  | some h => h.axis "impacts"

/-- the sources of uncertainty (rabbit_plot_hists_uncertainties.py:279-282, 297-300) -/
def sources (filter : Option (List String)) (h : Option (Hist V)) : Res (List String) := (stored h).map fun us => match filter with
  | none => us
  | some f => us.filter fun u => decide (u ∈ f)

/-- a curve: its label (before translation), its colour, its histogram -/
structure Line (V : Type) where
  label : String
  color : Nat
  hist : Hist V

/-- `grouping is not None and l not in grouping` is passed over (rabbit_plot_hists_uncertainties.py:160-161) -/
def drawn (grouping : Option (List String)) (l : String) : Bool := match grouping with
  | none => true
  | some g => decide (l ∈ g)

/-- number of colours of the map (rabbit_plot_hists_uncertainties.py:151-152): `tab10` or `tab20` -/
def colors (ncols : Nat) : Nat := if ncols ≤ 10 then 10 else 20

/-- one curve (rabbit_plot_hists_uncertainties.py:164-186): with no axis left but that of the impacts a number has no `value` (storage of impacts is plain) -/
def line (h : Hist V) (n icol : Nat) (u : String) : Res (Line V) :=
  (h.pick "impacts" u).bind fun g => if h.axes.length = 1 then .error .attr else .ok ⟨u, icol % n, g⟩

/-- the loop over the sources (rabbit_plot_hists_uncertainties.py:153-186); without impacts there is no source -/
def lines (grouping : Option (List String)) (h : Option (Hist V)) (n : Nat) : Nat → List String → Res (List (Line V))
  | _, [] => .ok []
  | icol, u :: us =>
    if drawn grouping u then match h with
      | none => .error .type
      | some h => (line h n (icol + 1) u).bind fun l => (lines grouping (some h) n (icol + 1) us).map fun r => l :: r
    else lines grouping h n icol us

/-- a plot: bins of the selection axes, curves and the total uncertainty -/
structure Plot (V : Type) where
  bins : List (String × Nat)
  lines : List (Line V)
  total : Option (Hist V)

/-- number of entries (rabbit_plot_hists_uncertainties.py:151) -/
def ncols (grouping : Option (List String)) (us : List String) : Nat := match grouping with
  | some g => g.length
  | none => us.length

/-- the total uncertainty is drawn with a grouping that names it (rabbit_plot_hists_uncertainties.py:188-204) -/
def totalLine (grouping : Option (List String)) (total : Hist V) : Option (Hist V) := match grouping with
  | some g => if "Total" ∈ g then some total else none
  | none => none

/-- `make_plot` (rabbit_plot_hists_uncertainties.py:148-204) -/
def plot (grouping : Option (List String)) (us : List String) (t : List (String × Nat)) (h : Option (Hist V)) (total : Hist V) : Res (Plot V) :=
  (lines grouping h (colors (ncols grouping us)) 0 us).map fun l => ⟨t, l, totalLine grouping total⟩

/-- `hist_impacts[idxs] if hist_impacts else None` (rabbit_plot_hists_uncertainties.py:329) -/
def takeOpt (t : List (String × Nat)) : Option (Hist V) → Res (Option (Hist V))
  | none => .ok none
  | some h => (HistPlot.takeBins t h).map some

/-- the plot of one choice of bins (rabbit_plot_hists_uncertainties.py:310-369) -/
def slice (grouping : Option (List String)) (us : List String) (h : Option (Hist V)) (total : Hist V) (t : List (String × Nat)) : Res (Plot V) :=
  (takeOpt t h).bind fun h => (HistPlot.takeBins t total).bind fun total => plot grouping us t h total

/-- `make_plots` (rabbit_plot_hists_uncertainties.py:259-384) -/
def breakdown [Field V] (sqrt : V → V) (o : Opts) (res : Dict String (Hist V)) : Res (List (Plot V)) :=
  let imp := res.get? (impactsName o.gaussian)
  (Dict.get res "hist_postfit_inclusive").bind fun total =>
    (sources o.filter imp).bind fun us =>
      let imp := imp.map fun h => impactsOf o.absolute h total
      let sel := total.axes.filter fun a => decide (a.1 ∈ o.selection)
      if sel = [] then (plot o.grouping us [] imp (totalOf sqrt o.absolute total)).map fun p => [p]
      else (HistPlot.binTuples (sel.map fun a => (a.1, a.2.length))).mapM (slice o.grouping us imp (totalOf sqrt o.absolute total))

/-- name of a file (rabbit_plot_hists_uncertainties.py:137-140, 232-235), without `--subtitle Preliminary` -/
def fileName (o : Opts) (invert : Bool) (tag : List Char) (axes : List String) (suffix : List Char) : List Char :=
  let axes := if axes.length > 1 && invert then axes.reverse else axes
  HistPlot.joinSome (["uncertainties".toList, tag] ++ axes.map String.toList ++ [suffix]) ++ (if o.absolute then "_absolute".toList else [])

end Verif.UncPlot
