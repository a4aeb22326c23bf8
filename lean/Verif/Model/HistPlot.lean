import Verif.Model.IoTools
import Verif.Model.Shapes
import Verif.Model.RunOutput
import Mathlib.Algebra.Field.Defs

/-
Plots of predictions and data: bin/rabbit_plot_hists.py:1216-1723 and the numbers of `make_plot` (bin/rabbit_plot_hists.py:408-411, 555-625, 847-1020, 1185-1188), with
`add_chi2` of rabbit/workspace.py:216-224.

Simplifications: histograms as in Model/IoTools.lean (numbered bins are labelled by their numbers); square root is a parameter; the user's configuration
module is empty except for labels of systematics; histograms are one-dimensional in the panels (`unrolledHist` of wums is not modelled); drawing, legends,
text and colours are left out.
-/

namespace Verif.HistPlot

open Verif.IoTools (Hist)

variable {V : Type}

/-! ### Test statistics -/

/-- `--chisq` (the texts for none are a flag) -/
inductive Kind where
  | automatic
  | saturated
  | linear
deriving DecidableEq

/-- what is read from a dictionary of results: whether parameters were profiled, twice the likelihood is `2 * nll`, values by their keys -/
structure Stats (V : Type) where
  profile : Option Bool := none
  nll : Option V := none
  ndfsat : Option Int := none
  chi2 : Dict String V := []
  ndf : Dict String Int := []

/-- `add_chi2` (rabbit/workspace.py:216-224) -/
def addChi2 (prefit saturated : Bool) (chi2 : V) (ndf : Int) (r : Stats V) : Stats V :=
  let p := (if prefit then "_prefit" else "") ++ (if saturated then "_saturated" else "")
  { r with ndf := r.ndf.set ("ndf" ++ p) ndf, chi2 := r.chi2.set ("chi2" ++ p) chi2 }

/-- `ws.results.update(...)` after a fit (bin/rabbit_fit.py:676-683) -/
def addFit (profile : Bool) (nll : V) (ndfsat : Int) (r : Stats V) : Stats V := { r with profile := some profile, nll := some nll, ndfsat := some ndfsat }

/-- `get_chi2` (rabbit_plot_hists.py:1488-1526) -/
def getChi2 [Field V] (r : Stats V) (noChi2 prefit : Bool) (kind : Kind) : Res (Option V × Option Int × Bool) :=
  if noChi2 then .ok (none, none, false)
  else if prefit then
    if kind = .saturated then .error .runtime else .ok (r.chi2.get? "chi2_prefit", r.ndf.get? "ndf_prefit", false)
  else if kind = .linear then .ok (r.chi2.get? "chi2", r.ndf.get? "ndf", false)
  else match r.profile.getD false, r.nll with
    | true, some nll => match r.ndfsat with
      | some n => .ok (some (2 * nll), some n, true)
      | none => .error .key
    | _, _ =>
      if r.chi2.has "chi2_saturated" then .ok (r.chi2.get? "chi2_saturated", r.ndf.get? "ndf_saturated", true)
      else if kind = .automatic then .ok (r.chi2.get? "chi2", r.ndf.get? "ndf", false)
      else .error .value

/-- the statistic of a mapping (rabbit_plot_hists.py:1628-1644): from the results of the fit or from those of the mapping -/
def chi2Of [Field V] (top inst : Stats V) (key : String) (noChi2 prefit : Bool) (kind : Kind) : Res (Option V × Option Int × Bool) :=
  getChi2 (if !prefit && (key == "BaseMapping" && kind ≠ .linear) then top else inst) noChi2 prefit kind

/-! ### Mappings and channels -/

/-- the keys of the mappings asked for (rabbit_plot_hists.py:1609-1618): an empty request means all, but the command line has no empty request -/
def instanceKeys (keys : List String) (margs : List String) : Res (List String) :=
  if margs = [] then .ok keys
  else
    let l := keys.filter fun k => (" ".intercalate margs).toList.isPrefixOf k.toList
    if l = [] then .error .value else .ok l

/-- channels that are not passed over (rabbit_plot_hists.py:1646-1648) -/
def allowed (channels : Option (List String)) (c : String) : Bool := match channels with
  | none => true
  | some cs => decide (c ∈ cs)

/-- mapping and channel of every call of `make_plots`, in order (rabbit_plot_hists.py:1608-1648) -/
def plotted (results : List (String × List String)) (channels : Option (List String)) : List (List String) → Res (List (String × String))
  | [] => .ok []
  | margs :: rest => (instanceKeys (results.map (·.1)) margs).bind fun ks => (plotted results channels rest).bind fun l =>
    .ok ((ks.flatMap fun k => (((Dict.get? results k).getD []).filter (allowed channels)).map fun c => (k, c)) ++ l)

/-- the suffix of the files of a mapping and a channel (rabbit_plot_hists.py:1656-1668) -/
def suffixOf (channel key : String) : List Char :=
  [(" ", "_"), (".", "p"), ("-", "m"), (":", ""), (",", ""), ("slice(None)", ""), ("(", ""), (")", ""), (":", "")].foldl
    (fun s p => Datacard.replaceAll p.1.toList p.2.toList s) (channel.toList ++ '_' :: key.toList)

/-- `"_".join(filter(lambda x: x, l))` -/
def joinSome (l : List (List Char)) : List Char := (List.intersperse ['_'] (l.filter (· ≠ []))).flatten

/-- name of a file (rabbit_plot_hists.py:1185-1188), without `--subtitle Preliminary` -/
def fileName (prefit : Bool) (tag : List Char) (axes : List String) (suffix : List Char) (normalized : Bool) : List Char :=
  joinSome ([(if prefit then "prefit" else "postfit").toList, tag] ++ axes.map String.toList ++ [suffix]) ++ (if normalized then "_normalized".toList else [])

/-! ### Processes -/

/-- the processes of the plot (rabbit_plot_hists.py:1580-1582) -/
def procsOf (procs : List String) (filter : Option (List String)) : List String := match filter with
  | none => procs.reverse
  | some f => procs.reverse.filter fun p => decide (p ∈ f)

/-- histogram and label of one process -/
def stackOne (h : Hist V) (suppress : List String) (p : String) : Res (Option String × Hist V) :=
  (h.pick "processes" p).map fun g => (if p ∈ suppress then none else some p, g)

/-- the stack (rabbit_plot_hists.py:1254-1258) with its labels (1276-1278, without grouping) -/
def stackOf (res : Dict String (Hist V)) (prefit : Bool) (procs suppress : List String) : Res (List (Option String × Hist V)) :=
  match res.get? (if prefit then "hist_prefit" else "hist_postfit") with
  | none => .ok []
  | some h => procs.mapM (stackOne h suppress)

/-- where the statistical part of the uncertainties of unfolded cross sections is looked for (rabbit_plot_hists.py:1242) -/
def statName (prefit : Bool) : String := "hist_global_impacts_grouped_" ++ (if prefit then "prefit" else "postfit") ++ "_inclusive"

/-! ### Variations -/

/-- names of the variations, with labels (rabbit_plot_hists.py:1536-1556) -/
def varLabels (syst : String → String) (names : Option (List String)) (groups : List String) (labels : Option (List String)) : Res (Option (List String)) :=
  let all := names.getD [] ++ groups
  if all = [] then .ok labels
  else match labels with
    | none => .ok (some (all.map syst))
    | some l => if l.length ≠ all.length then .error .value else .ok (some l)

/-- `h.project(...)` on the names of the axes that are left: the identity (another order or further axes do not occur) -/
def project (axes : List String) (h : Hist V) : Res (Hist V) := if h.axes.map (·.1) = axes then .ok h else .error .value

/-- prediction of a file up and down by its uncertainty (rabbit_plot_hists.py:1288-1301): down, up -/
def fileVar [Field V] (sqrt : V → V) (f : Dict String (Hist V) × Bool) : Res (Hist V × Hist V) :=
  (Dict.get f.1 ((if f.2 then "hist_prefit" else "hist_postfit") ++ "_inclusive")).map fun h =>
    ({ h with val := fun ix => h.val ix - sqrt (h.var ix) }, { h with val := fun ix => h.val ix + sqrt (h.var ix) })

/-- a variation of the nominal file (rabbit_plot_hists.py:1303-1325): down, up -/
def namedVar (hvar : Hist V) (axes : List String) (n : String) : Res (Hist V × Hist V) :=
  ((hvar.pick "downUpVar" "0").bind fun h => (h.pick "vars" n).bind (project axes)).bind fun d =>
    ((hvar.pick "downUpVar" "1").bind fun h => (h.pick "vars" n).bind (project axes)).map fun u => (d, u)

/-- a group of impacts (rabbit_plot_hists.py:1342-1351): down, up -/
def groupVar [Field V] (nominal grouped : Hist V) (axes : List String) (g : String) : Res (Hist V × Hist V) :=
  ((grouped.pick "impacts" g).bind (project axes)).map fun i =>
    ({ nominal with val := fun ix => nominal.val ix - i.val ix }, { nominal with val := fun ix => nominal.val ix + i.val ix })

/-- fit types of the files of variations (rabbit_plot_hists.py:1282-1283) -/
def fitTypes (types : List Bool) (n : Nat) : List Bool := match types with
  | [t] => List.replicate n t
  | l => l

/-- variations by name from the files and the nominal file (rabbit_plot_hists.py:1285-1325) -/
def namedVars [Field V] (sqrt : V → V) (res : Dict String (Hist V)) (prefit correlated : Bool) (axes : List String) (files : List (Dict String (Hist V)))
    (types : List Bool) (names : List String) : Res (List (Hist V × Hist V)) :=
  ((files.zip (fitTypes types files.length)).mapM (fileVar sqrt)).bind fun a =>
    if files.length < names.length then
      (Dict.get res ((if prefit then "hist_prefit" else "hist_postfit") ++ "_inclusive_variations" ++ (if correlated then "_correlated" else ""))).bind fun hv =>
        ((names.drop files.length).mapM (namedVar hv axes)).map fun b => a ++ b
    else .ok a

/-- variations by group (rabbit_plot_hists.py:1327-1351) -/
def groupVars [Field V] (res : Dict String (Hist V)) (prefit : Bool) (nominal : Hist V) (axes : List String) (groups : List String) :
    Res (List (Hist V × Hist V)) :=
  if groups = [] then .ok []
  else match res.get? ((if prefit then "hist_prefit" else "hist_postfit") ++ "_inclusive_global_impacts_grouped") with
    | none => .error .value
    | some hg => (hg.axis "impacts").bind fun av =>
      if groups.all fun g => decide (g ∈ av) then groups.mapM (groupVar nominal hg axes) else .error .value

/-- all variations (rabbit_plot_hists.py:1280-1354): down, up -/
def variations [Field V] (sqrt : V → V) (res : Dict String (Hist V)) (prefit correlated : Bool) (files : List (Dict String (Hist V))) (types : List Bool)
    (names : Option (List String)) (groups : List String) : Res (Option (List (Hist V × Hist V))) :=
  (Dict.get res ((if prefit then "hist_prefit" else "hist_postfit") ++ "_inclusive")).bind fun nominal =>
    let axes := nominal.axes.map (·.1)
    match names, groups with
    | none, [] => .ok none
    | none, gs => (groupVars res prefit nominal axes gs).map some
    | some ns, gs => (namedVars sqrt res prefit correlated axes files types ns).bind fun a => (groupVars res prefit nominal axes gs).map fun b => some (a ++ b)

/-! ### Slices -/

/-- `h[{name: i}]` with a number: the axis is dropped; an unknown axis raises `ValueError`, a number beyond the end `IndexError` -/
def takeBin (h : Hist V) (name : String) (i : Nat) : Res (Hist V) :=
  match h.axes[h.axes.findIdx fun a => a.1 == name]? with
  | none => .error .value
  | some (_, cats) =>
    let k := h.axes.findIdx fun a => a.1 == name
    if i < cats.length then .ok ⟨h.axes.eraseIdx k, fun ix => h.val (ix.insertIdx k i), fun ix => h.var (ix.insertIdx k i)⟩ else .error .index

/-- `h[idxs]` with several numbers -/
def takeBins : List (String × Nat) → Hist V → Res (Hist V)
  | [], h => .ok h
  | (n, i) :: rest, h => (takeBin h n i).bind (takeBins rest)

/-- `itertools.product` of the bins of the axes (rabbit_plot_hists.py:1358-1366), with the names of the axes -/
def binTuples : List (String × Nat) → List (List (String × Nat))
  | [] => [[]]
  | (n, s) :: rest => (List.range s).flatMap fun i => (binTuples rest).map fun t => (n, i) :: t

/-- one plot -/
def sliceOne (h : Hist V) (t : List (String × Nat)) : Res (List (String × Nat) × Hist V) := (takeBins t h).map fun g => (t, g)

/-- the histograms of the single plots (rabbit_plot_hists.py:1356-1408): one for every bin of the selection axes that the histogram has -/
def slices (selection : List String) (h : Hist V) : Res (List (List (String × Nat) × Hist V)) :=
  let sel := h.axes.filter fun a => decide (a.1 ∈ selection)
  if sel = [] then .ok [([], h)]
  else (binTuples (sel.map fun a => (a.1, a.2.length))).mapM (sliceOne h)

/-- suffix of the file of a slice (rabbit_plot_hists.py:1427-1432) -/
def sliceSuffix (channel : List Char) (t : List (String × Nat)) : List Char :=
  channel ++ '_' :: (List.intersperse ['_'] (t.map fun a => a.1.toList ++ '_' :: (Nat.toDigits 10 a.2))).flatten

/-! ### Panels -/

section
variable [Field V]

/-- values of the histograms of a plot -/
structure Panel (V : Type) where
  data : Option (List V)
  stack : List (List V)
  pred : List V
  down : List (List V)
  up : List (List V)

/-- `--normToData` (rabbit_plot_hists.py:408-411) -/
def normToData (p : Panel V) : Panel V := match p.data with
  | none => p
  | some d =>
    let s := d.sum / p.pred.sum
    { p with stack := p.stack.map (List.map (· * s)), pred := p.pred.map (· * s) }

/-- the band in the lower panel (rabbit_plot_hists.py:923-938) in a bin of width `w` -/
def band (diff : Bool) (nom std den w : V) : V × V :=
  let d := if diff then 1 else den / w
  ((nom / w - std / w) / d, (nom / w + std / w) / d)

/-- a scaled variation (rabbit_plot_hists.py:967-975) in one bin -/
def scaleVar (s h den : V) : V := (h - den) * s + den

/-- the denominator of the lower panel (rabbit_plot_hists.py:847) -/
def denominator (ratioToData : Bool) (data pred : V) : V := if ratioToData then data else pred

/-- number of curves of variation `i` in the lower panel (rabbit_plot_hists.py:959-992) -/
def curvesLower (oneSided : List Nat) (i : Nat) : Nat := if oneSided.getD i 0 ≠ 0 then 1 else 2

/-- number of curves of a variation in the upper panel (rabbit_plot_hists.py:558-562, 609-636) -/
def curvesUpper (oneSided : List Nat) : Nat := if oneSided.length = 0 then 2 else 1

end

end Verif.HistPlot
