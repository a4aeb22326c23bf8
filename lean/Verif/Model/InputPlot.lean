import Verif.Model.HistPlot

/-
Plots of the inputs of a fit (bin/rabbit_plot_inputdata.py).
Simplifications: a histogram is its axes with their numbers of bins and a function of the named bins; flow bins are empty, the uncertainties and the widths of
the bins are left out; an unrolled histogram (`unrolledHist` of wums) lists the bins in the order of the given axes; the user's configuration module is empty
except for labels of systematics; ratio panels, colours and drawing are left out.  Options name an axis once.
-/

namespace Verif.InputPlot

open Verif.HistPlot (binTuples)

variable {V : Type}

/-- a histogram -/
structure H (V : Type) where
  axes : List (String × Nat)
  val : (String → Nat) → V

/-- bins of some axes replaced -/
def over (t : List (String × Nat)) (a : String → Nat) : String → Nat := fun s => (t.lookup s).getD (a s)

/-- `h[{name: i}]` -/
def takeBin (h : H V) (x : String × Nat) : Res (H V) := match h.axes.lookup x.1 with
  | none => .error .value
  | some n => if x.2 < n then .ok ⟨h.axes.filter fun a => a.1 ≠ x.1, fun a => h.val (over [x] a)⟩ else .error .index

/-- `h[idxs]` -/
def takeBins (h : H V) (t : List (String × Nat)) : Res (H V) := t.foldlM takeBin h

/-- axes with their numbers of bins -/
def sized (h : H V) (names : List String) : List (String × Nat) := names.map fun n => (n, (h.axes.lookup n).getD 0)

/-- contents of `h.project(*names)` or `unrolledHist(h, obs=names)` (rabbit_plot_inputdata.py:216-219): the sum over all other axes -/
def flat [AddCommMonoid V] (names : List String) (h : H V) : Res (List V) :=
  if names.all fun n => (h.axes.lookup n).isSome then
    .ok ((binTuples (sized h names)).map fun t => ((binTuples (h.axes.filter fun a => a.1 ∉ names)).map fun r => h.val (over (t ++ r) fun _ => 0)).sum)
  else .error .key

/-- `itertools.combinations(l, k)` -/
def combinations {α : Type} : Nat → List α → List (List α)
  | 0, _ => [[]]
  | _ + 1, [] => []
  | k + 1, a :: l => (combinations k l).map (a :: ·) ++ combinations (k + 1) l

/-- all combinations of axes (rabbit_plot_inputdata.py:121-130) -/
def axesCombinations (invert : Bool) (names : List String) : List (List String) :=
  let names := if invert then names.reverse else names
  names.map ([·]) ++ ((List.range (names.length + 1)).drop 2).flatMap fun k => combinations k names

/-- equality as sets -/
def sameSet (a b : List String) : Bool := a.all (b.contains ·) && b.all (a.contains ·)

/-- `--hists` (rabbit_plot_inputdata.py:136-138): none or an empty list are no filter -/
def requested (hists : Option (List (List Char))) (names : List String) : Bool := match hists with
  | none => true
  | some [] => true
  | some l => l.any fun h => sameSet names ((Datacard.splitOn '-' h).map String.ofList)

/-- the options -/
structure Args where
  invertAxes : Bool := false
  noData : Bool := false
  noStack : Bool := false
  splitByProcess : Bool := false
  oneSided : Bool := false
  normToData : Bool := false
  processes : List String := []
  channels : Option (List String) := none
  selectionAxes : List String := ["charge", "passIso", "passMT"]
  select : List Nat := []
  hists : Option (List (List Char)) := none
  fileTag : List Char := []

/-- a drawn variation: label, solid and dashed curve -/
structure Curve (V : Type) where
  label : String
  solid : List V
  dashed : Option (List V)

/-- a plot; `label` belongs to the line of the prediction, which is drawn without a stack -/
structure Plot (V : Type) where
  file : List Char
  stack : List (String × List V)
  label : Option String
  pred : List V
  data : Option (List V)
  curves : List (Curve V)

/-- templates of a systematic for all processes -/
structure Syst (V : Type) where
  axes : List (String × Nat)
  val : String → (String → Nat) → V

/-- one process: `h[{"processes": p}]` -/
def Syst.one (s : Syst V) (p : String) : H V := ⟨s.axes, s.val p⟩

/-- all processes: `h[{"processes": hist.sum}]` -/
def Syst.all [AddCommMonoid V] (s : Syst V) (procs : List String) : H V := ⟨s.axes, fun a => (procs.map fun p => s.val p a).sum⟩

/-- `h[idxs]` -/
def Syst.takeBins (s : Syst V) (t : List (String × Nat)) : Res (Syst V) :=
  (InputPlot.takeBins (⟨s.axes, fun _ => ()⟩ : H Unit) t).map fun g => ⟨g.axes, fun p a => s.val p (over t a)⟩

/-- sum of the rows of a matrix of `n` columns -/
def sumRows [AddCommMonoid V] (l : List (List V)) : List V := match l with
  | [] => []
  | a :: l => l.foldl (List.zipWith (· + ·)) a

/-- `"_".join` -/
def joinU (l : List (List Char)) : List Char := (List.intersperse ['_'] l).flatten

/-- name of the file (rabbit_plot_inputdata.py:440-450) -/
def fileName (a : Args) (proc : Option String) (names : List String) (channel : String) (sel : Option (List (String × Nat))) : List Char :=
  "hist_".toList ++ (if a.noStack then [] else "stack_".toList) ++ (match proc with | none => [] | some p => p.toList ++ ['_']) ++
    joinU (names.map String.toList) ++ '_' :: channel.toList ++
    (match sel with | none => [] | some t => '_' :: joinU (t.map fun x => x.1.toList ++ Nat.toDigits 10 x.2)) ++
    (if a.fileTag = [] then [] else '_' :: a.fileTag)

section
variable [Field V]

/-- templates of one systematic and its label: what is passed as the seventh and as the eighth argument of `make_plot` -/
structure Var (V : Type) where
  label : String
  seventh : Syst V
  eighth : Syst V

/-- the drawn variations (rabbit_plot_inputdata.py:305-335): the seventh argument is `hists_syst_up`, the eighth `hists_syst_dn`; `scale` is set by
`--normToData` (rabbit_plot_inputdata.py:236-241) -/
def curve (a : Args) (procs : List String) (proc : Option String) (names : List String) (scale : V) (v : Var V) : Res (Curve V) :=
  (flat names (match proc with | some p => v.seventh.one p | none => v.seventh.all procs)).bind fun up =>
  (flat names (match proc with | some p => v.eighth.one p | none => v.eighth.all procs)).map fun dn =>
    ⟨v.label, up.map (· * scale), if a.oneSided then none else some (dn.map (· * scale))⟩

/-- contents of one process -/
def stackOne (names : List String) (x : String × H V) : Res (String × List V) := (flat names x.2).map fun l => (x.1, l)

/-- contents of the data -/
def dataOf (names : List String) (data : Option (H V)) : Res (Option (List V)) := match data with
  | none => .ok none
  | some d => (flat names d).map some

/-- `--normToData` without data reads a variable that was not assigned (rabbit_plot_inputdata.py:226-227, 236-237) -/
def scaleOf (a : Args) (data : Option (List V)) (pred : List V) : Res V :=
  if a.normToData then match data with
    | none => .error .exception
    | some d => .ok (d.sum / pred.sum)
  else .ok 1

/-- `make_plot` for all processes together (rabbit_plot_inputdata.py:180-458); `procs` are all processes of the inputs, `hs` those that are plotted -/
def plotAll (a : Args) (procs : List String) (hs : List (String × H V)) (data : Option (H V)) (vars : List (Var V)) (channel : String)
    (sel : Option (List (String × Nat))) (names : List String) : Res (Plot V) :=
  (hs.mapM (stackOne names)).bind fun st => (dataOf names data).bind fun d =>
  let pred := sumRows (st.map (·.2))
  (scaleOf a d pred).bind fun s => (vars.mapM (curve a procs none names s)).map fun cs =>
    ⟨fileName a none names channel sel, if a.noStack then [] else st.map fun x => (x.1, x.2.map (· * s)), if a.noStack then some "Prediction" else none,
      pred.map (· * s), d, cs⟩

/-- `make_plot` for one process (rabbit_plot_inputdata.py:144-161): `labels` is the label of the process, of which `labels[0]` is taken -/
def plotOne (a : Args) (procs : List String) (vars : List (Var V)) (channel : String) (sel : Option (List (String × Nat))) (names : List String)
    (x : String × H V) : Res (Plot V) :=
  (flat names x.2).bind fun p => match x.1.toList with
    | [] => .error .index
    | c :: _ => (vars.mapM (curve a procs (some x.1) names 1)).map fun cs =>
      ⟨fileName a (some x.1) names channel sel, [], some (String.ofList [c]), p, none, cs⟩

open Classical in
/-- processes without any entry are passed over (rabbit_plot_inputdata.py:145-147) -/
noncomputable def isEmpty (h : H V) : Bool := decide (∀ t ∈ binTuples h.axes, h.val (over t fun _ => 0) = 0)

/-- the plots of one combination of axes (rabbit_plot_inputdata.py:132-177) -/
noncomputable def plotsOf (a : Args) (procs : List String) (hs : List (String × H V)) (data : Option (H V)) (vars : List (Var V)) (channel : String)
    (sel : Option (List (String × Nat))) (names : List String) : Res (List (Plot V)) :=
  if a.splitByProcess then (hs.filter fun x => !isEmpty x.2).mapM (plotOne a procs vars channel sel names)
  else (plotAll a procs hs data vars channel sel names).map ([·])

/-- `make_plots` (rabbit_plot_inputdata.py:107-177); without axes the histograms are numbers, without processes there is no first one -/
noncomputable def makePlots (a : Args) (procs : List String) (hs : List (String × H V)) (data : Option (H V)) (vars : List (Var V)) (channel : String)
    (sel : Option (List (String × Nat))) : Res (List (Plot V)) := match hs with
  | [] => .error .index
  | x :: _ =>
    if sel.isSome ∧ x.2.axes = [] then .error .attr
    else (((axesCombinations a.invertAxes (x.2.axes.map (·.1))).filter (requested a.hists)).mapM (plotsOf a procs hs data vars channel sel)).map List.flatten

/-- a channel of the inputs (`FitDebugData`): templates of the processes, of the systematics (down, up), data unless masked -/
structure Chan (V : Type) where
  name : String
  axes : List (String × Nat)
  nominal : String → (String → Nat) → V
  down : String → String → (String → Nat) → V
  up : String → String → (String → Nat) → V
  data : Option ((String → Nat) → V)

/-- the systematics that are drawn, with colours and labels (rabbit_plot_inputdata.py:475-486) -/
def chosenSysts (systs : List String) (labelOf : String → String) : List String → List String → List String → List (String × String × String)
  | [], _, _ => []
  | s :: ss, cs, ls =>
    (if s ∈ systs then [(s, cs.headD "black", ls.headD (labelOf s))] else []) ++ chosenSysts systs labelOf ss cs.tail ls.tail

/-- the processes that are plotted (rabbit_plot_inputdata.py:501-508) -/
def chosenProcs (procs request : List String) : List String := if request = [] then procs else request.filter (· ∈ procs)

/-- `selection_axes` (rabbit_plot_inputdata.py:555-559): in the order of the option -/
def selectionAxes (a : Args) (axes : List (String × Nat)) : List (String × Nat) :=
  a.selectionAxes.filterMap fun n => (axes.lookup n).map fun s => (n, s)

/-- the bins of the slices (rabbit_plot_inputdata.py:562-570): in the order of the axes -/
def binCombinations (a : Args) (axes : List (String × Nat)) : List (List Nat) :=
  if a.select ≠ [] then [a.select] else Grid.grid ((axes.filter fun x => x.1 ∈ a.selectionAxes).map (·.2))

/-- a template in a slice -/
def sliceProc (c : Chan V) (idxs : List (String × Nat)) (p : String) : Res (String × H V) := (takeBins ⟨c.axes, c.nominal p⟩ idxs).map fun h => (p, h)

/-- the data in a slice -/
def sliceData (data : Option (H V)) (idxs : List (String × Nat)) : Res (Option (H V)) := match data with
  | none => .ok none
  | some d => (takeBins d idxs).map some

/-- a systematic in a slice: the templates go to `make_plots` as down, up (rabbit_plot_inputdata.py:586-598) -/
def sliceVar (c : Chan V) (idxs : List (String × Nat)) (s : String × String × String) : Res (Var V) :=
  ((⟨c.axes, c.down s.1⟩ : Syst V).takeBins idxs).bind fun dn => ((⟨c.axes, c.up s.1⟩ : Syst V).takeBins idxs).map fun up => ⟨s.2.2, dn, up⟩

/-- the plots of one slice (rabbit_plot_inputdata.py:572-603) -/
noncomputable def slicePlots (a : Args) (procs : List String) (c : Chan V) (chosen : List String) (data : Option (H V))
    (systs : List (String × String × String)) (bins : List Nat) : Res (List (Plot V)) :=
  let idxs := ((selectionAxes a c.axes).map (·.1)).zip bins
  (chosen.mapM (sliceProc c idxs)).bind fun hs => (sliceData data idxs).bind fun d => (systs.mapM (sliceVar c idxs)).bind fun vs =>
    makePlots a procs hs d vs c.name (some idxs)

/-- the plots of one channel (rabbit_plot_inputdata.py:492-620) -/
noncomputable def channelPlots (a : Args) (procs : List String) (systs : List (String × String × String)) (c : Chan V) : Res (List (Plot V)) :=
  let chosen := chosenProcs procs a.processes
  let data : Option (H V) := if a.noData || a.splitByProcess then none else c.data.map fun d => ⟨c.axes, d⟩
  if chosen = [] then .error .index
  else if selectionAxes a c.axes = [] then
    makePlots a procs (chosen.map fun p => (p, ⟨c.axes, c.nominal p⟩)) data (systs.map fun s => ⟨s.2.2, ⟨c.axes, c.down s.1⟩, ⟨c.axes, c.up s.1⟩⟩) c.name none
  else ((binCombinations a c.axes).mapM (slicePlots a procs c chosen data systs)).map List.flatten

/-- all plots (rabbit_plot_inputdata.py:492-620) -/
noncomputable def allPlots (a : Args) (procs : List String) (systs : List (String × String × String)) (chans : List (Chan V)) : Res (List (Plot V)) :=
  ((chans.filter fun c => match a.channels with | none => true | some l => decide (c.name ∈ l)).mapM (channelPlots a procs systs)).map List.flatten

end

end Verif.InputPlot
