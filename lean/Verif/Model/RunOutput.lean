import Verif.Model.ResultFile

/-
What a run of bin/rabbit_fit.py stores for one fit (one entry of `--toys`, one set of data), as a function of the options.
Calls of the fitter are taken to succeed except where they read a covariance that does not exist (`--noHessian`) or look for a parameter by name; what
they compute is the subject of other files.  Timing and log output are left out.
-/

namespace Verif.RunOutput

open Verif.ResultFile

/-- options (bin/rabbit_fit.py:42-344, rabbit/parsing.py) -/
structure Opts where
  saveHists : Bool := false
  saveHistsPerProcess : Bool := false
  computeHistErrors : Bool := false
  computeHistErrorsPerProcess : Bool := false
  computeHistCov : Bool := false
  computeHistImpacts : Bool := false
  computeHistGaussianImpacts : Bool := false
  computeVariations : Bool := false
  saturatedTests : Bool := false
  noChi2 : Bool := false
  externalPostfit : Bool := false
  noFit : Bool := false
  doImpacts : Bool := false
  globalImpacts : Bool := false
  gaussianGlobalImpacts : Bool := false
  nonProfiledImpacts : Bool := false
  asymImpacts : Bool := false
  globalAsymImpacts : Bool := false
  warmStart : Bool := false
  lCurveScan : Bool := false
  lCurveOptimize : Bool := false
  noEDM : Bool := false
  noHessian : Bool := false
  fullNll : Bool := false
  prefitOnly : Bool := false
  scanRangeUsePrefit : Bool := false
  scan : Option (List String) := none
  scan2D : Option (List (List String)) := none
  contourScan : Option (List String) := none
  contourScan2D : Bool := false

/-- what is given by the inputs: names of the parameters, whether the likelihood is quadratic, the data come with a covariance (`indata`, `fitter`), an
external fit has a covariance, any nuisance is scanned for asymmetric impacts -/
structure Env where
  parms : List String
  linear : Bool := false
  dataCov : Bool := false
  fitCov : Bool := false
  extCov : Bool := false
  asymScans : Bool := true

/-- a mapping: key, channels with whether they are masked, flags (rabbit/mappings/mapping.py:12-18) -/
structure MapInfo where
  key : String
  channels : List (String × Bool)
  hasData : Bool := true
  skipPrefit : Bool := false
  skipInclusive : Bool := false
  skipPerProcess : Bool := false
  project : Bool := false

/-- what is stored: predictions are with or without variances, scans carry their parameters, everything else is determined by its name -/
inductive Obj where
  | plain
  | hist (variances : Bool)
  | scan (p : String)
  | scan2D (p q : String)
deriving DecidableEq

abbrev Out := Dump Obj

/-- results at the top level -/
def top (names : List String) : List Out := names.map fun n => ⟨none, none, n, .plain⟩

/-- results of a mapping -/
def ofMap (m : MapInfo) (names : List String) : List Out := names.map fun n => ⟨some m.key, none, n, .plain⟩

/-- results of the channels of a mapping -/
def ofChannels (m : MapInfo) (channels : List String) (names : List (String × Obj)) : List Out :=
  channels.flatMap fun c => names.map fun n => ⟨some m.key, some c, n.1, n.2⟩

/-- names with plain contents -/
def plain (names : List String) : List (String × Obj) := names.map fun n => (n, .plain)

/-- `l if c else []` -/
def opt {α : Type} (c : Bool) (l : List α) : List α := if c then l else []

/-- `save_observed_hists` and `add_observed_hists` (rabbit_fit.py:347-362, workspace.py:226-316) -/
def observed (e : Env) (m : MapInfo) : List Out :=
  if m.hasData then
    ofChannels m ((m.channels.filter (!·.2)).map (·.1))
      (plain (["hist_data_obs", "hist_nobs"] ++ opt e.dataCov ["cov_data_obs"] ++ opt e.fitCov ["cov_nobs_obs"]))
  else []

/-- `get_name_label_expected_hists` (workspace.py:34-45) -/
def histName (prefit variations process : Bool) : String :=
  "hist" ++ (if prefit then "_prefit" else "_postfit") ++ (if process then "" else "_inclusive") ++ (if variations then "_variations" else "")

/-- names of `add_chi2` (workspace.py:216-224) -/
def chi2Names (prefit saturated edm : Bool) : List String :=
  let p := (if prefit then "_prefit" else "") ++ (if saturated then "_saturated" else "")
  ["ndf" ++ p, "chi2" ++ p] ++ opt edm ["edmval" ++ p]

/-- the inclusive histograms of a mapping with the saturated test (rabbit_fit.py:373-463, workspace.py:470-591,
fitter.py:1956-2004); variances come with everything that is derived from the covariance -/
def inclusive (o : Opts) (m : MapInfo) (prefit : Bool) : List Out :=
  let n := histName prefit false false
  ofChannels m (m.channels.map (·.1))
    ([(n, .hist (o.computeHistErrors || o.computeHistCov || o.computeHistImpacts || o.computeHistGaussianImpacts))] ++
      plain (opt o.computeHistImpacts [n ++ "_global_impacts", n ++ "_global_impacts_grouped"]) ++
      plain (opt o.computeHistGaussianImpacts [n ++ "_gaussian_global_impacts", n ++ "_gaussian_global_impacts_grouped"])) ++
  ofMap m (opt o.computeHistCov [n ++ "_cov"]) ++
  ofMap m (opt (!o.noChi2 && m.hasData) (chi2Names prefit false false)) ++
  ofMap m (opt (!prefit && m.project && o.saturatedTests) (chi2Names prefit true (!o.noHessian)))

/-- one mapping in `save_hists` (rabbit_fit.py:367-515) -/
def saveMapping (o : Opts) (prefit : Bool) (m : MapInfo) : Res (List Out) :=
  if prefit && m.skipPrefit then .ok []
  else
    let a := opt (!m.skipInclusive) (inclusive o m prefit)
    let b := opt (o.saveHistsPerProcess && !m.skipPerProcess) (ofChannels m (m.channels.map (·.1)) [(histName prefit false true, .hist o.computeHistErrorsPerProcess)])
    if o.computeVariations then
      if o.noHessian then .error .runtime
      else .ok (a ++ b ++ ofChannels m (m.channels.map (·.1)) [(histName prefit true false, .hist false)])
    else .ok (a ++ b)

/-- `save_hists` -/
def saveHists (o : Opts) (maps : List MapInfo) (prefit : Bool) : Res (List Out) := (maps.mapM (saveMapping o prefit)).map List.flatten

/-- the covariance is computed in this fit, with everything derived from it (rabbit_fit.py:571-620) -/
def computesCov (o : Opts) (e : Env) (dofit : Bool) : Bool :=
  (dofit || !o.externalPostfit || !e.extCov) && !o.noEDM && !o.noHessian

/-- a likelihood scan (fitter.py:2383-2397, workspace.py:352-364) -/
def scanOne (o : Opts) (e : Env) (p : String) : Res Out :=
  if p ∉ e.parms then .error .index
  else if o.noHessian && !o.scanRangeUsePrefit then .error .type
  else .ok ⟨none, none, "nll_scan_" ++ p, .scan p⟩

/-- a two-dimensional likelihood scan (fitter.py:2431-2448, workspace.py:366-381) -/
def scanTwo (o : Opts) (e : Env) (ps : List String) : Res Out :=
  match ps with
  | p :: q :: rest =>
    if p ∉ e.parms ∨ q ∉ e.parms then .error .index
    else if o.noHessian && !o.scanRangeUsePrefit then .error .type
    else if rest = [] then .ok ⟨none, none, "nll_scan2D_" ++ p ++ "_" ++ q, .scan2D p q⟩
    else .error .value
  | _ => .error .index

/-- contours of a parameter (rabbit_fit.py:758-766, fitter.py:2623-2634; at least one level) -/
def contourOne (o : Opts) (e : Env) (p : String) : Res Unit :=
  if p ∉ e.parms then .error .index else if o.noHessian then .error .type else .ok ()

/-- `fit` up to the scans (rabbit_fit.py:518-723) -/
def fitBase (o : Opts) (e : Env) (dofit : Bool) : Res (List Out) :=
  if o.externalPostfit && e.extCov && o.noHessian then .error .runtime
  else
    let a := opt o.lCurveScan ["step_tau", "step_lcurve"] ++ opt o.lCurveOptimize ["best_tau", "best_lcurve"] ++
      opt (dofit && !e.linear) ["epoch_loss", "epoch_time"] ++
      opt (computesCov o e dofit) (["cov"] ++ opt o.doImpacts ["impacts", "impacts_grouped"] ++
        opt o.globalImpacts ["global_impacts", "global_impacts_grouped"] ++
        opt o.gaussianGlobalImpacts ["gaussian_global_impacts", "gaussian_global_impacts_grouped"]) ++
      ["nllvalreduced", "ndfsat", "edmval", "postfit_profile"] ++ opt o.fullNll ["nllvalfull"] ++ ["parms"] ++
      opt o.nonProfiledImpacts ["nonprofiled_impacts_asym", "nonprofiled_impacts_asym_grouped"]
    if o.asymImpacts && o.noHessian && e.asymScans then .error .type
    else if o.globalAsymImpacts && o.warmStart && o.noHessian then .error .runtime
    else .ok (top (a ++ opt o.asymImpacts ["impacts_asym", "impacts_asym_grouped"] ++
      opt o.globalAsymImpacts ["global_impacts_asym", "global_impacts_asym_grouped"]))

/-- the parameters of a scan: all of them if none is named (rabbit_fit.py:728, 750-754) -/
def scanned (e : Env) (l : List String) : List String := if l = [] then e.parms else l

/-- the likelihood scans (rabbit_fit.py:726-739) -/
def scans (o : Opts) (e : Env) : Res (List Out) := match o.scan with
  | none => .ok []
  | some l => (scanned e l).mapM (scanOne o e)

/-- the two-dimensional likelihood scans (rabbit_fit.py:741-746) -/
def scans2D (o : Opts) (e : Env) : Res (List Out) := match o.scan2D with
  | none => .ok []
  | some l => l.mapM (scanTwo o e)

/-- the contour scans (rabbit_fit.py:749-768) -/
def contours (o : Opts) (e : Env) : Res (List Out) := match o.contourScan with
  | none => .ok []
  | some l => ((scanned e l).mapM (contourOne o e)).map fun _ => top ["contour_scan"]

/-- `fit` (rabbit_fit.py:518-787) -/
def fitOutputs (o : Opts) (e : Env) (dofit : Bool) : Res (List Out) :=
  (fitBase o e dofit).bind fun a => (scans o e).bind fun b => (scans2D o e).bind fun c => (contours o e).bind fun d =>
    if o.contourScan2D then .error .notImpl else .ok (a ++ b ++ c ++ d)

/-- the options refused together with `--noHessian` (rabbit_fit.py:799-819) -/
def refused (o : Opts) : Bool :=
  o.noHessian && (o.doImpacts || o.computeVariations || (o.saveHists && !o.noChi2) || o.computeHistErrors || o.computeHistErrorsPerProcess ||
    o.computeHistCov || o.computeHistImpacts || o.computeHistGaussianImpacts)

/-- histograms and data before the fit (rabbit_fit.py:961-963) -/
def before (o : Opts) (e : Env) (maps : List MapInfo) : Res (List Out) :=
  if o.saveHists then (saveHists o maps true).map fun l => maps.flatMap (observed e) ++ l else .ok []

/-- histograms after the fit (rabbit_fit.py:971-979) -/
def after (o : Opts) (maps : List MapInfo) : Res (List Out) := if o.saveHists then saveHists o maps false else .ok []

/-- the results of one fit (rabbit_fit.py:798-819, 955-985); `data` tells a fit to data or a toy from the asimov fit -/
def outputs (o : Opts) (e : Env) (maps : List MapInfo) (data : Bool) : Res (List Out) :=
  if refused o then .error .exception
  else (before o e maps).bind fun b =>
    if o.prefitOnly then .ok (top ["parms_prefit"] ++ b)
    else (fitOutputs o e (data && !o.noFit)).bind fun c => (after o maps).bind fun d => .ok (top ["parms_prefit"] ++ b ++ c ++ d)

end Verif.RunOutput
