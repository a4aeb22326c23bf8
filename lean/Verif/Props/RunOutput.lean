import Verif.Model.RunOutput
import Verif.Props.ResultFile

/-
C88: what a run stores (bin/rabbit_fit.py).
-/

namespace Verif.RunOutput

open Verif.ResultFile

/-! ## specification -/

namespace Spec

/-- histograms are saved before the fit, and after it unless only the former are asked for -/
def Stage (o : Opts) (prefit : Bool) : Prop := o.saveHists = true ∧ (prefit = true ∨ o.prefitOnly = false)

/-- a mapping has histograms at this stage -/
def Shown (o : Opts) (maps : List MapInfo) (prefit : Bool) (m : MapInfo) : Prop := Stage o prefit ∧ m ∈ maps ∧ (prefit = true → m.skipPrefit = false)

def inclusiveName (prefit : Bool) : String := if prefit then "hist_prefit_inclusive" else "hist_postfit_inclusive"
def processName (prefit : Bool) : String := if prefit then "hist_prefit" else "hist_postfit"
def variationsName (prefit : Bool) : String := if prefit then "hist_prefit_inclusive_variations" else "hist_postfit_inclusive_variations"

/-- with uncertainties: asked for, or needed for something else that is asked for -/
def withVariance (o : Opts) : Bool := o.computeHistErrors || o.computeHistCov || o.computeHistImpacts || o.computeHistGaussianImpacts

/-- the names that need the covariance of this fit -/
def covNames : List String :=
  ["cov", "impacts", "impacts_grouped", "global_impacts", "global_impacts_grouped", "gaussian_global_impacts", "gaussian_global_impacts_grouped"]

/-- what is asked for, by the descriptions of the options -/
inductive Asked (o : Opts) (e : Env) (maps : List MapInfo) (data : Bool) : Out → Prop
  | parmsPrefit : Asked o e maps data ⟨none, none, "parms_prefit", .plain⟩
  | observed {m : MapInfo} {c n : String} (hs : o.saveHists = true) (hm : m ∈ maps) (hd : m.hasData = true) (hc : (c, false) ∈ m.channels)
      (hn : n = "hist_data_obs" ∨ n = "hist_nobs" ∨ (e.dataCov = true ∧ n = "cov_data_obs") ∨ (e.fitCov = true ∧ n = "cov_nobs_obs")) :
      Asked o e maps data ⟨some m.key, some c, n, .plain⟩
  | inclusive {m : MapInfo} {c : String} {b prefit : Bool} (hm : Shown o maps prefit m) (hi : m.skipInclusive = false) (hc : (c, b) ∈ m.channels) :
      Asked o e maps data ⟨some m.key, some c, inclusiveName prefit, .hist (withVariance o)⟩
  | impacts {m : MapInfo} {c n : String} {b prefit : Bool} (hm : Shown o maps prefit m) (hi : m.skipInclusive = false) (hc : (c, b) ∈ m.channels)
      (ho : o.computeHistImpacts = true) (hn : n = "_global_impacts" ∨ n = "_global_impacts_grouped") :
      Asked o e maps data ⟨some m.key, some c, inclusiveName prefit ++ n, .plain⟩
  | gaussianImpacts {m : MapInfo} {c n : String} {b prefit : Bool} (hm : Shown o maps prefit m) (hi : m.skipInclusive = false) (hc : (c, b) ∈ m.channels)
      (ho : o.computeHistGaussianImpacts = true) (hn : n = "_gaussian_global_impacts" ∨ n = "_gaussian_global_impacts_grouped") :
      Asked o e maps data ⟨some m.key, some c, inclusiveName prefit ++ n, .plain⟩
  | histCov {m : MapInfo} {prefit : Bool} (hm : Shown o maps prefit m) (hi : m.skipInclusive = false) (ho : o.computeHistCov = true) :
      Asked o e maps data ⟨some m.key, none, inclusiveName prefit ++ "_cov", .plain⟩
  | chi2 {m : MapInfo} {n : String} {prefit : Bool} (hm : Shown o maps prefit m) (hi : m.skipInclusive = false) (ho : o.noChi2 = false) (hd : m.hasData = true)
      (hn : n = (if prefit then "ndf_prefit" else "ndf") ∨ n = if prefit then "chi2_prefit" else "chi2") : Asked o e maps data ⟨some m.key, none, n, .plain⟩
  | saturated {m : MapInfo} {n : String} (hm : Shown o maps false m) (hi : m.skipInclusive = false) (hp : m.project = true) (ho : o.saturatedTests = true)
      (hn : n = "ndf_saturated" ∨ n = "chi2_saturated" ∨ (o.noHessian = false ∧ n = "edmval_saturated")) : Asked o e maps data ⟨some m.key, none, n, .plain⟩
  | process {m : MapInfo} {c : String} {b prefit : Bool} (hm : Shown o maps prefit m) (ho : o.saveHistsPerProcess = true) (hi : m.skipPerProcess = false)
      (hc : (c, b) ∈ m.channels) : Asked o e maps data ⟨some m.key, some c, processName prefit, .hist o.computeHistErrorsPerProcess⟩
  | variations {m : MapInfo} {c : String} {b prefit : Bool} (hm : Shown o maps prefit m) (ho : o.computeVariations = true)
      (hc : (c, b) ∈ m.channels) : Asked o e maps data ⟨some m.key, some c, variationsName prefit, .hist false⟩
  | lCurve {n : String} (hp : o.prefitOnly = false) (ho : o.lCurveScan = true) (hn : n = "step_tau" ∨ n = "step_lcurve") : Asked o e maps data ⟨none, none, n, .plain⟩
  | lCurveBest {n : String} (hp : o.prefitOnly = false) (ho : o.lCurveOptimize = true) (hn : n = "best_tau" ∨ n = "best_lcurve") :
      Asked o e maps data ⟨none, none, n, .plain⟩
  | history {n : String} (hp : o.prefitOnly = false) (hd : data = true) (hf : o.noFit = false) (hl : e.linear = false) (hn : n = "epoch_loss" ∨ n = "epoch_time") :
      Asked o e maps data ⟨none, none, n, .plain⟩
  | cov (hp : o.prefitOnly = false) : Asked o e maps data ⟨none, none, "cov", .plain⟩
  | doImpacts {n : String} (hp : o.prefitOnly = false) (ho : o.doImpacts = true) (hn : n = "impacts" ∨ n = "impacts_grouped") : Asked o e maps data ⟨none, none, n, .plain⟩
  | globalImpacts {n : String} (hp : o.prefitOnly = false) (ho : o.globalImpacts = true) (hn : n = "global_impacts" ∨ n = "global_impacts_grouped") :
      Asked o e maps data ⟨none, none, n, .plain⟩
  | gaussianGlobalImpacts {n : String} (hp : o.prefitOnly = false) (ho : o.gaussianGlobalImpacts = true)
      (hn : n = "gaussian_global_impacts" ∨ n = "gaussian_global_impacts_grouped") : Asked o e maps data ⟨none, none, n, .plain⟩
  | summary {n : String} (hp : o.prefitOnly = false)
      (hn : n = "nllvalreduced" ∨ n = "ndfsat" ∨ n = "edmval" ∨ n = "postfit_profile" ∨ n = "parms" ∨ (o.fullNll = true ∧ n = "nllvalfull")) :
      Asked o e maps data ⟨none, none, n, .plain⟩
  | nonProfiled {n : String} (hp : o.prefitOnly = false) (ho : o.nonProfiledImpacts = true)
      (hn : n = "nonprofiled_impacts_asym" ∨ n = "nonprofiled_impacts_asym_grouped") : Asked o e maps data ⟨none, none, n, .plain⟩
  | asym {n : String} (hp : o.prefitOnly = false) (ho : o.asymImpacts = true) (hn : n = "impacts_asym" ∨ n = "impacts_asym_grouped") :
      Asked o e maps data ⟨none, none, n, .plain⟩
  | globalAsym {n : String} (hp : o.prefitOnly = false) (ho : o.globalAsymImpacts = true) (hn : n = "global_impacts_asym" ∨ n = "global_impacts_asym_grouped") :
      Asked o e maps data ⟨none, none, n, .plain⟩
  | scan {l : List String} {p : String} (hp : o.prefitOnly = false) (ho : o.scan = some l) (hn : p ∈ l ∨ (l = [] ∧ p ∈ e.parms)) :
      Asked o e maps data ⟨none, none, "nll_scan_" ++ p, .scan p⟩
  | scan2D {l : List (List String)} {p q : String} (hp : o.prefitOnly = false) (ho : o.scan2D = some l) (hn : [p, q] ∈ l) :
      Asked o e maps data ⟨none, none, "nll_scan2D_" ++ p ++ "_" ++ q, .scan2D p q⟩
  | contour {l : List String} (hp : o.prefitOnly = false) (ho : o.contourScan = some l) : Asked o e maps data ⟨none, none, "contour_scan", .plain⟩

/-- the covariance is computed in this run: it is neither declined nor taken from another fit -/
def Computed (o : Opts) (e : Env) (data : Bool) : Prop :=
  o.noEDM = false ∧ o.noHessian = false ∧ ((data = true ∧ o.noFit = false) ∨ o.externalPostfit = false ∨ e.extCov = false)

end Spec

/-! ## helpers -/

theorem mem_opt {α : Type} (c : Bool) (l : List α) (x : α) : x ∈ opt c l ↔ c = true ∧ x ∈ l := by
  cases c <;> simp [opt]

theorem mem_top (l : List String) (x : Out) : x ∈ top l ↔ ∃ n ∈ l, x = ⟨none, none, n, .plain⟩ := by
  simp [top, eq_comm]

theorem mem_ofMap (m : MapInfo) (l : List String) (x : Out) : x ∈ ofMap m l ↔ ∃ n ∈ l, x = ⟨some m.key, none, n, .plain⟩ := by
  simp [ofMap, eq_comm]

theorem mem_ofChannels (m : MapInfo) (cs : List String) (l : List (String × Obj)) (x : Out) :
    x ∈ ofChannels m cs l ↔ ∃ c ∈ cs, ∃ n ∈ l, x = ⟨some m.key, some c, n.1, n.2⟩ := by
  simp [ofChannels, eq_comm]

theorem mem_plain (l : List String) (n : String × Obj) : n ∈ plain l ↔ n.1 ∈ l ∧ n.2 = .plain := by
  rcases n with ⟨a, b⟩
  simp [plain, eq_comm]

theorem histName_eq (prefit : Bool) : histName prefit false false = Spec.inclusiveName prefit ∧ histName prefit false true = Spec.processName prefit ∧
    histName prefit true false = Spec.variationsName prefit := by
  cases prefit <;> decide +kernel

theorem chi2Names_eq (prefit : Bool) : chi2Names prefit false false = [if prefit then "ndf_prefit" else "ndf", if prefit then "chi2_prefit" else "chi2"] := by
  cases prefit <;> decide +kernel

theorem chi2Names_sat (edm : Bool) : chi2Names false true edm = ["ndf_saturated", "chi2_saturated"] ++ opt edm ["edmval_saturated"] := by
  cases edm <;> decide +kernel

/-- the histograms of one mapping -/
def mapOut (o : Opts) (prefit : Bool) (m : MapInfo) : List Out :=
  opt (!(prefit && m.skipPrefit)) (opt (!m.skipInclusive) (inclusive o m prefit) ++
    opt (o.saveHistsPerProcess && !m.skipPerProcess) (ofChannels m (m.channels.map (·.1)) [(histName prefit false true, .hist o.computeHistErrorsPerProcess)]) ++
    opt o.computeVariations (ofChannels m (m.channels.map (·.1)) [(histName prefit true false, .hist false)]))

theorem saveMapping_eq (o : Opts) (prefit : Bool) (m : MapInfo) (h : refused o = false) : saveMapping o prefit m = .ok (mapOut o prefit m) := by
  have hv : o.computeVariations = true → o.noHessian = false := by
    intro hv
    cases hn : o.noHessian
    · rfl
    · simp [refused, hn, hv] at h
  unfold saveMapping mapOut
  cases prefit && m.skipPrefit
  · cases hc : o.computeVariations
    · simp [opt]
    · simp [opt, hv hc]
  · simp [opt]

theorem mapM_ok {α β : Type} (f : α → Res β) (g : α → β) (l : List α) (h : ∀ x ∈ l, f x = .ok (g x)) : l.mapM f = .ok (l.map g) := by
  induction l with
  | nil => rfl
  | cons x l ih =>
    rw [List.mapM_cons, h x (by simp), ih fun y hy => h y (List.mem_cons_of_mem _ hy)]
    rfl

theorem mapM_mem {α β : Type} (f : α → Res β) (l : List α) (r : List β) (h : l.mapM f = .ok r) : ∀ y, y ∈ r ↔ ∃ x ∈ l, f x = .ok y := by
  induction l generalizing r with
  | nil =>
    cases h
    simp
  | cons x l ih =>
    rw [List.mapM_cons] at h
    cases hx : f x with
    | error er =>
      rw [hx] at h
      cases h
    | ok v =>
      cases hl : l.mapM f with
      | error er =>
        rw [hx, hl] at h
        cases h
      | ok vs =>
        rw [hx, hl] at h
        cases h
        intro y
        rw [List.mem_cons, ih vs hl y]
        constructor
        · rintro (rfl | ⟨z, hz, h⟩)
          · exact ⟨x, by simp, hx⟩
          · exact ⟨z, List.mem_cons_of_mem _ hz, h⟩
        · rintro ⟨z, hz, h⟩
          rcases List.mem_cons.1 hz with rfl | hz
          · rw [hx] at h
            exact .inl (Except.ok.inj h).symm
          · exact .inr ⟨z, hz, h⟩

theorem saveHists_eq (o : Opts) (maps : List MapInfo) (prefit : Bool) (h : refused o = false) : saveHists o maps prefit = .ok (maps.flatMap (mapOut o prefit)) := by
  unfold saveHists
  rw [mapM_ok _ (mapOut o prefit) _ fun m _ => saveMapping_eq o prefit m h]
  show Except.ok _ = _
  rw [List.flatMap_def]

/-- what the histograms of a stage are -/
theorem mem_stage (o : Opts) (e : Env) (maps : List MapInfo) (data prefit : Bool) (x : Out) :
    Spec.Stage o prefit → x ∈ maps.flatMap (mapOut o prefit) → Spec.Asked o e maps data x := by
  intro hs hx
  obtain ⟨m, hm, hx⟩ := List.mem_flatMap.1 hx
  unfold mapOut at hx
  rw [mem_opt] at hx
  obtain ⟨hp, hx⟩ := hx
  have hsh : Spec.Shown o maps prefit m := ⟨hs, hm, by
    rintro rfl
    simpa using hp⟩
  obtain ⟨n1, n2, n3⟩ := histName_eq prefit
  rcases List.mem_append.1 hx with hx | hx
  · rcases List.mem_append.1 hx with hx | hx
    · rw [mem_opt] at hx
      obtain ⟨hi, hx⟩ := hx
      have hi : m.skipInclusive = false := by simpa using hi
      unfold inclusive at hx
      dsimp only at hx
      rw [n1] at hx
      rcases List.mem_append.1 hx with hx | hx
      · rcases List.mem_append.1 hx with hx | hx
        · rcases List.mem_append.1 hx with hx | hx
          · rw [mem_ofChannels] at hx
            obtain ⟨c, hc, n, hn, rfl⟩ := hx
            obtain ⟨⟨c, b⟩, hcb, rfl⟩ := List.mem_map.1 hc
            rcases List.mem_append.1 hn with hn | hn
            · rcases List.mem_append.1 hn with hn | hn
              · obtain rfl := List.mem_singleton.1 hn
                exact .inclusive hsh hi hcb
              · rw [mem_plain, mem_opt] at hn
                obtain ⟨⟨ho, hn⟩, he⟩ := hn
                rw [he]
                rcases List.mem_cons.1 hn with hn | hn
                · rw [hn]
                  exact .impacts hsh hi hcb ho (.inl rfl)
                · rw [List.mem_singleton.1 hn]
                  exact .impacts hsh hi hcb ho (.inr rfl)
            · rw [mem_plain, mem_opt] at hn
              obtain ⟨⟨ho, hn⟩, he⟩ := hn
              rw [he]
              rcases List.mem_cons.1 hn with hn | hn
              · rw [hn]
                exact .gaussianImpacts hsh hi hcb ho (.inl rfl)
              · rw [List.mem_singleton.1 hn]
                exact .gaussianImpacts hsh hi hcb ho (.inr rfl)
          · rw [mem_ofMap] at hx
            obtain ⟨n, hn, rfl⟩ := hx
            rw [mem_opt] at hn
            rw [List.mem_singleton.1 hn.2]
            exact .histCov hsh hi hn.1
        · rw [mem_ofMap] at hx
          obtain ⟨n, hn, rfl⟩ := hx
          rw [mem_opt, chi2Names_eq, Bool.and_eq_true, Bool.not_eq_true'] at hn
          obtain ⟨⟨h1, h2⟩, hn⟩ := hn
          exact .chi2 hsh hi h1 h2 (by simpa using hn)
      · rw [mem_ofMap] at hx
        obtain ⟨n, hn, rfl⟩ := hx
        rw [mem_opt, Bool.and_eq_true, Bool.and_eq_true, Bool.not_eq_true'] at hn
        obtain ⟨⟨⟨rfl, h2⟩, h3⟩, hn⟩ := hn
        rw [chi2Names_sat] at hn
        refine .saturated hsh hi h2 h3 ?_
        rcases List.mem_append.1 hn with hn | hn
        · rcases List.mem_cons.1 hn with hn | hn
          · exact .inl hn
          · exact .inr (.inl (List.mem_singleton.1 hn))
        · rw [mem_opt, Bool.not_eq_true'] at hn
          exact .inr (.inr ⟨hn.1, List.mem_singleton.1 hn.2⟩)
    · rw [mem_opt, Bool.and_eq_true, Bool.not_eq_true', mem_ofChannels, n2] at hx
      obtain ⟨⟨h1, h2⟩, c, hc, n, hn, rfl⟩ := hx
      obtain ⟨⟨c, b⟩, hcb, rfl⟩ := List.mem_map.1 hc
      obtain rfl := List.mem_singleton.1 hn
      exact .process hsh h1 h2 hcb
  · rw [mem_opt, mem_ofChannels, n3] at hx
    obtain ⟨h1, c, hc, n, hn, rfl⟩ := hx
    obtain ⟨⟨c, b⟩, hcb, rfl⟩ := List.mem_map.1 hc
    obtain rfl := List.mem_singleton.1 hn
    exact .variations hsh h1 hcb

theorem mem_observed (e : Env) (m : MapInfo) (x : Out) : x ∈ observed e m ↔ m.hasData = true ∧ ∃ c n, (c, false) ∈ m.channels ∧ x = ⟨some m.key, some c, n, .plain⟩ ∧
    (n = "hist_data_obs" ∨ n = "hist_nobs" ∨ (e.dataCov = true ∧ n = "cov_data_obs") ∨ (e.fitCov = true ∧ n = "cov_nobs_obs")) := by
  unfold observed
  cases hd : m.hasData
  · simp
  · rw [if_pos rfl, mem_ofChannels]
    constructor
    · rintro ⟨c, hc, n, hn, rfl⟩
      obtain ⟨⟨c, b⟩, hcb, rfl⟩ := List.mem_map.1 hc
      rw [List.mem_filter] at hcb
      obtain ⟨hcb, hb⟩ := hcb
      cases b
      · rw [mem_plain] at hn
        obtain ⟨hn, he⟩ := hn
        refine ⟨rfl, c, n.1, hcb, by rw [he], ?_⟩
        rw [List.mem_append, List.mem_append, mem_opt, mem_opt] at hn
        simpa [or_assoc] using hn
      · simp at hb
    · rintro ⟨-, c, n, hc, rfl, hn⟩
      refine ⟨c, List.mem_map.2 ⟨(c, false), List.mem_filter.2 ⟨hc, rfl⟩, rfl⟩, (n, .plain), ?_, rfl⟩
      rw [mem_plain, List.mem_append, List.mem_append, mem_opt, mem_opt]
      refine ⟨?_, rfl⟩
      simpa [or_assoc] using hn

theorem of_mapOut (o : Opts) (maps : List MapInfo) (prefit : Bool) (m : MapInfo) (h : Spec.Shown o maps prefit m) (x : Out)
    (hx : x ∈ opt (!m.skipInclusive) (inclusive o m prefit) ++
    opt (o.saveHistsPerProcess && !m.skipPerProcess) (ofChannels m (m.channels.map (·.1)) [(histName prefit false true, .hist o.computeHistErrorsPerProcess)]) ++
    opt o.computeVariations (ofChannels m (m.channels.map (·.1)) [(histName prefit true false, .hist false)])) : x ∈ maps.flatMap (mapOut o prefit) := by
  refine List.mem_flatMap.2 ⟨m, h.2.1, ?_⟩
  unfold mapOut
  rw [mem_opt]
  refine ⟨?_, hx⟩
  cases prefit
  · rfl
  · simp [h.2.2 rfl]

theorem of_inclusive (o : Opts) (maps : List MapInfo) (prefit : Bool) (m : MapInfo) (h : Spec.Shown o maps prefit m) (hi : m.skipInclusive = false) (x : Out)
    (hx : x ∈ inclusive o m prefit) : x ∈ maps.flatMap (mapOut o prefit) :=
  of_mapOut o maps prefit m h x (List.mem_append_left _ (List.mem_append_left _ (by rw [mem_opt, hi]; exact ⟨rfl, hx⟩)))

theorem mem_inclusive (o : Opts) (m : MapInfo) (prefit : Bool) (x : Out) : x ∈ inclusive o m prefit ↔
    (∃ c ∈ m.channels.map (·.1), ∃ n, (n = (Spec.inclusiveName prefit, Obj.hist (Spec.withVariance o)) ∨
      (o.computeHistImpacts = true ∧ n.1 ∈ [Spec.inclusiveName prefit ++ "_global_impacts", Spec.inclusiveName prefit ++ "_global_impacts_grouped"] ∧ n.2 = .plain) ∨
      (o.computeHistGaussianImpacts = true ∧
        n.1 ∈ [Spec.inclusiveName prefit ++ "_gaussian_global_impacts", Spec.inclusiveName prefit ++ "_gaussian_global_impacts_grouped"] ∧ n.2 = .plain)) ∧
      x = ⟨some m.key, some c, n.1, n.2⟩) ∨
    ∃ n, ((o.computeHistCov = true ∧ n = Spec.inclusiveName prefit ++ "_cov") ∨ ((o.noChi2 = false ∧ m.hasData = true) ∧ n ∈ chi2Names prefit false false) ∨
      (((prefit = false ∧ m.project = true) ∧ o.saturatedTests = true) ∧ n ∈ chi2Names prefit true (!o.noHessian))) ∧ x = ⟨some m.key, none, n, .plain⟩ := by
  unfold inclusive
  dsimp only
  rw [(histName_eq prefit).1]
  simp only [List.mem_append, mem_ofChannels, mem_ofMap, mem_opt, mem_plain, List.mem_singleton, Bool.and_eq_true, Bool.not_eq_true']
  constructor
  · rintro (((⟨c, hc, n, hn, rfl⟩ | ⟨n, hn, rfl⟩) | ⟨n, hn, rfl⟩) | ⟨n, hn, rfl⟩)
    · refine .inl ⟨c, hc, n, ?_, rfl⟩
      rcases hn with (rfl | ⟨⟨h1, h2⟩, h3⟩) | ⟨⟨h1, h2⟩, h3⟩
      · exact .inl rfl
      · exact .inr (.inl ⟨h1, h2, h3⟩)
      · exact .inr (.inr ⟨h1, h2, h3⟩)
    · exact .inr ⟨n, .inl hn, rfl⟩
    · exact .inr ⟨n, .inr (.inl hn), rfl⟩
    · exact .inr ⟨n, .inr (.inr hn), rfl⟩
  · rintro (⟨c, hc, n, hn, rfl⟩ | ⟨n, hn | hn | hn, rfl⟩)
    · refine .inl (.inl (.inl ⟨c, hc, n, ?_, rfl⟩))
      rcases hn with rfl | ⟨h1, h2, h3⟩ | ⟨h1, h2, h3⟩
      · exact .inl (.inl rfl)
      · exact .inl (.inr ⟨⟨h1, h2⟩, h3⟩)
      · exact .inr ⟨⟨h1, h2⟩, h3⟩
    · exact .inl (.inl (.inr ⟨n, hn, rfl⟩))
    · exact .inl (.inr ⟨n, hn, rfl⟩)
    · exact .inr ⟨n, hn, rfl⟩

/-- names stored by `fit` at the top level, scans excepted -/
def baseNames (o : Opts) (e : Env) (dofit : Bool) : List String :=
  opt o.lCurveScan ["step_tau", "step_lcurve"] ++ opt o.lCurveOptimize ["best_tau", "best_lcurve"] ++
      opt (dofit && !e.linear) ["epoch_loss", "epoch_time"] ++
      opt (computesCov o e dofit) (["cov"] ++ opt o.doImpacts ["impacts", "impacts_grouped"] ++
        opt o.globalImpacts ["global_impacts", "global_impacts_grouped"] ++
        opt o.gaussianGlobalImpacts ["gaussian_global_impacts", "gaussian_global_impacts_grouped"]) ++
      ["nllvalreduced", "ndfsat", "edmval", "postfit_profile"] ++ opt o.fullNll ["nllvalfull"] ++ ["parms"] ++
      opt o.nonProfiledImpacts ["nonprofiled_impacts_asym", "nonprofiled_impacts_asym_grouped"] ++ opt o.asymImpacts ["impacts_asym", "impacts_asym_grouped"] ++
      opt o.globalAsymImpacts ["global_impacts_asym", "global_impacts_asym_grouped"]

theorem fitBase_ok (o : Opts) (e : Env) (dofit : Bool) (L : List Out) (h : fitBase o e dofit = .ok L) : L = top (baseNames o e dofit) := by
  unfold fitBase at h
  split at h
  · cases h
  · dsimp only at h
    split at h
    · cases h
    · split at h
      · cases h
      · cases h
        rfl

/-- the scans that are stored -/
def Scans (o : Opts) (e : Env) (x : Out) : Prop :=
  (∃ l, o.scan = some l ∧ ∃ p, (p ∈ l ∨ (l = [] ∧ p ∈ e.parms)) ∧ x = ⟨none, none, "nll_scan_" ++ p, .scan p⟩) ∨
  (∃ l, o.scan2D = some l ∧ ∃ p q, [p, q] ∈ l ∧ x = ⟨none, none, "nll_scan2D_" ++ p ++ "_" ++ q, .scan2D p q⟩) ∨
  (∃ l, o.contourScan = some l ∧ x = ⟨none, none, "contour_scan", .plain⟩)

theorem scanOne_ok (o : Opts) (e : Env) (p : String) (y : Out) (h : scanOne o e p = .ok y) : y = ⟨none, none, "nll_scan_" ++ p, .scan p⟩ := by
  unfold scanOne at h
  split at h
  · cases h
  · split at h
    · cases h
    · cases h
      rfl

theorem scanTwo_ok (o : Opts) (e : Env) (ps : List String) (y : Out) (h : scanTwo o e ps = .ok y) :
    ∃ p q, ps = [p, q] ∧ y = ⟨none, none, "nll_scan2D_" ++ p ++ "_" ++ q, .scan2D p q⟩ := by
  unfold scanTwo at h
  split at h
  · split at h
    · cases h
    · split at h
      · cases h
      · split at h
        · rename_i hr
          cases h
          exact ⟨_, _, by rw [hr], rfl⟩
        · cases h
  · cases h

theorem mem_scanned (e : Env) (l : List String) (p : String) : p ∈ scanned e l ↔ p ∈ l ∨ (l = [] ∧ p ∈ e.parms) := by
  unfold scanned
  split
  · rename_i h
    simp [h]
  · rename_i h
    simp [h]

theorem mapM_all {α β : Type} (f : α → Res β) (l : List α) (r : List β) (h : l.mapM f = .ok r) : ∀ x ∈ l, ∃ y, f x = .ok y ∧ y ∈ r := by
  induction l generalizing r with
  | nil => simp
  | cons x l ih =>
    rw [List.mapM_cons] at h
    cases hx : f x with
    | error er =>
      rw [hx] at h
      cases h
    | ok v =>
      cases hl : l.mapM f with
      | error er =>
        rw [hx, hl] at h
        cases h
      | ok vs =>
        rw [hx, hl] at h
        cases h
        intro y hy
        rcases List.mem_cons.1 hy with rfl | hy
        · exact ⟨v, hx, by simp⟩
        · obtain ⟨w, h1, h2⟩ := ih vs hl y hy
          exact ⟨w, h1, List.mem_cons_of_mem _ h2⟩

theorem fitOutputs_ok (o : Opts) (e : Env) (dofit : Bool) (L : List Out) (h : fitOutputs o e dofit = .ok L) (x : Out) :
    x ∈ L ↔ x ∈ top (baseNames o e dofit) ∨ Scans o e x := by
  unfold fitOutputs at h
  obtain ⟨a, ha, h⟩ := CovPlot.bind_ok h
  obtain ⟨b, hb, h⟩ := CovPlot.bind_ok h
  obtain ⟨c, hc, h⟩ := CovPlot.bind_ok h
  obtain ⟨d, hd, h⟩ := CovPlot.bind_ok h
  have hb' : x ∈ b ↔ ∃ l, o.scan = some l ∧ ∃ p, (p ∈ l ∨ (l = [] ∧ p ∈ e.parms)) ∧ x = ⟨none, none, "nll_scan_" ++ p, .scan p⟩ := by
    cases hs : o.scan with
    | none =>
      unfold scans at hb
      rw [hs] at hb
      cases hb
      simp
    | some l =>
      unfold scans at hb
      rw [hs] at hb
      constructor
      · intro hx
        obtain ⟨p, hp, hf⟩ := (mapM_mem _ _ _ hb x).1 hx
        exact ⟨l, rfl, p, (mem_scanned e l p).1 hp, scanOne_ok o e p x hf⟩
      · rintro ⟨l', hl, p, hp, rfl⟩
        cases hl
        obtain ⟨y, h1, h2⟩ := mapM_all _ _ _ hb p ((mem_scanned e l p).2 hp)
        rw [← scanOne_ok o e p y h1]
        exact h2
  have hc' : x ∈ c ↔ ∃ l, o.scan2D = some l ∧ ∃ p q, [p, q] ∈ l ∧ x = ⟨none, none, "nll_scan2D_" ++ p ++ "_" ++ q, .scan2D p q⟩ := by
    cases hs : o.scan2D with
    | none =>
      unfold scans2D at hc
      rw [hs] at hc
      cases hc
      simp
    | some l =>
      unfold scans2D at hc
      rw [hs] at hc
      constructor
      · intro hx
        obtain ⟨ps, hp, hf⟩ := (mapM_mem _ _ _ hc x).1 hx
        obtain ⟨p, q, rfl, rfl⟩ := scanTwo_ok o e ps x hf
        exact ⟨l, rfl, p, q, hp, rfl⟩
      · rintro ⟨l', hl, p, q, hp, rfl⟩
        cases hl
        obtain ⟨y, h1, h2⟩ := mapM_all _ _ _ hc _ hp
        obtain ⟨p', q', he, rfl⟩ := scanTwo_ok o e _ y h1
        cases he
        exact h2
  have hd' : x ∈ d ↔ ∃ l, o.contourScan = some l ∧ x = ⟨none, none, "contour_scan", .plain⟩ := by
    cases hs : o.contourScan with
    | none =>
      unfold contours at hd
      rw [hs] at hd
      cases hd
      simp
    | some l =>
      unfold contours at hd
      rw [hs] at hd
      obtain ⟨u, -, rfl⟩ := CovPlot.map_ok hd
      rw [mem_top]
      simp
  split at h
  · cases h
  · cases h
    rw [List.mem_append, List.mem_append, List.mem_append, hb', hc', hd', fitBase_ok o e dofit a ha, or_assoc, or_assoc]
    rfl

theorem computesCov_iff (o : Opts) (e : Env) (data : Bool) : computesCov o e (data && !o.noFit) = true ↔ Spec.Computed o e data := by
  unfold computesCov Spec.Computed
  cases data <;> cases o.noFit <;> cases o.externalPostfit <;> cases e.extCov <;> cases o.noEDM <;> cases o.noHessian <;> simp

/-- the names of `fit` that do not need the covariance -/
theorem not_covNames : ∀ n ∈ ["step_tau", "step_lcurve", "best_tau", "best_lcurve", "epoch_loss", "epoch_time", "nllvalreduced", "ndfsat", "edmval",
    "postfit_profile", "nllvalfull", "parms", "nonprofiled_impacts_asym", "nonprofiled_impacts_asym_grouped", "impacts_asym", "impacts_asym_grouped",
    "global_impacts_asym", "global_impacts_asym_grouped", "parms_prefit", "contour_scan"], n ∉ Spec.covNames := by
  decide +kernel

theorem mem_base (o : Opts) (e : Env) (maps : List MapInfo) (data : Bool) (hp : o.prefitOnly = false) (n : String) (hn : n ∈ baseNames o e (data && !o.noFit)) :
    Spec.Asked o e maps data ⟨none, none, n, .plain⟩ ∧ (n ∈ Spec.covNames → Spec.Computed o e data) := by
  unfold baseNames at hn
  simp only [List.mem_append, mem_opt, List.mem_cons, List.not_mem_nil, or_false, computesCov_iff] at hn
  have hno : ∀ {n : String}, n ∈ ["step_tau", "step_lcurve", "best_tau", "best_lcurve", "epoch_loss", "epoch_time", "nllvalreduced", "ndfsat", "edmval",
    "postfit_profile", "nllvalfull", "parms", "nonprofiled_impacts_asym", "nonprofiled_impacts_asym_grouped", "impacts_asym", "impacts_asym_grouped",
    "global_impacts_asym", "global_impacts_asym_grouped", "parms_prefit", "contour_scan"] → (n ∈ Spec.covNames → Spec.Computed o e data) :=
    fun h h' => absurd h' (not_covNames _ h)
  rcases hn with ((((((((hn | hn) | hn) | hn) | hn) | hn) | hn) | hn) | hn) | hn
  · exact ⟨.lCurve hp hn.1 hn.2, hno (by rcases hn.2 with rfl | rfl <;> simp)⟩
  · exact ⟨.lCurveBest hp hn.1 hn.2, hno (by rcases hn.2 with rfl | rfl <;> simp)⟩
  · obtain ⟨h1, h2⟩ := hn
    rw [Bool.and_eq_true, Bool.and_eq_true, Bool.not_eq_true', Bool.not_eq_true'] at h1
    exact ⟨.history hp h1.1.1 h1.1.2 h1.2 h2, hno (by rcases h2 with rfl | rfl <;> simp)⟩
  · obtain ⟨h1, h2⟩ := hn
    refine ⟨?_, fun _ => h1⟩
    rcases h2 with ((rfl | h2) | h2) | h2
    · exact .cov hp
    · exact .doImpacts hp h2.1 h2.2
    · exact .globalImpacts hp h2.1 h2.2
    · exact .gaussianGlobalImpacts hp h2.1 h2.2
  · refine ⟨.summary hp ?_, hno (by rcases hn with rfl | rfl | rfl | rfl <;> simp)⟩
    rcases hn with rfl | rfl | rfl | rfl <;> simp
  · exact ⟨.summary hp (.inr (.inr (.inr (.inr (.inr hn))))), hno (by rw [hn.2]; simp)⟩
  · exact ⟨.summary hp (.inr (.inr (.inr (.inr (.inl hn))))), hno (by rw [hn]; simp)⟩
  · exact ⟨.nonProfiled hp hn.1 hn.2, hno (by rcases hn.2 with rfl | rfl <;> simp)⟩
  · exact ⟨.asym hp hn.1 hn.2, hno (by rcases hn.2 with rfl | rfl <;> simp)⟩
  · exact ⟨.globalAsym hp hn.1 hn.2, hno (by rcases hn.2 with rfl | rfl <;> simp)⟩

/-- the parts of the results -/
theorem outputs_ok (o : Opts) (e : Env) (maps : List MapInfo) (data : Bool) (L : List Out) (h : outputs o e maps data = .ok L) (x : Out) :
    x ∈ L ↔ x = ⟨none, none, "parms_prefit", .plain⟩ ∨ (o.saveHists = true ∧ (x ∈ maps.flatMap (observed e) ∨ x ∈ maps.flatMap (mapOut o true))) ∨
      (o.prefitOnly = false ∧ (x ∈ top (baseNames o e (data && !o.noFit)) ∨ Scans o e x ∨ (o.saveHists = true ∧ x ∈ maps.flatMap (mapOut o false)))) := by
  unfold outputs at h
  split at h
  · cases h
  · rename_i hr
    have hr : refused o = false := by simpa using hr
    obtain ⟨b, hb, h⟩ := CovPlot.bind_ok h
    have hb' : x ∈ b ↔ o.saveHists = true ∧ (x ∈ maps.flatMap (observed e) ∨ x ∈ maps.flatMap (mapOut o true)) := by
      unfold before at hb
      split at hb
      · rename_i hs
        rw [saveHists_eq o maps true hr] at hb
        cases hb
        rw [List.mem_append]
        exact ⟨fun h => ⟨hs, h⟩, fun h => h.2⟩
      · rename_i hs
        cases hb
        exact ⟨fun h => (nomatch h), fun h => absurd h.1 hs⟩
    have htop : x ∈ top ["parms_prefit"] ↔ x = ⟨none, none, "parms_prefit", .plain⟩ := by
      rw [mem_top]
      simp
    split at h
    · rename_i hp
      cases h
      rw [List.mem_append, hb', htop, hp]
      simp
    · rename_i hp
      have hp : o.prefitOnly = false := by simpa using hp
      obtain ⟨c, hc, h⟩ := CovPlot.bind_ok h
      obtain ⟨d, hd, h⟩ := CovPlot.bind_ok h
      have hd' : x ∈ d ↔ o.saveHists = true ∧ x ∈ maps.flatMap (mapOut o false) := by
        unfold after at hd
        split at hd
        · rename_i hs
          rw [saveHists_eq o maps false hr] at hd
          cases hd
          exact ⟨fun h => ⟨hs, h⟩, fun h => h.2⟩
        · rename_i hs
          cases hd
          exact ⟨fun h => (nomatch h), fun h => absurd h.1 hs⟩
      cases h
      rw [List.mem_append, List.mem_append, List.mem_append, hb', htop, hd', fitOutputs_ok o e _ c hc x, or_assoc, or_assoc, or_assoc]
      refine or_congr Iff.rfl (or_congr Iff.rfl ?_)
      exact ⟨fun h => ⟨hp, h⟩, fun h => h.2⟩

theorem mapOut_mapping (o : Opts) (prefit : Bool) (m : MapInfo) (x : Out) (hx : x ∈ mapOut o prefit m) : x.mapping = some m.key := by
  unfold mapOut at hx
  simp only [mem_opt, List.mem_append, mem_ofChannels, mem_inclusive] at hx
  rcases hx with ⟨-, (⟨-, ⟨c, -, n, -, rfl⟩ | ⟨n, -, rfl⟩⟩ | ⟨-, c, -, n, -, rfl⟩) | ⟨-, c, -, n, -, rfl⟩⟩ <;> rfl

/-- C88.  A run that ends stores what is asked for and nothing else, except that the covariance and what is derived from it are stored only if the
covariance is computed in this run. -/
theorem c88_outputs (o : Opts) (e : Env) (maps : List MapInfo) (data : Bool) (L : List Out) (h : outputs o e maps data = .ok L) (x : Out) :
    x ∈ L ↔ Spec.Asked o e maps data x ∧ (x.mapping = none ∧ x.obj = .plain ∧ x.key ∈ Spec.covNames → Spec.Computed o e data) := by
  rw [outputs_ok o e maps data L h x]
  have hno : ∀ {n : String}, n ∈ ["step_tau", "step_lcurve", "best_tau", "best_lcurve", "epoch_loss", "epoch_time", "nllvalreduced", "ndfsat", "edmval",
    "postfit_profile", "nllvalfull", "parms", "nonprofiled_impacts_asym", "nonprofiled_impacts_asym_grouped", "impacts_asym", "impacts_asym_grouped",
    "global_impacts_asym", "global_impacts_asym_grouped", "parms_prefit", "contour_scan"] → (n ∈ Spec.covNames → Spec.Computed o e data) :=
    fun h h' => absurd h' (not_covNames _ h)
  constructor
  · rintro (rfl | ⟨hs, hx | hx⟩ | ⟨hp, hx | hx | ⟨hs, hx⟩⟩)
    · exact ⟨.parmsPrefit, fun h => hno (by simp) h.2.2⟩
    · obtain ⟨m, hm, hx⟩ := List.mem_flatMap.1 hx
      obtain ⟨hd, c, n, hc, rfl, hn⟩ := (mem_observed e m x).1 hx
      exact ⟨.observed hs hm hd hc hn, fun h => nomatch h.1⟩
    · have := mem_stage o e maps data true x ⟨hs, .inl rfl⟩ hx
      refine ⟨this, fun h => ?_⟩
      obtain ⟨m, -, hx⟩ := List.mem_flatMap.1 hx
      rw [mapOut_mapping o true m x hx] at h
      exact nomatch h.1
    · obtain ⟨n, hn, rfl⟩ := (mem_top _ x).1 hx
      obtain ⟨h1, h2⟩ := mem_base o e maps data hp n hn
      exact ⟨h1, fun h => h2 h.2.2⟩
    · rcases hx with ⟨l, hl, p, hq, rfl⟩ | ⟨l, hl, p, q, hq, rfl⟩ | ⟨l, hl, rfl⟩
      · exact ⟨.scan hp hl hq, fun h => nomatch h.2.1⟩
      · exact ⟨.scan2D hp hl hq, fun h => nomatch h.2.1⟩
      · exact ⟨.contour hp hl, fun h => hno (by simp) h.2.2⟩
    · have := mem_stage o e maps data false x ⟨hs, .inr hp⟩ hx
      refine ⟨this, fun h => ?_⟩
      obtain ⟨m, -, hx⟩ := List.mem_flatMap.1 hx
      rw [mapOut_mapping o false m x hx] at h
      exact nomatch h.1
  · rintro ⟨hx, hcov⟩
    have stage : ∀ {prefit : Bool} {x : Out}, Spec.Stage o prefit → x ∈ maps.flatMap (mapOut o prefit) →
        x = ⟨none, none, "parms_prefit", .plain⟩ ∨ (o.saveHists = true ∧ (x ∈ maps.flatMap (observed e) ∨ x ∈ maps.flatMap (mapOut o true))) ∨
      (o.prefitOnly = false ∧ (x ∈ top (baseNames o e (data && !o.noFit)) ∨ Scans o e x ∨ (o.saveHists = true ∧ x ∈ maps.flatMap (mapOut o false)))) := by
      intro prefit x hs hx
      cases prefit
      · rcases hs.2 with h | h
        · cases h
        · exact .inr (.inr ⟨h, .inr (.inr ⟨hs.1, hx⟩)⟩)
      · exact .inr (.inl ⟨hs.1, .inr hx⟩)
    have base : ∀ {n : String}, o.prefitOnly = false → n ∈ baseNames o e (data && !o.noFit) →
        (⟨none, none, n, .plain⟩ : Out) = ⟨none, none, "parms_prefit", .plain⟩ ∨
        (o.saveHists = true ∧ (⟨none, none, n, .plain⟩ ∈ maps.flatMap (observed e) ∨ ⟨none, none, n, .plain⟩ ∈ maps.flatMap (mapOut o true))) ∨
      (o.prefitOnly = false ∧ (⟨none, none, n, .plain⟩ ∈ top (baseNames o e (data && !o.noFit)) ∨ Scans o e ⟨none, none, n, .plain⟩ ∨
        (o.saveHists = true ∧ ⟨none, none, n, .plain⟩ ∈ maps.flatMap (mapOut o false)))) :=
      fun hp hn => .inr (.inr ⟨hp, .inl ((mem_top _ _).2 ⟨_, hn, rfl⟩)⟩)
    have chan : ∀ {m : MapInfo} {c : String} {b : Bool}, (c, b) ∈ m.channels → c ∈ m.channels.map (·.1) := fun h => List.mem_map.2 ⟨_, h, rfl⟩
    cases hx with
    | parmsPrefit => exact .inl rfl
    | observed hs hm hd hc hn => exact .inr (.inl ⟨hs, .inl (List.mem_flatMap.2 ⟨_, hm, (mem_observed _ _ _).2 ⟨hd, _, _, hc, rfl, hn⟩⟩)⟩)
    | inclusive hm hi hc => exact stage hm.1 (of_inclusive o maps _ _ hm hi _ ((mem_inclusive _ _ _ _).2 (.inl ⟨_, chan hc, _, .inl rfl, rfl⟩)))
    | impacts hm hi hc ho hn =>
      refine stage hm.1 (of_inclusive o maps _ _ hm hi _ ((mem_inclusive _ _ _ _).2 (.inl ⟨_, chan hc, (_, _), .inr (.inl ⟨ho, ?_, rfl⟩), rfl⟩)))
      rcases hn with rfl | rfl <;> simp
    | gaussianImpacts hm hi hc ho hn =>
      refine stage hm.1 (of_inclusive o maps _ _ hm hi _ ((mem_inclusive _ _ _ _).2 (.inl ⟨_, chan hc, (_, _), .inr (.inr ⟨ho, ?_, rfl⟩), rfl⟩)))
      rcases hn with rfl | rfl <;> simp
    | histCov hm hi ho => exact stage hm.1 (of_inclusive o maps _ _ hm hi _ ((mem_inclusive _ _ _ _).2 (.inr ⟨_, .inl ⟨ho, rfl⟩, rfl⟩)))
    | chi2 hm hi ho hd hn =>
      refine stage hm.1 (of_inclusive o maps _ _ hm hi _ ((mem_inclusive _ _ _ _).2 (.inr ⟨_, .inr (.inl ⟨⟨ho, hd⟩, ?_⟩), rfl⟩)))
      rw [chi2Names_eq]
      simpa using hn
    | saturated hm hi hp ho hn =>
      refine stage hm.1 (of_inclusive o maps _ _ hm hi _ ((mem_inclusive _ _ _ _).2 (.inr ⟨_, .inr (.inr ⟨⟨⟨rfl, hp⟩, ho⟩, ?_⟩), rfl⟩)))
      rw [chi2Names_sat, List.mem_append, mem_opt, Bool.not_eq_true']
      simpa [or_assoc] using hn
    | process hm ho hi hc =>
      refine stage hm.1 (of_mapOut o maps _ _ hm _ (List.mem_append_left _ (List.mem_append_right _ ?_)))
      rw [mem_opt, ho, hi, mem_ofChannels]
      exact ⟨rfl, _, chan hc, _, List.mem_singleton.2 rfl, by rw [(histName_eq _).2.1]⟩
    | variations hm ho hc =>
      refine stage hm.1 (of_mapOut o maps _ _ hm _ (List.mem_append_right _ ?_))
      rw [mem_opt, ho, mem_ofChannels]
      exact ⟨rfl, _, chan hc, _, List.mem_singleton.2 rfl, by rw [(histName_eq _).2.2]⟩
    | lCurve hp ho hn => exact base hp (by unfold baseNames; rcases hn with rfl | rfl <;> simp [mem_opt, ho])
    | lCurveBest hp ho hn => exact base hp (by unfold baseNames; rcases hn with rfl | rfl <;> simp [mem_opt, ho])
    | history hp hd hf hl hn => exact base hp (by unfold baseNames; rcases hn with rfl | rfl <;> simp [mem_opt, hd, hf, hl])
    | cov hp =>
      have := (computesCov_iff o e data).2 (hcov ⟨rfl, rfl, by decide +kernel⟩)
      exact base hp (by unfold baseNames; simp [mem_opt, this])
    | doImpacts hp ho hn =>
      have := (computesCov_iff o e data).2 (hcov ⟨rfl, rfl, by rcases hn with rfl | rfl <;> decide +kernel⟩)
      exact base hp (by unfold baseNames; rcases hn with rfl | rfl <;> simp [mem_opt, this, ho])
    | globalImpacts hp ho hn =>
      have := (computesCov_iff o e data).2 (hcov ⟨rfl, rfl, by rcases hn with rfl | rfl <;> decide +kernel⟩)
      exact base hp (by unfold baseNames; rcases hn with rfl | rfl <;> simp [mem_opt, this, ho])
    | gaussianGlobalImpacts hp ho hn =>
      have := (computesCov_iff o e data).2 (hcov ⟨rfl, rfl, by rcases hn with rfl | rfl <;> decide +kernel⟩)
      exact base hp (by unfold baseNames; rcases hn with rfl | rfl <;> simp [mem_opt, this, ho])
    | summary hp hn => exact base hp (by unfold baseNames; rcases hn with rfl | rfl | rfl | rfl | rfl | ⟨h, rfl⟩ <;> simp [mem_opt, *])
    | nonProfiled hp ho hn => exact base hp (by unfold baseNames; rcases hn with rfl | rfl <;> simp [mem_opt, ho])
    | asym hp ho hn => exact base hp (by unfold baseNames; rcases hn with rfl | rfl <;> simp [mem_opt, ho])
    | globalAsym hp ho hn => exact base hp (by unfold baseNames; rcases hn with rfl | rfl <;> simp [mem_opt, ho])
    | scan hp ho hn => exact .inr (.inr ⟨hp, .inr (.inl (.inl ⟨_, ho, _, hn, rfl⟩))⟩)
    | scan2D hp ho hn => exact .inr (.inr ⟨hp, .inr (.inl (.inr (.inl ⟨_, ho, _, _, hn, rfl⟩)))⟩)
    | contour hp ho => exact .inr (.inr ⟨hp, .inr (.inl (.inr (.inr ⟨_, ho, rfl⟩)))⟩)

/-- C88 when the covariance is computed: everything asked for is stored, and nothing else.  (Missing: runs in which it is not, see
`c88_dropped_violated`.) -/
theorem c88_complete_partial (o : Opts) (e : Env) (maps : List MapInfo) (data : Bool) (L : List Out) (h : outputs o e maps data = .ok L)
    (hc : Spec.Computed o e data) (x : Out) : x ∈ L ↔ Spec.Asked o e maps data x := by
  rw [c88_outputs o e maps data L h x]
  exact ⟨fun h => h.1, fun h => ⟨h, fun _ => hc⟩⟩

/-- C88.  A run with the covariance ends if the parameters to be scanned exist and pairs are pairs. -/
theorem c88_ends (o : Opts) (e : Env) (maps : List MapInfo) (data : Bool) (hn : o.noHessian = false) (hs : ∀ l, o.scan = some l → ∀ p ∈ l, p ∈ e.parms)
    (h2 : ∀ l, o.scan2D = some l → ∀ ps ∈ l, ∃ p ∈ e.parms, ∃ q ∈ e.parms, ps = [p, q]) (hc : ∀ l, o.contourScan = some l → ∀ p ∈ l, p ∈ e.parms)
    (h2c : o.contourScan2D = false) : ∃ L, outputs o e maps data = .ok L := by
  have hr : refused o = false := by simp [refused, hn]
  have hb : ∃ b, before o e maps = .ok b := by
    unfold before
    split
    · exact ⟨_, by rw [saveHists_eq o maps true hr]; rfl⟩
    · exact ⟨_, rfl⟩
  have ha : ∃ d, after o maps = .ok d := by
    unfold after
    split
    · exact ⟨_, saveHists_eq o maps false hr⟩
    · exact ⟨_, rfl⟩
  have sub : ∀ l : List String, (∀ p ∈ l, p ∈ e.parms) → ∀ p ∈ scanned e l, p ∈ e.parms := by
    intro l hl p hp
    rcases (mem_scanned e l p).1 hp with h | h
    · exact hl p h
    · exact h.2
  have hf : ∃ c, fitOutputs o e (data && !o.noFit) = .ok c := by
    have f1 : ∃ a, fitBase o e (data && !o.noFit) = .ok a := by
      unfold fitBase
      simp [hn]
    have f2 : ∃ a, scans o e = .ok a := by
      unfold scans
      cases ho : o.scan with
      | none => exact ⟨_, rfl⟩
      | some l =>
        refine ⟨_, mapM_ok _ (fun p => ⟨none, none, "nll_scan_" ++ p, .scan p⟩) _ fun p hp => ?_⟩
        unfold scanOne
        rw [if_neg (by simpa using sub l (hs l ho) p hp), hn]
        rfl
    have f3 : ∃ a, scans2D o e = .ok a := by
      unfold scans2D
      cases ho : o.scan2D with
      | none => exact ⟨_, rfl⟩
      | some l =>
        refine ⟨_, mapM_ok _ (fun ps => ⟨none, none, "nll_scan2D_" ++ ps.getD 0 "" ++ "_" ++ ps.getD 1 "", .scan2D (ps.getD 0 "") (ps.getD 1 "")⟩) _ fun ps hp => ?_⟩
        obtain ⟨p, h1, q, h2, rfl⟩ := h2 l ho ps hp
        show (if p ∉ e.parms ∨ q ∉ e.parms then _ else _) = _
        rw [if_neg (by simp [h1, h2]), hn]
        rfl
    have f4 : ∃ a, contours o e = .ok a := by
      unfold contours
      cases ho : o.contourScan with
      | none => exact ⟨_, rfl⟩
      | some l =>
        refine ⟨top ["contour_scan"], ?_⟩
        show Except.map _ (List.mapM (contourOne o e) (scanned e l)) = _
        rw [mapM_ok _ (fun _ => ()) _ fun p hp => ?_]
        · rfl
        · unfold contourOne
          rw [if_neg (by simpa using sub l (hc l ho) p hp), hn]
          rfl
    obtain ⟨a, f1⟩ := f1
    obtain ⟨b, f2⟩ := f2
    obtain ⟨c, f3⟩ := f3
    obtain ⟨d, f4⟩ := f4
    refine ⟨a ++ b ++ c ++ d, ?_⟩
    unfold fitOutputs
    rw [f1, f2, f3, f4, h2c]
    rfl
  obtain ⟨b, hb⟩ := hb
  obtain ⟨d, ha⟩ := ha
  obtain ⟨c, hf⟩ := hf
  unfold outputs
  rw [hr, hb, hf, ha]
  cases o.prefitOnly
  · exact ⟨_, rfl⟩
  · exact ⟨_, rfl⟩

/-- C88.  Without covariance a run with neither scans, asymmetric impacts nor a loaded covariance is refused exactly if impacts, variations, a chi-square or
errors, covariances or impacts of histograms are asked for. -/
theorem c88_without_covariance (o : Opts) (e : Env) (maps : List MapInfo) (data : Bool) (hn : o.noHessian = true)
    (hx : o.externalPostfit = false) (ha : o.asymImpacts = false) (hg : o.globalAsymImpacts = false) (hs : o.scan = none) (h2 : o.scan2D = none)
    (hc : o.contourScan = none) (h2c : o.contourScan2D = false) :
    (∃ L, outputs o e maps data = .ok L) ↔ ¬ (o.doImpacts = true ∨ o.computeVariations = true ∨ (o.saveHists = true ∧ o.noChi2 = false) ∨
      o.computeHistErrors = true ∨ o.computeHistErrorsPerProcess = true ∨ o.computeHistCov = true ∨ o.computeHistImpacts = true ∨
      o.computeHistGaussianImpacts = true) := by
  have key : refused o = true ↔ (o.doImpacts = true ∨ o.computeVariations = true ∨ (o.saveHists = true ∧ o.noChi2 = false) ∨
      o.computeHistErrors = true ∨ o.computeHistErrorsPerProcess = true ∨ o.computeHistCov = true ∨ o.computeHistImpacts = true ∨
      o.computeHistGaussianImpacts = true) := by
    unfold refused
    rw [hn]
    simp only [Bool.true_and, Bool.or_eq_true, Bool.and_eq_true, Bool.not_eq_true', or_assoc]
  rw [← key]
  constructor
  · rintro ⟨L, h⟩ hr
    unfold outputs at h
    rw [if_pos hr] at h
    cases h
  · intro hr
    have hr : refused o = false := by simpa using hr
    have hb : ∃ b, before o e maps = .ok b := by
      unfold before
      split
      · exact ⟨_, by rw [saveHists_eq o maps true hr]; rfl⟩
      · exact ⟨_, rfl⟩
    have hd : ∃ d, after o maps = .ok d := by
      unfold after
      split
      · exact ⟨_, saveHists_eq o maps false hr⟩
      · exact ⟨_, rfl⟩
    have f1 : ∃ a, fitBase o e (data && !o.noFit) = .ok a := by
      unfold fitBase
      simp [hx, ha, hg]
    obtain ⟨b, hb⟩ := hb
    obtain ⟨d, hd⟩ := hd
    obtain ⟨a, f1⟩ := f1
    have hf : fitOutputs o e (data && !o.noFit) = .ok (a ++ [] ++ [] ++ []) := by
      unfold fitOutputs scans scans2D contours
      rw [f1, hs, h2, hc, h2c]
      rfl
    unfold outputs
    rw [if_neg (by simp [hr]), hb, hf, hd]
    cases o.prefitOnly
    · exact ⟨_, rfl⟩
    · exact ⟨_, rfl⟩

example : (∃ L, outputs { noHessian := true, saveHists := true, noChi2 := true } { parms := ["a"] } [] true = .ok L) ∧
    ¬ ∃ L, outputs { noHessian := true, saveHists := true } { parms := ["a"] } [] true = .ok L := by
  constructor
  · rw [c88_without_covariance _ _ _ _ rfl rfl rfl rfl rfl rfl rfl rfl]
    decide
  · rw [c88_without_covariance _ _ _ _ rfl rfl rfl rfl rfl rfl rfl rfl]
    decide

/-- C88 fails for runs in which the covariance is not computed: impacts asked for are dropped without a message.  With `--noHessian` global impacts are
not among the options that are refused; with `--noEDM`, or if the fit is skipped and a covariance is loaded, no impacts are. -/
theorem c88_dropped_violated (o : Opts) (e : Env) (maps : List MapInfo) (data : Bool) (hp : o.prefitOnly = false)
    (hc : o.noHessian = true ∨ o.noEDM = true ∨ ((data = false ∨ o.noFit = true) ∧ o.externalPostfit = true ∧ e.extCov = true)) (L : List Out)
    (h : outputs o e maps data = .ok L) :
    (o.doImpacts = true → Spec.Asked o e maps data ⟨none, none, "impacts", .plain⟩ ∧ ⟨none, none, "impacts", .plain⟩ ∉ L) ∧
    (o.globalImpacts = true → Spec.Asked o e maps data ⟨none, none, "global_impacts", .plain⟩ ∧ ⟨none, none, "global_impacts", .plain⟩ ∉ L) ∧
    (o.gaussianGlobalImpacts = true → Spec.Asked o e maps data ⟨none, none, "gaussian_global_impacts", .plain⟩ ∧
      ⟨none, none, "gaussian_global_impacts", .plain⟩ ∉ L) := by
  have hno : ¬ Spec.Computed o e data := by
    unfold Spec.Computed
    rintro ⟨h1, h2, h3⟩
    rw [h1, h2] at hc
    rcases hc with hc | hc | ⟨hd, he, hx⟩
    · cases hc
    · cases hc
    · rw [he, hx] at h3
      rcases h3 with ⟨h3, h4⟩ | h3 | h3
      · rw [h3, h4] at hd
        rcases hd with hd | hd <;> cases hd
      · cases h3
      · cases h3
  have key : ∀ n ∈ Spec.covNames, (⟨none, none, n, .plain⟩ : Out) ∉ L := fun n hn hm => hno (((c88_outputs o e maps data L h _).1 hm).2 ⟨rfl, rfl, hn⟩)
  exact ⟨fun ho => ⟨.doImpacts hp ho (.inl rfl), key _ (by decide +kernel)⟩, fun ho => ⟨.globalImpacts hp ho (.inl rfl), key _ (by decide +kernel)⟩,
    fun ho => ⟨.gaussianGlobalImpacts hp ho (.inl rfl), key _ (by decide +kernel)⟩⟩

/-- C88 fails for scans with `--noHessian`: they need the covariance but are not among the options that are refused, so the fit is made and the run then
raises before anything is written. -/
theorem c88_scan_violated (o : Opts) (e : Env) (maps : List MapInfo) (data : Bool) (hr : refused o = false) (hn : o.noHessian = true) (hp : o.prefitOnly = false)
    (hx : o.externalPostfit = false) (ha : o.asymImpacts = false) (hg : o.globalAsymImpacts = false) (hs : o.scanRangeUsePrefit = false)
    (p : String) (l : List String) (hl : o.scan = some (p :: l)) (hm : p ∈ e.parms) : outputs o e maps data = .error .type := by
  have hb : ∃ b, before o e maps = .ok b := by
    unfold before
    split
    · exact ⟨_, by rw [saveHists_eq o maps true hr]; rfl⟩
    · exact ⟨_, rfl⟩
  obtain ⟨b, hb⟩ := hb
  have f1 : ∃ a, fitBase o e (data && !o.noFit) = .ok a := by
    unfold fitBase
    simp [hx, ha, hg]
  obtain ⟨a, f1⟩ := f1
  have f2 : scans o e = .error .type := by
    unfold scans
    rw [hl]
    show List.mapM (scanOne o e) (p :: l) = _
    rw [List.mapM_cons]
    have : scanOne o e p = .error .type := by
      unfold scanOne
      rw [if_neg (by simpa using hm), hn, hs]
      rfl
    rw [this]
    rfl
  unfold outputs
  rw [hr, hb, hp]
  show (fitOutputs o e (data && !o.noFit)).bind _ = _
  unfold fitOutputs
  rw [f1, f2]
  rfl

/-- C88 fails for two-dimensional scans whose names coincide: `a` with `b_c` and `a_b` with `c` are stored under the same name, so one of them is lost. -/
theorem c88_pair_violated (o : Opts) (e : Env) (maps : List MapInfo) (data : Bool) (hp : o.prefitOnly = false) (a b c : String)
    (l : List (List String)) (hl : o.scan2D = some l) (h1 : [a, b ++ "_" ++ c] ∈ l) (h2 : [a ++ "_" ++ b, c] ∈ l) :
    ∃ x y, Spec.Asked o e maps data x ∧ Spec.Asked o e maps data y ∧ x.mapping = y.mapping ∧ x.channel = y.channel ∧ x.key = y.key ∧ x.obj ≠ y.obj := by
  refine ⟨_, _, .scan2D hp hl h1, .scan2D hp hl h2, rfl, rfl, ?_, ?_⟩
  · simp only [String.append_assoc]
  · intro h
    have := congrArg String.length (Obj.scan2D.inj h).1
    rw [String.length_append, String.length_append] at this
    have h1 : ("_" : String).length = 1 := by decide +kernel
    omega

/-! ## names -/

/-- plain names at the top level -/
def topNames : List String :=
  ["step_tau", "step_lcurve", "best_tau", "best_lcurve", "epoch_loss", "epoch_time", "nllvalreduced", "ndfsat", "edmval",
    "postfit_profile", "nllvalfull", "parms", "nonprofiled_impacts_asym", "nonprofiled_impacts_asym_grouped", "impacts_asym", "impacts_asym_grouped",
    "global_impacts_asym", "global_impacts_asym_grouped", "parms_prefit", "contour_scan"] ++ Spec.covNames

/-- names of the values of a mapping -/
def mapNames : List String :=
  ["hist_prefit_inclusive_cov", "hist_postfit_inclusive_cov", "ndf_prefit", "chi2_prefit", "ndf", "chi2", "ndf_saturated", "chi2_saturated", "edmval_saturated"]

/-- names of the histograms of a channel, and what they are -/
def chanNames (o : Opts) : List (String × Obj) :=
  ["hist_data_obs", "hist_nobs", "cov_data_obs", "cov_nobs_obs", "hist_prefit_inclusive_global_impacts", "hist_prefit_inclusive_global_impacts_grouped",
    "hist_postfit_inclusive_global_impacts", "hist_postfit_inclusive_global_impacts_grouped", "hist_prefit_inclusive_gaussian_global_impacts",
    "hist_prefit_inclusive_gaussian_global_impacts_grouped", "hist_postfit_inclusive_gaussian_global_impacts",
    "hist_postfit_inclusive_gaussian_global_impacts_grouped"].map (·, .plain) ++
  [("hist_prefit_inclusive", .hist (Spec.withVariance o)), ("hist_postfit_inclusive", .hist (Spec.withVariance o)),
    ("hist_prefit", .hist o.computeHistErrorsPerProcess), ("hist_postfit", .hist o.computeHistErrorsPerProcess),
    ("hist_prefit_inclusive_variations", .hist false), ("hist_postfit_inclusive_variations", .hist false)]

theorem chanNames_fst (o : Opts) : (chanNames o).map (·.1) = ["hist_data_obs", "hist_nobs", "cov_data_obs", "cov_nobs_obs",
    "hist_prefit_inclusive_global_impacts", "hist_prefit_inclusive_global_impacts_grouped",
    "hist_postfit_inclusive_global_impacts", "hist_postfit_inclusive_global_impacts_grouped", "hist_prefit_inclusive_gaussian_global_impacts",
    "hist_prefit_inclusive_gaussian_global_impacts_grouped", "hist_postfit_inclusive_gaussian_global_impacts",
    "hist_postfit_inclusive_gaussian_global_impacts_grouped", "hist_prefit_inclusive", "hist_postfit_inclusive", "hist_prefit", "hist_postfit",
    "hist_prefit_inclusive_variations", "hist_postfit_inclusive_variations"] := rfl

/-- the form of everything asked for -/
def Form (o : Opts) (x : Out) : Prop :=
  (x.mapping = none ∧ x.channel = none ∧ ((x.obj = .plain ∧ x.key ∈ topNames) ∨ (∃ p, x.key = "nll_scan_" ++ p ∧ x.obj = .scan p) ∨
    ∃ l p q, o.scan2D = some l ∧ [p, q] ∈ l ∧ x.key = "nll_scan2D_" ++ p ++ "_" ++ q ∧ x.obj = .scan2D p q)) ∨
  ((∃ m, x.mapping = some m) ∧ x.channel = none ∧ x.obj = .plain ∧ x.key ∈ mapNames) ∨
  ((∃ m, x.mapping = some m) ∧ (∃ c, x.channel = some c) ∧ (x.key, x.obj) ∈ chanNames o)

theorem asked_form (o : Opts) (e : Env) (maps : List MapInfo) (data : Bool) (x : Out) (h : Spec.Asked o e maps data x) : Form o x := by
  have plain : ∀ {n : String}, n ∈ topNames → Form o ⟨none, none, n, .plain⟩ := fun h => .inl ⟨rfl, rfl, .inl ⟨rfl, h⟩⟩
  cases h with
  | parmsPrefit => exact plain (by decide +kernel)
  | observed hs hm hd hc hn =>
    refine .inr (.inr ⟨⟨_, rfl⟩, ⟨_, rfl⟩, ?_⟩)
    rcases hn with rfl | rfl | ⟨-, rfl⟩ | ⟨-, rfl⟩ <;> simp [chanNames]
  | @inclusive m c b prefit hm hi hc =>
    refine .inr (.inr ⟨⟨_, rfl⟩, ⟨_, rfl⟩, ?_⟩)
    cases prefit <;> simp [chanNames, Spec.inclusiveName]
  | @impacts m c n b prefit hm hi hc ho hn =>
    refine .inr (.inr ⟨⟨_, rfl⟩, ⟨_, rfl⟩, List.mem_append_left _ (List.mem_map.2 ⟨_, ?_, rfl⟩)⟩)
    cases prefit <;> rcases hn with rfl | rfl <;> (dsimp only; decide +kernel)
  | @gaussianImpacts m c n b prefit hm hi hc ho hn =>
    refine .inr (.inr ⟨⟨_, rfl⟩, ⟨_, rfl⟩, List.mem_append_left _ (List.mem_map.2 ⟨_, ?_, rfl⟩)⟩)
    cases prefit <;> rcases hn with rfl | rfl <;> (dsimp only; decide +kernel)
  | @histCov m prefit hm hi ho =>
    refine .inr (.inl ⟨⟨_, rfl⟩, rfl, rfl, ?_⟩)
    cases prefit <;> (dsimp only; decide +kernel)
  | @chi2 m n prefit hm hi ho hd hn =>
    refine .inr (.inl ⟨⟨_, rfl⟩, rfl, rfl, ?_⟩)
    cases prefit <;> rcases hn with rfl | rfl <;> (dsimp only; decide +kernel)
  | saturated hm hi hp ho hn =>
    refine .inr (.inl ⟨⟨_, rfl⟩, rfl, rfl, ?_⟩)
    rcases hn with rfl | rfl | ⟨-, rfl⟩ <;> (dsimp only; decide +kernel)
  | @process m c b prefit hm ho hi hc =>
    refine .inr (.inr ⟨⟨_, rfl⟩, ⟨_, rfl⟩, ?_⟩)
    cases prefit <;> simp [chanNames, Spec.processName]
  | @variations m c b prefit hm ho hc =>
    refine .inr (.inr ⟨⟨_, rfl⟩, ⟨_, rfl⟩, ?_⟩)
    cases prefit <;> simp [chanNames, Spec.variationsName]
  | lCurve hp ho hn => exact plain (by rcases hn with rfl | rfl <;> decide +kernel)
  | lCurveBest hp ho hn => exact plain (by rcases hn with rfl | rfl <;> decide +kernel)
  | history hp hd hf hl hn => exact plain (by rcases hn with rfl | rfl <;> decide +kernel)
  | cov hp => exact plain (by decide +kernel)
  | doImpacts hp ho hn => exact plain (by rcases hn with rfl | rfl <;> decide +kernel)
  | globalImpacts hp ho hn => exact plain (by rcases hn with rfl | rfl <;> decide +kernel)
  | gaussianGlobalImpacts hp ho hn => exact plain (by rcases hn with rfl | rfl <;> decide +kernel)
  | summary hp hn => exact plain (by rcases hn with rfl | rfl | rfl | rfl | rfl | ⟨-, rfl⟩ <;> decide +kernel)
  | nonProfiled hp ho hn => exact plain (by rcases hn with rfl | rfl <;> decide +kernel)
  | asym hp ho hn => exact plain (by rcases hn with rfl | rfl <;> decide +kernel)
  | globalAsym hp ho hn => exact plain (by rcases hn with rfl | rfl <;> decide +kernel)
  | scan hp ho hn => exact .inl ⟨rfl, rfl, .inr (.inl ⟨_, rfl, rfl⟩)⟩
  | scan2D hp ho hn => exact .inl ⟨rfl, rfl, .inr (.inr ⟨_, _, _, ho, hn, rfl, rfl⟩)⟩
  | contour hp ho => exact plain (by decide +kernel)

/-- the first nine characters of a name -/
def head9 (s : String) : List Char := s.toList.take 9

theorem head9_append (a b : String) (h : a.toList.length = 9) : head9 (a ++ b) = a.toList := by
  unfold head9
  rw [String.toList_append, List.take_append_of_le_length (by omega), List.take_of_length_le (by omega)]

theorem head9_scan (p : String) : head9 ("nll_scan_" ++ p) = "nll_scan_".toList := head9_append _ _ (by decide +kernel)

theorem head9_scan2D (p q : String) : head9 ("nll_scan2D_" ++ p ++ "_" ++ q) = "nll_scan2".toList := by
  have : "nll_scan2D_" ++ p ++ "_" ++ q = "nll_scan2" ++ ("D_" ++ p ++ "_" ++ q) := by
    rw [show ("nll_scan2D_" : String) = "nll_scan2" ++ "D_" by decide +kernel]
    simp only [String.append_assoc]
  rw [this]
  exact head9_append _ _ (by decide +kernel)

theorem head9_top : ∀ n ∈ topNames, head9 n ≠ "nll_scan_".toList ∧ head9 n ≠ "nll_scan2".toList := by decide +kernel

theorem append_inj (a p q : String) (h : a ++ p = a ++ q) : p = q := by
  have := congrArg String.toList h
  rw [String.toList_append, String.toList_append] at this
  exact String.toList_injective (List.append_cancel_left this)

/-- names are names of objects -/
theorem form_name (o : Opts) (x : Out) (h : Form o x) : ResultFile.Spec.Name x.key := by
  unfold ResultFile.Spec.Name
  rcases h with ⟨-, -, ⟨-, h⟩ | ⟨p, h, -⟩ | ⟨l, p, q, -, -, h, -⟩⟩ | ⟨-, -, -, h⟩ | ⟨-, -, h⟩
  · exact (show ∀ n ∈ topNames, n ≠ "mappings" ∧ n ≠ "channels" by decide +kernel) _ h
  · rw [h]
    constructor <;> intro he <;> have := congrArg head9 he <;> rw [head9_scan] at this <;> revert this <;> decide +kernel
  · rw [h]
    constructor <;> intro he <;> have := congrArg head9 he <;> rw [head9_scan2D] at this <;> revert this <;> decide +kernel
  · exact (show ∀ n ∈ mapNames, n ≠ "mappings" ∧ n ≠ "channels" by decide +kernel) _ h
  · have : x.key ∈ (chanNames o).map (·.1) := List.mem_map.2 ⟨_, h, rfl⟩
    rw [chanNames_fst] at this
    revert this
    generalize x.key = k
    revert k
    decide +kernel

/-- names determine what is stored, if the names of the two-dimensional scans do -/
theorem form_inj (o : Opts) (h2 : ∀ l, o.scan2D = some l → ∀ p q p' q', [p, q] ∈ l → [p', q'] ∈ l → p ++ "_" ++ q = p' ++ "_" ++ q' → p = p' ∧ q = q')
    (x y : Out) (hx : Form o x) (hy : Form o y) (hm : x.mapping = y.mapping) (hc : x.channel = y.channel) (hk : x.key = y.key) : x.obj = y.obj := by
  rcases hx with ⟨mx, cx, hx⟩ | ⟨⟨m, mx⟩, cx, ox, -⟩ | ⟨⟨m, mx⟩, ⟨c, cx⟩, hx⟩
  · rcases hy with ⟨my, cy, hy⟩ | ⟨⟨m, my⟩, cy, oy, -⟩ | ⟨⟨m, my⟩, ⟨c, cy⟩, hy⟩
    · rcases hx with ⟨ox, kx⟩ | ⟨p, kx, ox⟩ | ⟨l, p, q, hl, hp, kx, ox⟩
      · rcases hy with ⟨oy, ky⟩ | ⟨p, ky, oy⟩ | ⟨l, p, q, hl, hp, ky, oy⟩
        · rw [ox, oy]
        · rw [hk, ky] at kx
          exact absurd (head9_scan p) (head9_top _ kx).1
        · rw [hk, ky] at kx
          exact absurd (head9_scan2D p q) (head9_top _ kx).2
      · rcases hy with ⟨oy, ky⟩ | ⟨p', ky, oy⟩ | ⟨l, p', q, hl, hp, ky, oy⟩
        · rw [← hk, kx] at ky
          exact absurd (head9_scan p) (head9_top _ ky).1
        · rw [kx, ky] at hk
          rw [ox, oy, append_inj _ _ _ hk]
        · rw [kx, ky] at hk
          have := congrArg head9 hk
          rw [head9_scan, head9_scan2D] at this
          exact absurd this (by decide +kernel)
      · rcases hy with ⟨oy, ky⟩ | ⟨p', ky, oy⟩ | ⟨l', p', q', hl', hp', ky, oy⟩
        · rw [← hk, kx] at ky
          exact absurd (head9_scan2D p q) (head9_top _ ky).2
        · rw [kx, ky] at hk
          have := congrArg head9 hk
          rw [head9_scan, head9_scan2D] at this
          exact absurd this (by decide +kernel)
        · rw [hl] at hl'
          cases hl'
          rw [kx, ky] at hk
          simp only [String.append_assoc] at hk
          have := append_inj _ _ _ hk
          rw [← String.append_assoc, ← String.append_assoc] at this
          obtain ⟨rfl, rfl⟩ := h2 l hl p q p' q' hp hp' this
          rw [ox, oy]
    · rw [mx, my] at hm
      cases hm
    · rw [mx, my] at hm
      cases hm
  · rcases hy with ⟨my, cy, hy⟩ | ⟨⟨m, my⟩, cy, oy, -⟩ | ⟨⟨m, my⟩, ⟨c, cy⟩, hy⟩
    · rw [mx, my] at hm
      cases hm
    · rw [ox, oy]
    · rw [cx, cy] at hc
      cases hc
  · rcases hy with ⟨my, cy, hy⟩ | ⟨⟨m, my⟩, cy, oy, -⟩ | ⟨⟨m, my⟩, ⟨c, cy⟩, hy⟩
    · rw [mx, my] at hm
      cases hm
    · rw [cx, cy] at hc
      cases hc
    · have hnd : ((chanNames o).map (·.1)).Nodup := by
        rw [chanNames_fst]
        decide +kernel
      rw [hk] at hx
      exact (Prod.mk.inj (List.inj_on_of_nodup_map hnd hx hy rfl)).2

/-- C88.  Everything stored is found again under its mapping, channel and name, if the names of the two-dimensional scans are different. -/
theorem c88_found (o : Opts) (e : Env) (maps : List MapInfo) (data : Bool) (L : List Out) (h : outputs o e maps data = .ok L)
    (h2 : ∀ l, o.scan2D = some l → ∀ p q p' q', [p, q] ∈ l → [p', q'] ∈ l → p ++ "_" ++ q = p' ++ "_" ++ q' → p = p' ∧ q = q') :
    ∃ d, L.foldlM dumpObj [] = .ok d ∧ ∀ x ∈ L, lookup (place x.mapping x.channel) x.key d = some x.obj := by
  have hf : ∀ x ∈ L, Form o x := fun x hx => asked_form o e maps data x ((c88_outputs o e maps data L h x).1 hx).1
  obtain ⟨d, h1, hd⟩ := c87_stored L fun x hx => form_name o x (hf x hx)
  refine ⟨d, h1, fun x hx => ?_⟩
  rw [hd _ _ _ (form_name o x (hf x hx))]
  unfold ResultFile.Spec.last
  have hs : (L.reverse.find? fun y => decide (y.mapping = x.mapping ∧ y.channel = x.channel ∧ y.key = x.key)).isSome := by
    rw [List.find?_isSome]
    exact ⟨x, List.mem_reverse.2 hx, by simp⟩
  obtain ⟨y, hy⟩ := Option.isSome_iff_exists.1 hs
  rw [hy]
  have hp := List.find?_some hy
  rw [decide_eq_true_eq] at hp
  have hm := List.mem_reverse.1 (List.mem_of_find?_eq_some hy)
  show some y.obj = _
  rw [form_inj o h2 y x (hf y hm) (hf x hx) hp.1 hp.2.1 hp.2.2]

/-! ## examples -/

namespace Ex88

/-- two channels, one of them masked -/
def chans : List MapInfo := [{ key := "BaseMapping", channels := [("ch0", false), ("ch1", true)] }]

def env : Env := { parms := ["mu", "bkg"] }

/-- histograms, impacts, scans of one and of two parameters -/
def full : Opts :=
  { saveHists := true, computeHistErrors := true, globalImpacts := true, scan := some ["mu"], scan2D := some [["mu", "bkg"]] }

theorem full_ends : ∃ L, outputs full env chans true = .ok L := by
  refine c88_ends full env chans true rfl ?_ ?_ ?_ rfl
  · intro l hl p hp
    cases hl
    rw [List.mem_singleton.1 hp]
    simp [env]
  · intro l hl ps hp
    cases hl
    exact ⟨"mu", by simp [env], "bkg", by simp [env], List.mem_singleton.1 hp⟩
  · intro l hl
    cases hl

/-- the prediction in the masked channel, with variances, and the impacts are stored -/
example : ∃ L, outputs full env chans true = .ok L ∧ ⟨some "BaseMapping", some "ch1", "hist_prefit_inclusive", .hist true⟩ ∈ L ∧
    ⟨none, none, "global_impacts", .plain⟩ ∈ L := by
  obtain ⟨L, h⟩ := full_ends
  have hc : Spec.Computed full env true := by simp [Spec.Computed, full, env]
  refine ⟨L, h, (c88_complete_partial _ _ _ _ L h hc _).2 ?_, (c88_complete_partial _ _ _ _ L h hc _).2 (.globalImpacts rfl rfl (.inl rfl))⟩
  exact .inclusive (m := chans.head (by simp [chans])) (b := true) (prefit := true) ⟨⟨rfl, .inl rfl⟩, by simp [chans], fun _ => rfl⟩ rfl (by simp [chans])

example : ∃ L, outputs full env chans true = .ok L ∧ ∃ d, L.foldlM dumpObj [] = .ok d ∧ ∀ x ∈ L, lookup (place x.mapping x.channel) x.key d = some x.obj := by
  obtain ⟨L, h⟩ := full_ends
  refine ⟨L, h, c88_found _ _ _ _ L h ?_⟩
  intro l hl p q p' q' hp hq _
  cases hl
  simp only [List.mem_singleton] at hp hq
  cases hp
  cases hq
  exact ⟨rfl, rfl⟩

/-- impacts without the covariance: the run ends and stores none -/
def bare : Opts := { globalImpacts := true, noHessian := true }

example : ∃ L, outputs bare env chans true = .ok L ∧ Spec.Asked bare env chans true ⟨none, none, "global_impacts", .plain⟩ ∧
    ⟨none, none, "global_impacts", .plain⟩ ∉ L := by
  have h : ∃ L, outputs bare env chans true = .ok L := ⟨_, rfl⟩
  obtain ⟨L, h⟩ := h
  exact ⟨L, h, (c88_dropped_violated bare env chans true rfl (.inl rfl) L h).2.1 rfl⟩

example : outputs { noHessian := true, scan := some ["mu"] } env chans true = .error .type :=
  c88_scan_violated _ env chans true rfl rfl rfl rfl rfl rfl rfl "mu" [] rfl (by simp [env])

example : ∃ x y, Spec.Asked { scan2D := some [["a", "b_c"], ["a_b", "c"]] } env chans true x ∧ Spec.Asked { scan2D := some [["a", "b_c"], ["a_b", "c"]] } env chans true y ∧
    x.mapping = y.mapping ∧ x.channel = y.channel ∧ x.key = y.key ∧ x.obj ≠ y.obj :=
  c88_pair_violated _ env chans true rfl "a" "b" "c" _ rfl (by decide +kernel) (by decide +kernel)

end Ex88

end Verif.RunOutput
