import Verif.Model.FitState
import Verif.Props.FitParams
import Mathlib.Data.List.Basic
import Mathlib.Data.List.Nodup
import Mathlib.Data.Fin.VecNotation

/-!
C27 (toys do not accumulate) and C28 (loading an external fit result by name).
-/

namespace Verif.FitState

noncomputable section

variable {P K B F R O : Type*}

/-! ### C27 -/

/-- Which variables exist is fixed at construction; without blinding there are no offsets. -/
structure WF (c : Cfg P K B F R O) (s : Vars P K B R O) : Prop where
  cov : s.cov.isSome = c.computeCov
  varnobs : s.varnobs.isSome = c.chisq
  bb : s.bb.isSome = c.bbEnabled
  off : c.doBlinding = false → s.off = c.noOff

/-- equality of everything but the data and `nexpnom` -/
structure Core (s s' : Vars P K B R O) : Prop where
  x : s.x = s'.x
  x0 : s.x0 = s'.x0
  bb : s.bb = s'.bb
  varPrefit : s.varPrefit = s'.varPrefit
  cov : s.cov = s'.cov
  off : s.off = s'.off
  regs : s.regs = s'.regs

/-- equality of every variable that is ever read (`nexpnom` is written by `toyassign` but read nowhere) -/
structure Spec.SameState (s s' : Vars P K B R O) : Prop where
  core : Core s s'
  nobs : s.nobs = s'.nobs
  lognobs : s.lognobs = s'.lognobs
  varnobs : s.varnobs = s'.varnobs

theorem setNobs_congr (c : Cfg P K B F R O) (v : B → ℝ) (w : Option (B → ℝ)) (s s' : Vars P K B R O)
    (hs : WF c s) (hs' : WF c s') (h : Core s s') :
    (setNobs c v w s).2 = (setNobs c v w s').2 ∧
    ((setNobs c v w s).2 = .ok () → Spec.SameState (setNobs c v w s).1 (setNobs c v w s').1) := by
  obtain ⟨h1, h2, h3, h4, h5, h6, h7⟩ := h
  unfold setNobs
  split_ifs with g1 g2
  · exact ⟨rfl, fun h => by cases h⟩
  · refine ⟨rfl, fun _ => ⟨⟨h1, h2, h3, h4, h5, h6, h7⟩, rfl, rfl, ?_⟩⟩
    have hv := hs.varnobs; have hv' := hs'.varnobs
    rw [g2] at hv hv'
    obtain ⟨a, ha⟩ := Option.isSome_iff_exists.1 hv
    obtain ⟨b, hb⟩ := Option.isSome_iff_exists.1 hv'
    simp [ha, hb]
  · refine ⟨rfl, fun _ => ⟨⟨h1, h2, h3, h4, h5, h6, h7⟩, rfl, rfl, ?_⟩⟩
    have hv := hs.varnobs; have hv' := hs'.varnobs
    simp only [Bool.not_eq_true] at g2
    rw [g2, Option.isSome_eq_false_iff, Option.isNone_iff_eq_none] at hv hv'
    simp [hv, hv']

section
variable [DecidableEq P]

theorem defaultAssign_congr (c : Cfg P K B F R O) (s s' : Vars P K B R O) (hs : WF c s) (hs' : WF c s') :
    Core (defaultAssign c s) (defaultAssign c s') := by
  obtain ⟨h1, h2, h3, h4⟩ := hs
  obtain ⟨h1', h2', h3', h4'⟩ := hs'
  have hcov : (s.cov.map fun _ => Matrix.diagonal c.prefitVariance) =
      s'.cov.map fun _ => Matrix.diagonal c.prefitVariance := by
    rw [← h1'] at h1
    cases hc : s.cov <;> cases hc' : s'.cov <;> simp_all
  have hbb : (s.bb.map fun b => betaDefault (setBeta0 (defaultBeta0 c.betaType) b)) =
      s'.bb.map fun b => betaDefault (setBeta0 (defaultBeta0 c.betaType) b) := by
    rw [← h3'] at h3
    cases hc : s.bb <;> cases hc' : s'.bb <;> simp_all [betaDefault, setBeta0]
  unfold defaultAssign
  simp only [hcov, hbb]
  cases hb : c.doBlinding with
  | true => constructor <;> simp
  | false => constructor <;> simp [h4 hb, h4' hb]

theorem wf_defaultAssign (c : Cfg P K B F R O) (s : Vars P K B R O) (hs : WF c s) : WF c (defaultAssign c s) := by
  obtain ⟨h1, h2, h3, h4⟩ := hs
  unfold defaultAssign
  cases hb : c.doBlinding with
  | true => exact ⟨by simpa using h1, by simpa using h2, by simpa using h3, fun h => by simp [hb] at h⟩
  | false => exact ⟨by simpa using h1, by simpa using h2, by simpa using h3, fun _ => by simpa using h4 hb⟩

end

theorem wf_setNobs (c : Cfg P K B F R O) (v : B → ℝ) (w : Option (B → ℝ)) (s : Vars P K B R O) (hs : WF c s) :
    WF c (setNobs c v w s).1 := by
  obtain ⟨h1, h2, h3, h4⟩ := hs
  unfold setNobs
  split_ifs
  · exact ⟨h1, h2, h3, h4⟩
  · exact ⟨h1, by simpa using h2, h3, h4⟩
  · exact ⟨h1, h2, h3, h4⟩

theorem wf_toyData (c : Cfg P K B F R O) (o : ToyOpts) (d : Draws P K B) (v : B → ℝ) (w : Option (B → ℝ))
    (s : Vars P K B R O) (hs : WF c s) : WF c (toyData c o d v w s).1 := by
  unfold toyData
  dsimp only
  split
  · split_ifs
    · exact hs
    · exact wf_setNobs _ _ _ _ hs
  · split_ifs <;> exact wf_setNobs _ _ _ _ hs
  · exact wf_setNobs _ _ _ _ hs

theorem wf_toySyst (c : Cfg P K B F R O) (o : ToyOpts) (d : Draws P K B) (s : Vars P K B R O) (hs : WF c s) :
    WF c (toySyst c o d s) := by
  obtain ⟨h1, h2, h3, h4⟩ := hs
  unfold toySyst
  split
  · exact ⟨h1, h2, by simpa [bayesAssign] using h3, h4⟩
  · exact ⟨h1, h2, by simpa [frequentistAssign] using h3, h4⟩
  · exact ⟨h1, h2, h3, h4⟩

theorem wf_toyStart (c : Cfg P K B F R O) (o : ToyOpts) (d : Draws P K B) (s : Vars P K B R O) (hs : WF c s) :
    WF c (toyStart c o d s) := by
  obtain ⟨h1, h2, h3, h4⟩ := hs
  unfold toyStart
  dsimp only
  split_ifs
  · exact ⟨h1, h2, by simpa using h3, h4⟩
  · exact ⟨h1, h2, by simpa using h3, h4⟩

theorem toySyst_congr (c : Cfg P K B F R O) (o : ToyOpts) (d : Draws P K B) (s s' : Vars P K B R O)
    (h : Core s s') : Core (toySyst c o d s) (toySyst c o d s') := by
  obtain ⟨h1, h2, h3, h4, h5, h6, h7⟩ := h
  unfold toySyst
  split
  · exact ⟨by simp [bayesAssign, h2], h2, by simp [bayesAssign, h3], h4, h5, h6, h7⟩
  · exact ⟨h1, by simp [frequentistAssign], by simp [frequentistAssign, h3], h4, h5, h6, h7⟩
  · exact ⟨h1, h2, h3, h4, h5, h6, h7⟩

theorem toyStart_congr (c : Cfg P K B F R O) (o : ToyOpts) (d : Draws P K B) (s s' : Vars P K B R O)
    (h : Spec.SameState s s') : toyStart c o d s = toyStart c o d s' := by
  obtain ⟨⟨h1, h2, h3, h4, h5, h6, h7⟩, h8, h9, h10⟩ := h
  cases s; cases s'
  simp only at h1 h2 h3 h4 h5 h6 h7 h8 h9 h10
  subst h1 h2 h3 h4 h5 h6 h7 h8 h9 h10
  rfl

theorem toyData_congr (c : Cfg P K B F R O) (o : ToyOpts) (d : Draws P K B) (v : B → ℝ) (w : Option (B → ℝ))
    (s s' : Vars P K B R O) (hs : WF c s) (hs' : WF c s') (h : Core s s') :
    (toyData c o d v w s).2 = (toyData c o d v w s').2 ∧
    ((toyData c o d v w s).2 = .ok () → Spec.SameState (toyData c o d v w s).1 (toyData c o d v w s').1) := by
  unfold toyData
  dsimp only
  rw [h.x, h.off, h.bb]
  split
  · split_ifs
    · exact ⟨rfl, fun h => by cases h⟩
    · exact setNobs_congr _ _ _ _ _ hs hs' h
  · split_ifs <;> exact setNobs_congr _ _ _ _ _ hs hs' h
  · exact setNobs_congr _ _ _ _ _ hs hs' h

variable [DecidableEq P]

/-- C27: whatever happened to the fitter before, preparing a fit ends in the same state (of everything that is
read later); it depends on the configuration, the data and the random draws of this toy only. -/
theorem c27_prepare_independent (c : Cfg P K B F R O) (o : ToyOpts) (f : Fit) (d : Draws P K B) (v : B → ℝ)
    (w : Option (B → ℝ)) (s s' : Vars P K B R O) (hs : WF c s) (hs' : WF c s') :
    (prepare c o f d v w s).2 = (prepare c o f d v w s').2 ∧
    ((prepare c o f d v w s).2 = .ok () → Spec.SameState (prepare c o f d v w s).1 (prepare c o f d v w s').1) := by
  have h := defaultAssign_congr c s s' hs hs'
  have hw := wf_defaultAssign c s hs
  have hw' := wf_defaultAssign c s' hs'
  unfold prepare
  dsimp only
  cases f with
  | asimov =>
    dsimp only
    rw [h.x, h.off, h.bb]
    exact setNobs_congr _ _ _ _ _ hw hw' h
  | data => exact setNobs_congr _ _ _ _ _ hw hw' h
  | toy =>
    have := toyData_congr c o d v w _ _ (wf_toySyst c o d _ hw) (wf_toySyst c o d _ hw') (toySyst_congr c o d _ _ h)
    dsimp only [toyAssign]
    rcases hA : toyData c o d v w (toySyst c o d (defaultAssign c s)) with ⟨a, ra⟩
    rcases hB : toyData c o d v w (toySyst c o d (defaultAssign c s')) with ⟨b, rb⟩
    rw [hA, hB] at this
    obtain ⟨h1, h2⟩ := this
    simp only at h1; subst h1
    cases ra with
    | error e => exact ⟨rfl, fun h => by cases h⟩
    | ok u =>
      cases u
      refine ⟨rfl, fun _ => ?_⟩
      have := toyStart_congr c o d a b (h2 rfl)
      simp only [this]
      exact ⟨⟨rfl, rfl, rfl, rfl, rfl, rfl, rfl⟩, rfl, rfl, rfl⟩

theorem wf_prepare (c : Cfg P K B F R O) (o : ToyOpts) (f : Fit) (d : Draws P K B) (v : B → ℝ)
    (w : Option (B → ℝ)) (s : Vars P K B R O) (hs : WF c s) : WF c (prepare c o f d v w s).1 := by
  have hw := wf_defaultAssign c s hs
  unfold prepare
  dsimp only
  cases f with
  | asimov => exact wf_setNobs _ _ _ _ hw
  | data => exact wf_setNobs _ _ _ _ hw
  | toy =>
    have := wf_toyData c o d v w _ (wf_toySyst c o d _ hw)
    dsimp only [toyAssign]
    split
    · rename_i h; rw [h] at this; exact this
    · rename_i h; rw [h] at this; exact wf_toyStart c o d _ this

/-- C27: in a run over any list of fits, whatever the earlier fits did, the state in which the `k`-th fit starts is
the one a freshly initialised fitter would reach with the draws of that fit alone. -/
theorem c27_no_accumulation (c : Cfg P K B F R O) (o : ToyOpts) (job : Vars P K B R O → Vars P K B R O)
    (hjob : ∀ s, WF c s → WF c (job s)) (v : B → ℝ) (w : Option (B → ℝ)) (fits : List (Fit × Draws P K B))
    (s fresh : Vars P K B R O) (hs : WF c s) (hfresh : WF c fresh) (k : Nat) (f : Fit) (d : Draws P K B)
    (hk : fits[k]? = some (f, d)) (t : Vars P K B R O) (ht : (runFits c o job v w fits s)[k]? = some t) :
    (prepare c o f d v w fresh).2 = .ok () ∧ Spec.SameState t (prepare c o f d v w fresh).1 := by
  induction fits generalizing s k with
  | nil => simp at hk
  | cons fd fits ih =>
    obtain ⟨f', d'⟩ := fd
    simp only [runFits] at ht
    rcases hp : prepare c o f' d' v w s with ⟨s1, r⟩
    rw [hp] at ht
    cases r with
    | error e => simp at ht
    | ok u =>
      cases u
      simp only at ht
      have hwf : WF c s1 := by have := wf_prepare c o f' d' v w s hs; rw [hp] at this; exact this
      cases k with
      | zero =>
        simp only [List.getElem?_cons_zero, Option.some.injEq, Prod.mk.injEq] at hk ht
        obtain ⟨rfl, rfl⟩ := hk
        subst ht
        have := c27_prepare_independent c o f' d' v w s fresh hs hfresh
        rw [hp] at this
        exact ⟨this.1.symm, this.2 rfl⟩
      | succ k =>
        simp only [List.getElem?_cons_succ] at hk ht
        exact ih (job s1) (hjob s1 hwf) k hk ht

omit [DecidableEq P] in
theorem randomizeFrequentist_beta (c : Cfg P K B F R O) (d : Draws P K B) (b : BetaVars K) :
    (randomizeFrequentist c d b).beta = b.beta := by
  unfold randomizeFrequentist; cases c.betaType <;> rfl

/-- a configuration in which every branch is exercised: chi-square fit, two parameters, one bin -/
def exampleCfg : Cfg (Fin 2) (Fin 1) (Fin 1) (Fin 1) ℝ Unit :=
  { x0default := ![1, 0], cw := ![0, 1], unconstrErr := 0, betaType := .gamma, kstat := fun _ => 4, varbeta := fun _ => 1 / 4,
    chisq := true, covFit := false, doBlinding := false, noOff := (), effX := fun x _ => x,
    yield := fun x _ b => fun _ => x 0 * (b.getD fun _ => 1) 0, yieldFull := fun x _ b => fun _ => x 0 * (b.getD fun _ => 1) 0,
    setExp := fun x y => x 0 + y 0, computeCov := true, bbEnabled := true }

def exampleVars : Vars (Fin 2) (Fin 1) (Fin 1) ℝ Unit :=
  { x := 0, x0 := 0, bb := some ⟨0, 0, 0⟩, nobs := 7, lognobs := 0, varnobs := some 3, nexpnom := 0, varPrefit := 0,
    cov := some 0, off := (), regs := 0 }

def exampleDraws : Draws (Fin 2) (Fin 1) (Fin 1) :=
  { z := 1, normP := fun m s i => m i + s i, mvnP := fun m _ => m, gammaK := fun a => a, poissonK := fun l => l,
    normK := fun m _ => m, normK' := fun m _ => m, poissonB := fun l b => l b + 1, normB := fun m _ => m, mvnB := fun m => m }

example : WF exampleCfg exampleVars := ⟨rfl, rfl, rfl, fun _ => rfl⟩

/-- the run does not stop at an exception: both toys are fitted -/
example : (runFits exampleCfg ⟨.frequentist, .poisson, .expected, true⟩ (fun s => { s with x := fun _ => 5 }) 0 none
    [(.toy, exampleDraws), (.toy, exampleDraws)] exampleVars).length = 2 := by
  have key : ∀ s, WF exampleCfg s →
      (prepare exampleCfg ⟨.frequentist, .poisson, .expected, true⟩ .toy exampleDraws 0 none s).2 = .ok () := by
    intro s hs
    rw [(c27_prepare_independent exampleCfg _ .toy exampleDraws 0 none s exampleVars hs ⟨rfl, rfl, rfl, fun _ => rfl⟩).1]
    simp only [prepare, toyAssign, toyData, toySyst, frequentistAssign, defaultAssign, exampleCfg, exampleVars,
      exampleDraws, setNobs, Option.map_some, setBeta0, betaDefault, defaultBeta0]
    norm_num [randomizeFrequentist_beta]
  have step : ∀ s, WF exampleCfg s → ∃ s',
      prepare exampleCfg ⟨.frequentist, .poisson, .expected, true⟩ .toy exampleDraws 0 none s = (s', .ok ()) ∧
      WF exampleCfg s' := by
    intro s hs
    have h1 := key s hs
    have h2 := wf_prepare exampleCfg ⟨.frequentist, .poisson, .expected, true⟩ .toy exampleDraws 0 none s hs
    exact ⟨_, Prod.ext rfl h1, h2⟩
  obtain ⟨s1, h1, hw1⟩ := step exampleVars ⟨rfl, rfl, rfl, fun _ => rfl⟩
  obtain ⟨s2, h2, -⟩ := step { s1 with x := fun _ => 5 } ⟨hw1.1, hw1.2, hw1.3, hw1.4⟩
  simp [runFits, h1, h2]

open FitParams in
/-- C27 for the frozen set (missing: scans of a parameter the user froze, see `c27_scan_violated`): a scan of
parameters none of which is frozen leaves the frozen set as it was. -/
theorem c27_scan_keeps_frozen_partial (rx : Regex) (parm : String) (s : FreezeState) (hu : updateFrozen s = s)
    (h : ∀ n ∈ s.parms, Spec.Selects rx parm n → n ∉ s.frozenParams) (hok : (rx parm).isSome) :
    (scanFrozen rx parm s).mask = s.mask := by
  have hm : ∃ ms, matchParams rx [parm] s.parms = .ok ms := by
    cases hm : matchParams rx [parm] s.parms with
    | ok ms => exact ⟨ms, rfl⟩
    | error e =>
      obtain ⟨x, hx, hx'⟩ := (c25_raises_iff rx [parm] s.parms).1 ⟨e, hm⟩
      rw [List.mem_singleton] at hx; subst hx; simp [hx'] at hok
  obtain ⟨ms, hm⟩ := hm
  have hsel := c25_selects rx [parm] s.parms ms hm
  have hmask : s.mask = s.parms.map fun p => s.frozenParams.contains p := (congrArg FreezeState.mask hu).symm
  rw [hmask]
  simp only [scanFrozen, freezeParams, hm, defreezeParams, updateFrozen]
  refine List.map_congr_left fun p hp => ?_
  rw [Bool.eq_iff_iff]
  simp only [List.contains_eq_mem, List.mem_filter, List.mem_append, Bool.not_eq_true', decide_eq_true_eq,
    decide_eq_false_iff_not]
  constructor
  · rintro ⟨h1 | h1, h2⟩
    · exact h1
    · exact absurd h1 h2
  · intro h1
    refine ⟨.inl h1, fun h2 => ?_⟩
    obtain ⟨-, e, he, hs⟩ := (hsel p).1 h2
    rw [List.mem_singleton] at he; subst he
    exact h p hp hs h1

open FitParams in
/-- C27 is violated by scans of a parameter the user froze: the next fit starts with it floating. -/
theorem c27_scan_violated : ∃ (rx : Regex) (s : FreezeState),
    (freezeParams rx ["a"] (FreezeState.init ["a", "b"])).1 = s ∧ s.mask = [true, false] ∧
      (scanFrozen rx "a" s).mask = [false, false] :=
  ⟨exampleRx, _, rfl, by decide +kernel, by decide +kernel⟩

open FitParams in
example : (scanFrozen exampleRx "b" (freezeParams exampleRx ["a"] (FreezeState.init ["a", "b"])).1).mask = [true, false] := by
  decide +kernel

/-! ### C28 -/

omit [DecidableEq P] in
theorem scatter_not_mem {ι κ α : Type*} [DecidableEq ι] (v : ι → α) (w : κ → α) (ps : List (ι × κ)) (i : ι)
    (h : ∀ p ∈ ps, p.1 ≠ i) : scatter v w ps i = v i := by
  unfold scatter
  induction ps generalizing v with
  | nil => rfl
  | cons p ps ih =>
    rw [List.foldl_cons, ih _ fun q hq => h q (List.mem_cons_of_mem _ hq),
      Function.update_of_ne (h p (List.mem_cons_self)).symm]

theorem scatter_mem {ι κ α : Type*} [DecidableEq ι] (v : ι → α) (w : κ → α) (ps : List (ι × κ)) (i : ι) (j : κ)
    (hmem : (i, j) ∈ ps) (huniq : ∀ j', (i, j') ∈ ps → j' = j) : scatter v w ps i = w j := by
  unfold scatter
  induction ps generalizing v with
  | nil => simp at hmem
  | cons p ps ih =>
    rw [List.foldl_cons]
    by_cases hp : ∃ j', (i, j') ∈ ps
    · obtain ⟨j', hj'⟩ := hp
      have := huniq j' (List.mem_cons_of_mem _ hj')
      subst this
      exact ih _ hj' fun j' h => huniq j' (List.mem_cons_of_mem _ h)
    · have hpi : p = (i, j) := by
        rcases List.mem_cons.1 hmem with h | h
        · exact h.symm
        · exact absurd ⟨j, h⟩ hp
      have := scatter_not_mem (Function.update v p.1 (w p.2)) w ps i (by
        rintro ⟨a, b⟩ hq rfl; exact hp ⟨b, hq⟩)
      unfold scatter at this
      rw [this, hpi, Function.update_self]

theorem idx_unique {l : List String} (hl : l.Nodup) {i j : Nat} {n : String} (hi : l[i]? = some n) (hj : l[j]? = some n) :
    i = j := by
  obtain ⟨hi', hi⟩ := List.getElem?_eq_some_iff.1 hi
  obtain ⟨hj', hj⟩ := List.getElem?_eq_some_iff.1 hj
  exact (List.Nodup.getElem_inj_iff hl).1 (hi.trans hj.symm)

theorem mem_ixPairs (ps : List (Nat × Nat)) (i i' j j' : Nat) :
    ((i, i'), (j, j')) ∈ ixPairs ps ↔ (i, j) ∈ ps ∧ (i', j') ∈ ps := by
  simp only [ixPairs, List.mem_flatMap, List.mem_map, Prod.mk.injEq, Prod.exists]
  constructor
  · rintro ⟨a, b, h, c, d, h', ⟨rfl, rfl⟩, rfl, rfl⟩; exact ⟨h, h'⟩
  · rintro ⟨h, h'⟩; exact ⟨i, j, h, i', j', h', ⟨rfl, rfl⟩, rfl, rfl⟩

variable (inter : (a b : List String) → List (Nat × Nat)) (hinter : IntersectSpec inter) (parms : List String)
  (hparms : parms.Nodup) (e : External) (he : e.parms.Nodup) (s : Loaded)

include hinter hparms he

/-- C28: common parameters get the loaded values. -/
theorem c28_common_values (i j : Nat) (n : String) (hi : parms[i]? = some n) (hj : e.parms[j]? = some n) :
    (loadFitresult inter parms e s).1.x i = e.x j := by
  have hx : (loadFitresult inter parms e s).1.x = scatter s.x e.x (inter parms e.parms) := by
    unfold loadFitresult; dsimp only; split
    · rfl
    · split <;> rfl
  rw [hx]
  have hspec := (hinter parms e.parms hparms he).2
  refine scatter_mem _ _ _ _ _ ((hspec i j).2 ⟨n, hi, hj⟩) fun j' hj' => ?_
  obtain ⟨m, hm, hm'⟩ := (hspec i j').1 hj'
  rw [hi] at hm; cases hm
  exact idx_unique he hm' hj

/-- C28: parameters absent from the file keep their values. -/
theorem c28_others_kept (i : Nat) (n : String) (hi : parms[i]? = some n) (hn : n ∉ e.parms) :
    (loadFitresult inter parms e s).1.x i = s.x i := by
  have hx : (loadFitresult inter parms e s).1.x = scatter s.x e.x (inter parms e.parms) := by
    unfold loadFitresult; dsimp only; split
    · rfl
    · split <;> rfl
  rw [hx]
  have hspec := (hinter parms e.parms hparms he).2
  refine scatter_not_mem _ _ _ _ fun p hp hpi => ?_
  obtain ⟨a, b⟩ := p
  obtain ⟨m, hm, hm'⟩ := (hspec a b).1 hp
  subst hpi
  rw [hi] at hm; cases hm
  exact hn (List.mem_of_getElem? hm')

/-- C28: the covariance entries are placed at the row and column of their parameters. -/
theorem c28_covariance (C ce : Nat → Nat → ℝ) (hC : s.cov = some C) (hce : e.cov = some ce) :
    ∃ C', (loadFitresult inter parms e s).1.cov = some C' ∧ (loadFitresult inter parms e s).2 = .ok () ∧
      (loadFitresult inter parms e s).1.covLoaded = true ∧
      (∀ i i' j j' n n', parms[i]? = some n → parms[i']? = some n' → e.parms[j]? = some n → e.parms[j']? = some n' →
        C' i i' = ce j j') ∧
      (∀ i i' n n', parms[i]? = some n → parms[i']? = some n' → (n ∉ e.parms ∨ n' ∉ e.parms) → C' i i' = C i i') := by
  have hspec := (hinter parms e.parms hparms he).2
  refine ⟨_, by simp only [loadFitresult, hce, hC]; rfl, by simp [loadFitresult, hce, hC],
    by simp [loadFitresult, hce, hC], ?_, ?_⟩
  · intro i i' j j' n n' hi hi' hj hj'
    refine scatter_mem _ (fun p : Nat × Nat => ce p.1 p.2) _ _ (j, j')
      ((mem_ixPairs _ _ _ _ _).2 ⟨(hspec i j).2 ⟨n, hi, hj⟩, (hspec i' j').2 ⟨n', hi', hj'⟩⟩) ?_
    rintro ⟨k, k'⟩ hk
    obtain ⟨h1, h2⟩ := (mem_ixPairs _ _ _ _ _).1 hk
    obtain ⟨m, hm, hm'⟩ := (hspec i k).1 h1
    obtain ⟨m', hm2, hm2'⟩ := (hspec i' k').1 h2
    rw [hi] at hm; cases hm
    rw [hi'] at hm2; cases hm2
    rw [idx_unique he hm' hj, idx_unique he hm2' hj']
  · intro i i' n n' hi hi' hn
    refine scatter_not_mem (fun p : Nat × Nat => C p.1 p.2) _ _ (i, i') ?_
    rintro ⟨⟨a, a'⟩, b, b'⟩ hp hpe
    simp only [Prod.mk.injEq] at hpe
    obtain ⟨rfl, rfl⟩ := hpe
    obtain ⟨h1, h2⟩ := (mem_ixPairs _ _ _ _ _).1 hp
    obtain ⟨m, hm, hm'⟩ := (hspec a b).1 h1
    obtain ⟨m', hm2, hm2'⟩ := (hspec a' b').1 h2
    rw [hi] at hm; cases hm
    rw [hi'] at hm2; cases hm2
    exact hn.elim (fun h => h (List.mem_of_getElem? hm')) (fun h => h (List.mem_of_getElem? hm2'))

omit hinter hparms he in
/-- C28: a covariance is neither loaded nor lost otherwise: without one in the file the present one is kept, and
with `--noHessian` the load is refused. -/
theorem c28_covariance_absent :
    (e.cov = none → (loadFitresult inter parms e s).1.cov = s.cov ∧
      (loadFitresult inter parms e s).1.covLoaded = false ∧ (loadFitresult inter parms e s).2 = .ok ()) ∧
    (∀ ce, e.cov = some ce → s.cov = none → (loadFitresult inter parms e s).2 = .error .runtime ∧
      (loadFitresult inter parms e s).1.cov = none ∧ (loadFitresult inter parms e s).1.covLoaded = false) := by
  constructor
  · intro h; simp [loadFitresult, h]
  · intro ce h h'; simp [loadFitresult, h, h']

end

/-- the specification of the intersection is met by the implementation -/
theorem intersectImpl_spec : IntersectSpec intersectImpl := by
  intro a b ha hb
  have hmem : ∀ i j : Nat, (i, j) ∈ intersectImpl a b ↔ ∃ n, a[i]? = some n ∧ b[j]? = some n := by
    intro i j
    simp only [intersectImpl, List.mem_filterMap, List.mem_range]
    constructor
    · rintro ⟨k, hk, h⟩
      rw [List.getElem?_eq_getElem hk] at h
      simp only at h
      split at h
      · rename_i j' hj'
        simp only [Option.some.injEq, Prod.mk.injEq] at h
        obtain ⟨rfl, rfl⟩ := h
        obtain ⟨hlt, heq, -⟩ := List.findIdx?_eq_some_iff_getElem.1 hj'
        exact ⟨a[k], List.getElem?_eq_getElem hk, by rw [List.getElem?_eq_getElem hlt]; simpa using heq⟩
      · cases h
    · rintro ⟨n, hi, hj⟩
      obtain ⟨hi', hi2⟩ := List.getElem?_eq_some_iff.1 hi
      obtain ⟨hj', hj2⟩ := List.getElem?_eq_some_iff.1 hj
      refine ⟨i, hi', ?_⟩
      rw [hi]
      have : b.findIdx? (· == n) = some j := by
        rw [List.findIdx?_eq_some_iff_getElem]
        refine ⟨hj', by simp [hj2], fun k hk => ?_⟩
        have hk' : k < b.length := hk.trans hj'
        simp only [beq_iff_eq]
        intro hc
        have := (List.Nodup.getElem_inj_iff hb (hi := hk') (hj := hj')).1 (hc.trans hj2.symm)
        omega
      simp [this]
  refine ⟨?_, hmem⟩
  unfold intersectImpl
  refine List.Nodup.filterMap ?_ List.nodup_range
  intro i i' p hp hp'
  have h1 : p.1 = i := by
    simp only [Option.mem_def] at hp
    split at hp
    · split at hp
      · simp only [Option.some.injEq] at hp; rw [← hp]
      · cases hp
    · cases hp
  have h2 : p.1 = i' := by
    simp only [Option.mem_def] at hp'
    split at hp'
    · split at hp'
      · simp only [Option.some.injEq] at hp'; rw [← hp']
      · cases hp'
    · cases hp'
  exact h1.symm.trans h2

/-- loading a file with a different order and an unknown parameter -/
example : (loadFitresult intersectImpl ["mu", "lumi", "jes"] ⟨["jes", "other", "mu"], fun j => 10 + j, none⟩
    ⟨fun _ => 0, none, false⟩).1.x 0 = 10 + (2 : ℕ) :=
  c28_common_values intersectImpl intersectImpl_spec _ (by decide) _ (by decide) _ 0 2 "mu" rfl rfl

end Verif.FitState
