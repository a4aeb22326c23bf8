import Verif.Model.LimitRun
import Verif.Props.FitState
import Verif.Props.Expected
import Verif.Props.FullNll

/-! C78: the fits behind the limits. -/

namespace Verif.LimitRun

open Verif.FitParams Verif.FitState

noncomputable section

variable {P K B F R O : Type*} [DecidableEq P]

/-- What a fit may do: move parameters that are not frozen, and the β parameters (C24, C29-C32).  The data, the
constraint centres and the blinding offsets stay. -/
structure Spec.IsFit (names : P → String) (minimise : FreezeState → Vars P K B R O → Res (Vars P K B R O)) : Prop where
  keeps : ∀ frz v v', minimise frz v = .ok v' → v'.nobs = v.nobs ∧ v'.varnobs = v.varnobs ∧ v'.x0 = v.x0 ∧ v'.off = v.off
  frozen : ∀ frz v v', minimise frz v = .ok v' → ∀ i, names i ∈ frz.frozenParams → v'.x i = v.x i

/-- the parameters selected for a limit -/
def Spec.selected (rx : Regex) (limits : List String) (p : String) : Prop := ∃ e ∈ limits, FitParams.Spec.Selects rx e p

theorem setNobs_ok {c : Cfg P K B F R O} {w : B → ℝ} {u : Option (B → ℝ)} {v v' : Vars P K B R O}
    (h : FitState.setNobs c w u v = (v', .ok ())) :
    v'.nobs = w ∧ v'.x = v.x ∧ v'.x0 = v.x0 ∧ v'.off = v.off ∧ v'.bb = v.bb ∧ v'.cov = v.cov := by
  unfold FitState.setNobs at h
  split_ifs at h
  · exact nomatch (Prod.mk.inj h).2
  all_goals
    obtain ⟨rfl, -⟩ := Prod.mk.inj h
    exact ⟨rfl, rfl, rfl, rfl, rfl, rfl⟩

theorem freeze_ok {rx : Regex} {es : List String} {s s' : FreezeState} (h : freezeParams rx es s = (s', .ok ())) :
    s'.parms = s.parms ∧ ∀ p ∈ s.parms, p ∈ s'.frozenParams ↔ p ∈ s.frozenParams ∨ Spec.selected rx es p := by
  unfold freezeParams at h
  cases hm : matchParams rx es s.parms with
  | error e => rw [hm] at h; exact nomatch h
  | ok ms =>
    rw [hm] at h
    obtain ⟨rfl, -⟩ := Prod.mk.inj h
    refine ⟨rfl, fun p hp => ?_⟩
    have := c25_selects rx es s.parms ms hm p
    simp only [updateFrozen, List.mem_append, this, Spec.selected, hp, true_and]

theorem defreeze_ok {rx : Regex} {es : List String} {s s' : FreezeState} (h : defreezeParams rx es s = (s', .ok ())) :
    s'.parms = s.parms ∧ ∀ p ∈ s.parms, p ∈ s'.frozenParams ↔ p ∈ s.frozenParams ∧ ¬ Spec.selected rx es p := by
  unfold defreezeParams at h
  cases hm : matchParams rx es s.parms with
  | error e => rw [hm] at h; exact nomatch h
  | ok ms =>
    rw [hm] at h
    obtain ⟨rfl, -⟩ := Prod.mk.inj h
    refine ⟨rfl, fun p hp => ?_⟩
    have := c25_selects rx es s.parms ms hm p
    simp only [updateFrozen, List.mem_filter, Bool.not_eq_true', List.contains_eq_mem, decide_eq_false_iff_not, this,
      Spec.selected, hp, true_and]

/-- what the fit without signal leaves behind -/
theorem backgroundFit_ok {c : Cfg P K B F R O} {rx : Regex}
    {minimise : FreezeState → Vars P K B R O → Res (Vars P K B R O)} {limits : List String} {f g : Fitter P K B R O}
    {names : P → String} (hf : Spec.IsFit names minimise) (hn : ∀ i, names i ∈ f.frz.parms)
    (h : backgroundFit c rx minimise limits f = .ok g) :
    g.vars.nobs = c.yield g.vars.x g.vars.off (g.vars.bb.map (·.beta)) ∧ g.vars.x0 = f.vars.x0 ∧ g.vars.off = f.vars.off ∧
      (∀ i, names i ∈ f.frz.frozenParams ∨ Spec.selected rx limits (names i) → g.vars.x i = f.vars.x i) ∧
      g.frz.parms = f.frz.parms ∧
      ∀ p ∈ f.frz.parms, p ∈ g.frz.frozenParams ↔ p ∈ f.frz.frozenParams ∧ ¬ Spec.selected rx limits p := by
  unfold backgroundFit at h
  rcases h1 : freezeParams rx limits f.frz with ⟨frz, e | u⟩
  · rw [h1] at h; exact nomatch h
  rw [h1] at h
  dsimp only at h
  cases h2 : minimise frz f.vars with
  | error e => rw [h2] at h; exact nomatch h
  | ok v =>
    rw [h2] at h
    dsimp only at h
    rcases h3 : setAsimov c v with ⟨v', e | u⟩
    · rw [h3] at h; exact nomatch h
    rw [h3] at h
    dsimp only at h
    rcases h4 : defreezeParams rx limits frz with ⟨frz', e | u⟩
    · rw [h4] at h; exact nomatch h
    rw [h4] at h
    obtain rfl := (Except.ok.inj h).symm
    obtain ⟨f1, f2⟩ := freeze_ok h1
    obtain ⟨d1, d2⟩ := defreeze_ok h4
    obtain ⟨n1, n2, n3, n4, n5, -⟩ := setNobs_ok h3
    obtain ⟨-, -, k3, k4⟩ := hf.keeps _ _ _ h2
    refine ⟨by rw [n1, n2, n4, n5], n3.trans k3, n4.trans k4, fun i hi => ?_, d1.trans f1, fun p hp => ?_⟩
    · rw [n2]
      exact hf.frozen _ _ _ h2 i ((f2 _ (hn i)).2 hi)
    · rw [d2 p (f1 ▸ hp), f2 p hp]
      constructor
      · rintro ⟨h | h, hs⟩
        exacts [⟨h, hs⟩, absurd h hs]
      · rintro ⟨h, hs⟩
        exact ⟨.inl h, hs⟩

omit [DecidableEq P] in
theorem assignCov_ok {hess : FreezeState → Vars P K B R O → Res (Matrix P P ℝ)} {nh : Bool} {f g : Fitter P K B R O}
    (h : assignCov hess nh f = .ok g) : g.frz = f.frz ∧ g.vars.nobs = f.vars.nobs ∧ g.vars.x = f.vars.x ∧ g.vars.x0 = f.vars.x0 ∧
      g.vars.off = f.vars.off ∧ g.vars.bb = f.vars.bb := by
  unfold assignCov at h
  split_ifs at h
  · cases h; exact ⟨rfl, rfl, rfl, rfl, rfl, rfl⟩
  · cases hh : hess f.frz f.vars with
    | error e => rw [hh] at h; exact nomatch h
    | ok C => rw [hh] at h; cases h; exact ⟨rfl, rfl, rfl, rfl, rfl, rfl⟩

/-- the two fitters of a fit to data -/
theorem doLimits_ok {c : Cfg P K B F R O} {rx : Regex}
    {minimise : FreezeState → Vars P K B R O → Res (Vars P K B R O)} {hess : FreezeState → Vars P K B R O → Res (Matrix P P ℝ)}
    {limits : List String} {nh : Bool} {w : B → ℝ} {f a b : Fitter P K B R O}
    {names : P → String} (hf : Spec.IsFit names minimise) (hn : ∀ i, names i ∈ f.frz.parms)
    (h : doLimits c rx minimise hess limits nh w true f = .ok (a, b)) :
    b.vars.nobs = w ∧ b.vars.x0 = f.vars.x0 ∧ b.vars.off = f.vars.off ∧ b.frz = a.frz ∧
    a.vars.nobs = c.yield a.vars.x a.vars.off (a.vars.bb.map (·.beta)) ∧ a.vars.x0 = f.vars.x0 ∧ a.vars.off = f.vars.off ∧
      (∀ i, names i ∈ f.frz.frozenParams ∨ Spec.selected rx limits (names i) → a.vars.x i = f.vars.x i) ∧
      a.frz.parms = f.frz.parms ∧
      ∀ p ∈ f.frz.parms, p ∈ a.frz.frozenParams ↔ p ∈ f.frz.frozenParams ∧ ¬ Spec.selected rx limits p := by
  unfold doLimits at h
  simp only [if_true] at h
  cases h1 : backgroundFit c rx minimise limits f with
  | error e => rw [h1] at h; exact nomatch h
  | ok g =>
    rw [h1] at h
    dsimp only at h
    cases h2 : assignCov hess nh g with
    | error e => rw [h2] at h; exact nomatch h
    | ok a' =>
      rw [h2] at h
      dsimp only at h
      rcases h3 : FitState.setNobs c w none a'.vars with ⟨v, e | u⟩
      · rw [h3] at h; exact nomatch h
      rw [h3] at h
      dsimp only at h
      cases h4 : minimise a'.frz v with
      | error e => rw [h4] at h; exact nomatch h
      | ok v' =>
        rw [h4] at h
        obtain ⟨rfl, rfl⟩ := Prod.mk.inj (Except.ok.inj h)
        obtain ⟨b1, b2, b3, b4, b5, b6⟩ := backgroundFit_ok hf hn h1
        obtain ⟨c1, c2, c3, c4, c5, c6⟩ := assignCov_ok h2
        obtain ⟨n1, -, n3, n4, -, -⟩ := setNobs_ok h3
        obtain ⟨k1, -, k3, k4⟩ := hf.keeps _ _ _ h4
        refine ⟨k1.trans n1, ?_, ?_, rfl, ?_, c4.trans b2, c5.trans b3, ?_, ?_, ?_⟩
        · rw [k3, n3, c4, b2]
        · rw [k4, n4, c5, b3]
        · rw [c2, c3, c5, c6, b1]
        · intro i hi; rw [c3]; exact b4 i hi
        · rw [c1, b5]
        · intro p hp; rw [c1]; exact b6 p hp

theorem defaultAssign_fields (c : Cfg P K B F R O) (s : Vars P K B R O) :
    (defaultAssign c s).x = c.x0default ∧ (defaultAssign c s).x0 = c.x0default ∧
      (c.doBlinding = true → (defaultAssign c s).off = c.noOff) := by
  unfold defaultAssign
  cases c.doBlinding <;> simp

section

variable {c : Cfg P K B F R O} {o : ToyOpts} {rx : Regex}
  {minimise : FreezeState → Vars P K B R O → Res (Vars P K B R O)} {hess : FreezeState → Vars P K B R O → Res (Matrix P P ℝ)}
  {limits : List String} {nh : Bool} {d : Draws P K B} {w : B → ℝ} {wv : Option (B → ℝ)} {f a b : Fitter P K B R O}
  {names : P → String}

/-- C78, limits on data: the observed limit comes from a fit to the data, with the default constraint centres; the
expected limits come from a fitter whose data are its own prediction, with the parameters of the limit held where they
start. -/
theorem c78_data (hf : Spec.IsFit names minimise) (hn : ∀ i, names i ∈ f.frz.parms)
    (h : limitRun c o rx minimise hess limits nh .data d w wv f = .ok (a, b)) :
    b.vars.nobs = w ∧ b.vars.x0 = c.x0default ∧
    a.vars.nobs = c.yield a.vars.x a.vars.off (a.vars.bb.map (·.beta)) ∧ a.vars.x0 = c.x0default ∧
    ∀ i, Spec.selected rx limits (names i) → a.vars.x i = c.x0default i := by
  unfold limitRun prepare at h
  dsimp only at h
  rcases h1 : FitState.setNobs c w none (defaultAssign c f.vars) with ⟨v, e | u⟩
  · rw [h1] at h; exact nomatch h
  rw [h1] at h
  simp only [reduceCtorEq, if_false, ne_eq, not_false_eq_true, decide_true] at h
  obtain ⟨-, n2, n3, -⟩ := setNobs_ok h1
  obtain ⟨e1, e2, -, -, e5, e6, -, e8, -, -⟩ := doLimits_ok (f := ⟨v, f.frz⟩) hf hn h
  obtain ⟨q1, q2, -⟩ := defaultAssign_fields c f.vars
  refine ⟨e1, ?_, e5, ?_, fun i hi => ?_⟩
  · rw [e2, n3, q2]
  · rw [e6, n3, q2]
  · rw [e8 i (.inr hi), n2, q1]

/-- C78, Asimov data: nothing is fitted, both fitters are at the default values, and their data are the prediction there. -/
theorem c78_asimov (h : limitRun c o rx minimise hess limits nh .asimov d w wv f = .ok (a, b)) :
    a = b ∧ a.vars.x = c.x0default ∧ a.vars.x0 = c.x0default ∧ a.frz = f.frz ∧
    a.vars.nobs = c.yield a.vars.x a.vars.off (a.vars.bb.map (·.beta)) := by
  unfold limitRun prepare at h
  dsimp only at h
  rcases h1 : FitState.setNobs c (c.yield (defaultAssign c f.vars).x (defaultAssign c f.vars).off
    ((defaultAssign c f.vars).bb.map (·.beta))) none (defaultAssign c f.vars) with ⟨v, e | u⟩
  · rw [h1] at h; exact nomatch h
  rw [h1] at h
  simp only [if_true, ne_eq, not_true_eq_false, decide_false, doLimits, Bool.false_eq_true, if_false] at h
  obtain ⟨n1, n2, n3, n4, n5, -⟩ := setNobs_ok h1
  obtain ⟨q1, q2, -⟩ := defaultAssign_fields c f.vars
  cases h2 : assignCov hess nh ⟨v, f.frz⟩ with
  | error e => rw [h2] at h; exact nomatch h
  | ok g =>
    rw [h2] at h
    obtain ⟨rfl, rfl⟩ := Prod.mk.inj (Except.ok.inj h)
    obtain ⟨c1, c2, c3, c4, c5, c6⟩ := assignCov_ok h2
    dsimp only at c1 c2 c3 c4 c5 c6
    exact ⟨rfl, by rw [c3, n2, q1], by rw [c4, n3, q2], c1, by rw [c2, c3, c5, c6, n1, n2, n4, n5]⟩

/-- the signal strength that the model reads from the stored value of parameter `k` -/
def Spec.strength (neg : Bool) (npoi k : Nat) (x : ℝ) : ℝ := if neg = true ∨ npoi ≤ k then x else x ^ 2

theorem strength_eq {params : List String} {expect : List (String × ℝ)} {npoi : Nat} {neg : Bool} (hnd : params.Nodup)
    (hnp : npoi ≤ params.length) {dv : List ℝ} (hd : ParamModels.setParamDefault Real.sqrt params npoi neg expect = .ok dv)
    (k : Nat) (p : String) (hk : params[k]? = some p)
    (hpos : neg = true ∨ npoi ≤ k ∨ 0 ≤ SatTest.Spec.requested expect p) (x : ℝ) (hx : dv[k]? = some x) :
    Spec.strength neg npoi k x = SatTest.Spec.requested expect p := by
  obtain ⟨-, h⟩ := SatTest.c73_start (m := { SatTest.muModel npoi (params.take npoi) dv neg with npoi := npoi, allowNeg := neg })
    hnd hnp hd k p hk hpos
  unfold SatTest.effective at h
  dsimp only at h
  have hlen : k < dv.length := (List.getElem?_eq_some_iff.1 hx).1
  have hv : dv[k] = x := (List.getElem?_eq_some_iff.1 hx).2
  unfold Spec.strength
  cases neg with
  | true =>
    simp only [if_true, List.take_append_drop] at h
    rw [hx] at h
    simpa using h
  | false =>
    simp only [Bool.false_eq_true, if_false, false_or] at h ⊢
    by_cases hkn : npoi ≤ k
    · rw [if_pos hkn]
      rw [List.getElem?_append_right (by simp; omega), List.getElem?_drop, List.length_map, List.length_take,
        show npoi + (k - min npoi dv.length) = k by omega, hx] at h
      simpa using h
    · rw [if_neg hkn]
      rw [List.getElem?_append_left (by simp; omega), List.getElem?_map, List.getElem?_take_of_lt (by omega), hx] at h
      simpa using h

/-- C78: the expected limits are for the signal that the user asked for with `--expectSignal`, so without signal if the
user asked for none (missing: without such a request, see `c78_signal_violated`). -/
theorem c78_signal_partial (hf : Spec.IsFit names minimise) (hn : ∀ i, names i ∈ f.frz.parms)
    (h : limitRun c o rx minimise hess limits nh .data d w wv f = .ok (a, b))
    {params : List String} {expect : List (String × ℝ)} {npoi : Nat} {neg : Bool} (hnd : params.Nodup)
    (hnp : npoi ≤ params.length) {dv : List ℝ} (hd : ParamModels.setParamDefault Real.sqrt params npoi neg expect = .ok dv)
    (k : Nat) (i : P) (hk : params[k]? = some (names i)) (hdef : dv[k]? = some (c.x0default i))
    (hi : Spec.selected rx limits (names i)) (h0 : 0 ≤ SatTest.Spec.requested expect (names i)) :
    Spec.strength neg npoi k (a.vars.x i) = SatTest.Spec.requested expect (names i) := by
  obtain ⟨-, -, -, -, hx⟩ := c78_data hf hn h
  rw [hx i hi]
  exact strength_eq hnd hnp hd k _ hk (.inr (.inr h0)) _ hdef

/-- C78 does not hold if no expected signal is given: the comment says that the signal is set to zero, but it is frozen at
its default, strength one; the expected limits are those of a data set that contains the signal. -/
theorem c78_signal_violated (hf : Spec.IsFit names minimise) (hn : ∀ i, names i ∈ f.frz.parms)
    (h : limitRun c o rx minimise hess limits nh .data d w wv f = .ok (a, b))
    {params : List String} {expect : List (String × ℝ)} {npoi : Nat} {neg : Bool} (hnd : params.Nodup)
    (hnp : npoi ≤ params.length) {dv : List ℝ} (hd : ParamModels.setParamDefault Real.sqrt params npoi neg expect = .ok dv)
    (k : Nat) (i : P) (hk : params[k]? = some (names i)) (hdef : dv[k]? = some (c.x0default i))
    (hi : Spec.selected rx limits (names i)) (hne : ∀ e ∈ expect, e.1 ≠ names i) :
    Spec.strength neg npoi k (a.vars.x i) = 1 := by
  have hr : SatTest.Spec.requested expect (names i) = 1 := by
    unfold SatTest.Spec.requested
    have : expect.reverse.lookup (names i) = none := by
      rw [List.lookup_eq_none_iff]
      intro e he
      have := hne e (List.mem_reverse.1 he)
      simpa using fun hh => this hh.symm
    rw [this]; rfl
  rw [← hr]
  exact c78_signal_partial hf hn h hnd hnp hd k i hk hdef hi (by rw [hr]; exact zero_le_one)

/-- C78 does not hold for toys: the toy data enter only the fit with the signal frozen; the observed limit of every toy
comes from a fit to the data of the file. -/
theorem c78_toy_violated (hf : Spec.IsFit names minimise) (hn : ∀ i, names i ∈ f.frz.parms)
    (h : limitRun c o rx minimise hess limits nh .toy d w wv f = .ok (a, b)) :
    b.vars.nobs = w ∧ ((prepare c o .toy d w wv f.vars).1.nobs ≠ w →
      b.vars.nobs ≠ (prepare c o .toy d w wv f.vars).1.nobs) := by
  unfold limitRun at h
  rcases h1 : prepare c o .toy d w wv f.vars with ⟨v, e | u⟩
  · rw [h1] at h; exact nomatch h
  rw [h1] at h
  simp only [reduceCtorEq, if_false, ne_eq, not_false_eq_true, decide_true] at h
  obtain ⟨e1, -⟩ := doLimits_ok (f := ⟨v, f.frz⟩) hf hn h
  exact ⟨e1, fun hne he => hne (he ▸ e1)⟩

/-- C78 does not hold for blinding: the fitter is set up to blind fits to data, but the offsets are never switched on, so
that the limits are those of the true values. -/
theorem c78_blinding_violated (hf : Spec.IsFit names minimise) (hn : ∀ i, names i ∈ f.frz.parms) (hb : c.doBlinding = true)
    (h : limitRun c o rx minimise hess limits nh .data d w wv f = .ok (a, b)) :
    a.vars.off = c.noOff ∧ b.vars.off = c.noOff := by
  unfold limitRun prepare at h
  dsimp only at h
  rcases h1 : FitState.setNobs c w none (defaultAssign c f.vars) with ⟨v, e | u⟩
  · rw [h1] at h; exact nomatch h
  rw [h1] at h
  simp only [reduceCtorEq, if_false, ne_eq, not_false_eq_true, decide_true] at h
  obtain ⟨-, -, -, n4, -⟩ := setNobs_ok h1
  obtain ⟨-, -, e3, -, -, -, e7, -⟩ := doLimits_ok (f := ⟨v, f.frz⟩) hf hn h
  have q := (defaultAssign_fields c f.vars).2.2 hb
  exact ⟨by rw [e7, n4, q], by rw [e3, n4, q]⟩

/-- C78: parameters that no limit selects stay frozen or free as the user asked (missing: selected parameters, see
`c78_released_violated`). -/
theorem c78_frozen_partial (hf : Spec.IsFit names minimise) (hn : ∀ i, names i ∈ f.frz.parms) (fit : Fit)
    (h : limitRun c o rx minimise hess limits nh fit d w wv f = .ok (a, b)) (p : String) (hp : p ∈ f.frz.parms)
    (hs : ¬ Spec.selected rx limits p) :
    (p ∈ a.frz.frozenParams ↔ p ∈ f.frz.frozenParams) ∧ (p ∈ b.frz.frozenParams ↔ p ∈ f.frz.frozenParams) := by
  by_cases ha : fit = .asimov
  · subst ha
    obtain ⟨rfl, -, -, hfr, -⟩ := c78_asimov h
    rw [hfr]; exact ⟨Iff.rfl, Iff.rfl⟩
  · unfold limitRun at h
    rcases h1 : prepare c o fit d w wv f.vars with ⟨v, e | u⟩
    · rw [h1] at h; exact nomatch h
    rw [h1] at h
    simp only [ha, if_false, ne_eq, not_false_eq_true, decide_true] at h
    obtain ⟨-, -, -, e4, -, -, -, -, -, e10⟩ := doLimits_ok (f := ⟨v, f.frz⟩) hf hn h
    have := e10 p hp
    rw [e4, this]
    exact ⟨⟨fun h => h.1, fun h => ⟨h, hs⟩⟩, ⟨fun h => h.1, fun h => ⟨h, hs⟩⟩⟩

/-- C78 does not hold for a frozen parameter that an expression of a limit matches: it is free afterwards, in the fit to
the data and in every later fit.  The name of a limit is matched as an expression, so `a.b` releases `axb`. -/
theorem c78_released_violated (hf : Spec.IsFit names minimise) (hn : ∀ i, names i ∈ f.frz.parms)
    (h : limitRun c o rx minimise hess limits nh .data d w wv f = .ok (a, b)) (p : String) (hp : p ∈ f.frz.parms)
    (hs : Spec.selected rx limits p) : p ∉ a.frz.frozenParams ∧ p ∉ b.frz.frozenParams := by
  unfold limitRun at h
  rcases h1 : prepare c o .data d w wv f.vars with ⟨v, e | u⟩
  · rw [h1] at h; exact nomatch h
  rw [h1] at h
  simp only [reduceCtorEq, if_false, ne_eq, not_false_eq_true, decide_true] at h
  obtain ⟨-, -, -, e4, -, -, -, -, -, e10⟩ := doLimits_ok (f := ⟨v, f.frz⟩) hf hn h
  rw [e4, e10 p hp]
  exact ⟨fun h => h.2 hs, fun h => h.2 hs⟩

end

/-! ### the minimum of the Asimov likelihood -/

open FullNll in
/-- C78: a fitter whose data are its own prediction is at the minimum of its likelihood if every constrained parameter is
at its centre; the expected likelihood limits measure from there (partial: see `c78_minimum_violated`). -/
theorem c78_minimum_partial {ι κ : Type*} [Fintype ι] [Fintype κ] (cw x0 : κ → ℝ) (pred : (κ → ℝ) → ι → ℝ) (xb x : κ → ℝ)
    (hcw : ∀ i, 0 ≤ cw i) (hb : ∀ i, cw i = 0 ∨ xb i = x0 i) (hpos : ∀ b, 0 < pred x b) (hposb : ∀ b, 0 < pred xb b) :
    reducedNll (N := 0) (P := 0) (.poisson (pred xb)) cw x0 none ⟨pred xb, xb, 0, none, none⟩ ≤
      reducedNll (N := 0) (P := 0) (.poisson (pred xb)) cw x0 none ⟨pred x, x, 0, none, none⟩ := by
  rw [c20_sum_of_parts, c20_sum_of_parts]
  simp only [Data.ln, Option.getD_none, add_zero]
  obtain ⟨-, h2⟩ := c19_total_zero_iff (pred xb) (pred xb) (fun b => (hposb b).le) (fun b => (hposb b).le) fun b => .inr (hposb b)
  obtain ⟨h3, -⟩ := c19_total_zero_iff (pred xb) (pred x) (fun b => (hposb b).le) (fun b => (hpos b).le) fun b => .inr (hpos b)
  rw [h2.2 rfl]
  have e1 : ∑ k, cw k * (xb k - x0 k) ^ 2 / 2 = 0 :=
    Finset.sum_eq_zero fun k _ => by rcases hb k with h | h <;> simp [h]
  have e2 : 0 ≤ ∑ k, cw k * (x k - x0 k) ^ 2 / 2 :=
    Finset.sum_nonneg fun k _ => div_nonneg (mul_nonneg (hcw k) (sq_nonneg _)) (by norm_num)
  rw [e1]; linarith

open FullNll in
/-- C78 does not hold after a fit that moved a constrained parameter: the constraint centres stay at their defaults, so
the Asimov fitter is not at its minimum.  One bin with 10 + θ events, θ = 1 after the fit without signal: the value at
θ = 0 is lower than the one from which the limits are measured. -/
theorem c78_minimum_violated :
    reducedNll (ι := Fin 1) (κ := Fin 1) (N := 0) (P := 0) (.poisson fun _ => 11) (fun _ => 1) (fun _ => 0) none
        ⟨fun _ => 10, fun _ => 0, 0, none, none⟩ <
      reducedNll (ι := Fin 1) (κ := Fin 1) (N := 0) (P := 0) (.poisson fun _ => 11) (fun _ => 1) (fun _ => 0) none ⟨fun _ => 11, fun _ => 1, 0, none, none⟩ := by
  rw [c20_sum_of_parts, c20_sum_of_parts]
  simp only [Data.ln, lnPoisson, Bool.false_eq_true, if_false, poissonBin, lognobs, Finset.univ_unique, Finset.sum_singleton,
    Option.getD_none, add_zero]
  have h := Real.log_le_sub_one_of_pos (show (0 : ℝ) < 11 / 10 by norm_num)
  rw [Real.log_div (by norm_num) (by norm_num)] at h
  norm_num at h ⊢
  linarith

/-! ### a run -/

namespace Ex

/-- one bin with signal strength, background 10 and a constrained parameter -/
def cfg : Cfg (Fin 2) (Fin 0) (Fin 1) (Fin 1) Unit ℝ :=
  { x0default := ![1, 0], cw := ![0, 1], unconstrErr := 0, betaType := .gamma, kstat := Fin.elim0, varbeta := Fin.elim0,
    chisq := false, covFit := false, doBlinding := true, noOff := 0, effX := fun x _ => x,
    yield := fun x o _ => fun _ => 10 + 3 * x 0 + x 1 + o, yieldFull := fun x o _ => fun _ => 10 + 3 * x 0 + x 1 + o,
    setExp := fun _ _ => (), computeCov := true, bbEnabled := false }

def vars : Vars (Fin 2) (Fin 0) (Fin 1) Unit ℝ :=
  { x := 0, x0 := 0, bb := none, nobs := 0, lognobs := 0, varnobs := none, nexpnom := 0, varPrefit := 0, cov := some 0, off := 7,
    regs := () }

def names : Fin 2 → String := ![("sig" : String), "syst"]

/-- matches exactly the name -/
def rx : Regex := fun e => some fun s => s == e

def start : Fitter (Fin 2) (Fin 0) (Fin 1) Unit ℝ := ⟨vars, FreezeState.init ["sig", "syst"]⟩

/-- a fit that moves the free parameters to 2 -/
def fit (frz : FreezeState) (v : Vars (Fin 2) (Fin 0) (Fin 1) Unit ℝ) : Res (Vars (Fin 2) (Fin 0) (Fin 1) Unit ℝ) :=
  .ok { v with x := fun i => if names i ∈ frz.frozenParams then v.x i else 2 }

theorem isFit : Spec.IsFit names fit where
  keeps := by
    intro frz v v' h
    cases h; exact ⟨rfl, rfl, rfl, rfl⟩
  frozen := by
    intro frz v v' h i hi
    cases h; simp [hi]

theorem rx_match : matchParams rx ["sig"] ["sig", "syst"] = .ok ["sig"] := by decide +kernel

def draws : Draws (Fin 2) (Fin 0) (Fin 1) :=
  { z := 1, normP := fun m s i => m i + s i, mvnP := fun m _ => m, gammaK := fun a => a, poissonK := fun l => l,
    normK := fun m _ => m, normK' := fun m _ => m, poissonB := fun l b => l b + 1, normB := fun m _ => m, mvnB := fun m => m }

/-- the run on data succeeds; the data of the Asimov fitter are 10 + 3 · 1 + 2, with the signal -/
theorem run : ∃ a b, limitRun cfg ⟨.frequentist, .poisson, .expected, false⟩ rx fit (fun _ _ => .ok 1) ["sig"] false .data
    draws (fun _ => 20) none start = .ok (a, b) ∧ a.vars.nobs = fun _ => 15 := by
  simp only [limitRun, prepare, FitState.setNobs, cfg, Bool.false_eq_true, false_and, if_false, doLimits, backgroundFit, freezeParams, start,
    reduceCtorEq, ne_eq, not_false_eq_true, decide_true, if_true, FreezeState.init, updateFrozen, rx_match, fit, setAsimov,
    defreezeParams, assignCov]
  refine ⟨_, _, rfl, ?_⟩
  funext b
  simp [defaultAssign, names]
  norm_num

example : ∃ e ∈ ["sig"], FitParams.Spec.Selects rx e (names 0) := ⟨"sig", by simp, .inl rfl⟩

end Ex

end

end Verif.LimitRun
