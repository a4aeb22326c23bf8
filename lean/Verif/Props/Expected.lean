import Verif.Model.SatTest
import Verif.Props.Yields
import Verif.Props.CompositeModel

/-! C73: the expected signal strengths given by the user are the starting point of the fit. -/

namespace Verif.SatTest

open Verif.ParamModels

/-- the value requested for a parameter: the last one given, otherwise one -/
def Spec.requested (expect : List (String × ℝ)) (p : String) : ℝ := (expect.reverse.lookup p).getD 1

theorem foldl_set (params : List String) (hn : params.Nodup) (expect : List (String × ℝ)) (i : Nat) (p : String)
    (hi : params[i]? = some p) (d0 : List ℝ) (hd : d0.length = params.length) :
    (expect.foldl (fun d e => d.set (params.idxOf e.1) e.2) d0).length = params.length ∧
    (expect.foldl (fun d e => d.set (params.idxOf e.1) e.2) d0)[i]? =
      some ((expect.reverse.lookup p).getD (d0.getD i 1)) := by
  have hil := (List.getElem?_eq_some_iff.1 hi).1
  induction expect using List.reverseRecOn with
  | nil =>
    refine ⟨hd, ?_⟩
    simp only [List.foldl_nil, List.reverse_nil, List.lookup_nil, Option.getD_none]
    rw [List.getD_eq_getElem?_getD, List.getElem?_eq_getElem (by omega)]; rfl
  | append_singleton expect e ih =>
    obtain ⟨ih1, ih2⟩ := ih
    rw [List.foldl_append, List.foldl_cons, List.foldl_nil]
    refine ⟨by rw [List.length_set, ih1], ?_⟩
    rw [List.reverse_append, List.reverse_cons, List.reverse_nil, List.nil_append, List.singleton_append]
    obtain ⟨e, v⟩ := e
    have hp : params[i] = p := (List.getElem?_eq_some_iff.1 hi).2
    by_cases he : p = e
    · subst he
      have : params.idxOf p = i := by rw [← hp]; exact hn.idxOf_getElem i hil
      rw [this, List.getElem?_set_self (by omega), List.lookup_cons_self]; rfl
    · have : params.idxOf e ≠ i := fun h => he (by
        have h1 : params.idxOf e < params.length := by omega
        rw [← hp, ← List.getElem_idxOf h1]
        simp only [h])
      rw [List.getElem?_set_ne this, ih2, List.lookup_cons, beq_eq_false_iff_ne.2 he]

/-- A request is accepted exactly if it names parameters of the model. -/
theorem c73_accepted (params : List String) (npoi : Nat) (neg : Bool) (expect : List (String × ℝ)) :
    ((∃ d, setParamDefault Real.sqrt params npoi neg expect = .ok d) ↔ ∀ e ∈ expect, e.1 ∈ params) ∧
    ((¬ ∀ e ∈ expect, e.1 ∈ params) → setParamDefault Real.sqrt params npoi neg expect = .error .value) := by
  unfold setParamDefault
  have : (expect.any fun e => !params.contains e.1) = true ↔ ¬ ∀ e ∈ expect, e.1 ∈ params := by
    simp
  constructor
  · constructor
    · rintro ⟨d, hd⟩
      by_contra hc
      rw [if_pos (this.2 hc)] at hd
      exact nomatch hd
    · intro h
      rw [if_neg (fun hc => this.1 hc h)]
      exact ⟨_, rfl⟩
  · intro h
    rw [if_pos (this.2 h)]

/-- The fit starts at the requested values: what the likelihood sees of a parameter at its default is the value the user
asked for, or one.  The stored square root and the square seen by the likelihood cancel, for values that are not negative. -/
theorem c73_start {params : List String} {expect : List (String × ℝ)} {m : PModel ℝ} (hn : params.Nodup)
    (hnp : m.npoi ≤ params.length) {d : List ℝ} (h : setParamDefault Real.sqrt params m.npoi m.allowNeg expect = .ok d)
    (i : Nat) (p : String) (hi : params[i]? = some p)
    (hpos : m.allowNeg = true ∨ m.npoi ≤ i ∨ 0 ≤ Spec.requested expect p) :
    (effective m d).length = params.length ∧ (effective m d)[i]? = some (Spec.requested expect p) := by
  obtain ⟨h1, h2⟩ := foldl_set params hn expect i p hi (List.replicate params.length 1) (by simp)
  have hil := (List.getElem?_eq_some_iff.1 hi).1
  unfold setParamDefault at h
  split_ifs at h with hany hneg
  · cases h
    unfold effective
    rw [if_pos hneg]
    rw [List.take_append_drop, List.take_append_drop, h1, h2]
    exact ⟨rfl, by simp [Spec.requested, hil]⟩
  · cases h
    have e2 : (List.replicate params.length (1 : ℝ)).getD i 1 = 1 := by simp [hil]
    rw [e2] at h2
    set D := expect.foldl (fun d e => d.set (params.idxOf e.1) e.2) (List.replicate params.length (1 : ℝ)) with hD
    unfold effective
    rw [if_neg hneg]
    have hl : ((D.take m.npoi).map Real.sqrt).length = m.npoi := by simp; omega
    rw [List.take_left' hl, List.drop_left' hl]
    refine ⟨by simp; omega, ?_⟩
    by_cases hlt : i < m.npoi
    · rw [List.getElem?_append_left (by simp; omega), List.getElem?_map, List.getElem?_map, List.getElem?_take, if_pos hlt, h2]
      simp only [Option.map_some, Option.some.injEq]
      have h0 : 0 ≤ Spec.requested expect p := hpos.resolve_left hneg |>.resolve_left (by omega)
      exact Real.sq_sqrt h0
    · rw [List.getElem?_append_right (by simp; omega), List.getElem?_drop]
      simp only [List.length_map, List.length_take]
      rw [show m.npoi + (i - min m.npoi D.length) = i by omega, h2]
      rfl

/-- A case: two signals and one further parameter; the request for the second signal is repeated. -/
example : ∃ d, setParamDefault Real.sqrt ["a", "b", "n"] 2 false [("b", 3), ("n", 5), ("b", 4)] = .ok d ∧
    ["a", "b", "n"].Nodup ∧ Spec.requested [("b", 3), ("n", 5), ("b", 4)] "b" = 4 ∧
    Spec.requested [("b", 3), ("n", 5), ("b", 4)] "a" = 1 := ⟨_, rfl, by decide, rfl, rfl⟩

/-- Additive systematics are scaled by the rates at the starting point if the POIs may be negative or if their starting
values are zero or one (missing: all other starting values, see `c73_scaling_violated`). -/
theorem c73_scaling_partial (m : PModel ℝ) (h0 : m.nparams ≠ 0)
    (h : m.allowNeg = true ∨ ∀ v ∈ m.xdef.take m.npoi, v = 0 ∨ v = 1) (r0 : Nat → Nat → ℝ) (hr0 : initRates m = .ok r0) :
    ∃ r, m.compute (effective m m.xdef) true = .ok r ∧ r.at = r0 := by
  have e : effective m m.xdef = m.xdef := by
    unfold effective
    split_ifs with hneg
    · exact List.take_append_drop _ _
    · have : (m.xdef.take m.npoi).map (· ^ 2) = m.xdef.take m.npoi := by
        conv_rhs => rw [← List.map_id (m.xdef.take m.npoi)]
        refine List.map_congr_left fun v hv => ?_
        rcases (h.resolve_left hneg) v hv with rfl | rfl <;> norm_num
      rw [this]; exact List.take_append_drop _ _
  rw [e]
  unfold initRates at hr0
  rw [if_neg h0] at hr0
  split at hr0
  · rename_i r hr
    cases hr0
    exact ⟨r, hr, rfl⟩
  · exact nomatch hr0

/-- A case: a signal strength of zero. -/
example : ∃ r0, initRates (muModel 1 ["s"] [0] false) = .ok r0 ∧ (muModel 1 ["s"] [0] false).nparams ≠ 0 :=
  ⟨_, rfl, by decide⟩

/-- For an expected signal strength of four the stored value is two, and additive systematics are scaled by two although
the rate at the starting point is four: the up template 12 of a bin with content 10 is predicted as 44, not 48. -/
theorem c73_scaling_violated :
    ∃ (d : List ℝ) (m : PModel ℝ) (r0 : Nat → Nat → ℝ) (r : Rates ℝ),
      setParamDefault Real.sqrt ["s"] 1 false [("s", 4)] = .ok d ∧ m = muModel 1 ["s"] d false ∧
      initRates m = .ok r0 ∧ m.compute (effective m m.xdef) false = .ok r ∧ r.at 0 0 = 4 ∧ r0 0 0 = 2 ∧
      Yields.stored .normal (Yields.exDense.norm 0 0) 12 11 = .ok (Yields.exDense.logk 0 0 0 0, Yields.exDense.logk 0 0 1 0) ∧
      (Yields.exDense.scaled (Yields.exShape false) m.nparams ⟨1, r0⟩).yield (Yields.exShape false) ⟨1, r.at⟩
        (Yields.Spec.single 0 1) 0 0 = 44 ∧ (4 : ℝ) * 12 ≠ 44 := by
  have h4 : Real.sqrt 4 = 2 := by
    rw [show (4 : ℝ) = 2 ^ 2 by norm_num]; exact Real.sqrt_sq (by norm_num)
  have e1 : setParamDefault Real.sqrt ["s"] 1 false [("s", (4 : ℝ))] = .ok [Real.sqrt 4] := rfl
  refine ⟨[Real.sqrt 4], muModel 1 ["s"] [Real.sqrt 4] false, _, _, e1, rfl, rfl, rfl, ?_, ?_, Yields.exDense_stored, ?_,
    by norm_num⟩
  · change (Real.sqrt 4) ^ 2 = 4
    rw [h4]; norm_num
  · exact h4
  · unfold Yields.Dense.yield
    rw [Yields.logsnorm_single _ _ 0 (by simp [Yields.exShape]) 1 (.inl rfl)]
    change (10 : ℝ) * ((Real.sqrt 4) ^ 2) + (_ : ℝ) = 44
    rw [h4]
    simp [Yields.exDense, Yields.Dense.scaled, Yields.exShape, Yields.Rates.at, muModel, PModel.nparams, Rates.at]
    norm_num

/-- With several models a request is handed to every one of them: a request that names a parameter of one model is refused
by a model that does not have it. -/
theorem c73_composite_violated (p : List String × Nat × Bool) (subs : List (List String × Nat × Bool)) (hp : p ∈ subs)
    (expect : List (String × ℝ)) (e : String × ℝ) (he : e ∈ expect) (hne : e.1 ∉ p.1) :
    loadDefaults subs expect = .error .value := by
  induction subs with
  | nil => exact nomatch hp
  | cons q subs ih =>
    obtain ⟨ps, npoi, neg⟩ := q
    unfold loadDefaults
    by_cases hq : ∀ e ∈ expect, e.1 ∈ ps
    · obtain ⟨d, hd⟩ := (c73_accepted ps npoi neg expect).1.2 hq
      rw [hd]
      rcases List.mem_cons.1 hp with rfl | hp
      · exact absurd (hq e he) hne
      · rw [ih hp]
    · rw [(c73_accepted ps npoi neg expect).2 hq]

/-- A case: signal strengths for two processes and a mixture parameter. -/
example : loadDefaults [(["sig"], 1, false), (["mix"], 1, true)] [("sig", 4)] = .error .value :=
  c73_composite_violated (["mix"], 1, true) _ (by simp) _ ("sig", 4) (by simp) (by simp)

end Verif.SatTest
