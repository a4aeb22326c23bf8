import Verif.Model.FitParams
import Verif.Lemmas.Py
import Mathlib.Analysis.Calculus.Deriv.Basic
import Mathlib.LinearAlgebra.Matrix.ToLin
import Mathlib.Analysis.Real.Sqrt
import Mathlib.Tactic.Common
import Mathlib.Tactic.Linarith
import Mathlib.Tactic.Ring
import Mathlib.Tactic.Positivity
import Mathlib.Tactic.FieldSimp
import Mathlib.Tactic.FinCases

/-!
C23 (freeze histories), C24 (frozen parameters do not move), C25 (name expressions), C26 (blinding).
-/

namespace Verif.FitParams

/-! ### C25 -/

/-- Independent specification of "the expression selects the name". -/
def Spec.Selects (rx : Regex) (expr name : String) : Prop := expr = name ∨ ∃ f, rx expr = some f ∧ f name = true

theorem compileAll_ok (rx : Regex) (exprs : List String) (fs : List (String → Bool))
    (h : compileAll rx exprs = .ok fs) (s : String) :
    (fs.any (fun f => f s) = true ↔ ∃ e ∈ exprs, ∃ f, rx e = some f ∧ f s = true) := by
  induction exprs generalizing fs with
  | nil => simp [compileAll] at h; subst h; simp
  | cons e es ih =>
    simp only [compileAll] at h
    cases hr : rx e with
    | none => simp [hr] at h
    | some f =>
      simp only [hr] at h
      cases hc : compileAll rx es with
      | error err => simp [hc] at h
      | ok gs =>
        simp only [hc, Except.ok.injEq] at h
        subst h
        simp [ih gs hc, hr]

theorem compileAll_isOk_iff (rx : Regex) (exprs : List String) :
    (∃ fs, compileAll rx exprs = .ok fs) ↔ ∀ e ∈ exprs, (rx e).isSome := by
  induction exprs with
  | nil => simp [compileAll]
  | cons e es ih =>
    simp only [compileAll, List.mem_cons, forall_eq_or_imp, ← ih]
    cases hr : rx e with
    | none => simp
    | some f =>
      cases hc : compileAll rx es with
      | error err => simp
      | ok gs => simp

theorem matchLoop_spec (exact : List String) (fs : List (String → Bool)) (names matched : List String) :
    ∃ r, matchLoop exact fs names matched matched = matched ++ r ∧ r.Sublist names ∧ r.Nodup ∧
      ∀ s, s ∈ r ↔ s ∈ names ∧ s ∉ matched ∧ (s ∈ exact ∨ fs.any (fun f => f s) = true) := by
  induction names generalizing matched with
  | nil => exact ⟨[], by simp [matchLoop], by simp, by simp, by simp⟩
  | cons s ns ih =>
    simp only [matchLoop]
    by_cases h1 : (exact.contains s || fs.any fun f => f s) = true
    · have h1' : s ∈ exact ∨ fs.any (fun f => f s) = true := by
        rw [Bool.or_eq_true, List.contains_iff_mem] at h1; exact h1
      by_cases h2 : matched.contains s = true
      · rw [if_pos h1, if_pos h2]
        obtain ⟨r, hr, hsub, hnd, hmem⟩ := ih matched
        refine ⟨r, hr, hsub.cons s, hnd, fun t => ?_⟩
        rw [List.contains_iff_mem] at h2
        rw [hmem, List.mem_cons]
        constructor
        · exact fun h => ⟨.inr h.1, h.2⟩
        · rintro ⟨rfl | h, h'⟩
          · exact absurd h2 h'.1
          · exact ⟨h, h'⟩
      · rw [if_pos h1, if_neg h2]
        rw [List.contains_iff_mem] at h2
        obtain ⟨r, hr, hsub, hnd, hmem⟩ := ih (matched ++ [s])
        refine ⟨s :: r, by simp [hr], hsub.cons_cons s, ?_, fun t => ?_⟩
        · rw [List.nodup_cons]
          exact ⟨fun h => by have := ((hmem s).1 h).2.1; simp at this, hnd⟩
        · rw [List.mem_cons, hmem, List.mem_cons, List.mem_append, List.mem_singleton]
          constructor
          · rintro (rfl | h)
            · exact ⟨.inl rfl, h2, h1'⟩
            · exact ⟨.inr h.1, fun h' => h.2.1 (.inl h'), h.2.2⟩
          · rintro ⟨rfl | h, h', h''⟩
            · exact .inl rfl
            · by_cases hts : t = s
              · exact .inl hts
              · exact .inr ⟨h, fun hh => hh.elim h' hts, h''⟩
    · rw [if_neg h1]
      obtain ⟨r, hr, hsub, hnd, hmem⟩ := ih matched
      refine ⟨r, hr, hsub.cons s, hnd, fun t => ?_⟩
      rw [Bool.or_eq_true, List.contains_iff_mem] at h1
      rw [hmem, List.mem_cons]
      constructor
      · exact fun h => ⟨.inr h.1, h.2⟩
      · rintro ⟨rfl | h, h'⟩
        · exact absurd h'.2 h1
        · exact ⟨h, h'⟩

/-- C25: the parameters returned are exactly those selected by at least one expression. -/
theorem c25_selects (rx : Regex) (exprs names r : List String) (h : matchParams rx exprs names = .ok r) (s : String) :
    s ∈ r ↔ s ∈ names ∧ ∃ e ∈ exprs, Spec.Selects rx e s := by
  unfold matchParams at h
  cases hc : compileAll rx exprs with
  | error e => simp [hc] at h
  | ok fs =>
    simp only [hc, Except.ok.injEq] at h
    obtain ⟨r', hr, -, -, hmem⟩ := matchLoop_spec exprs fs names []
    rw [← h, hr, List.nil_append, hmem, compileAll_ok rx exprs fs hc]
    simp only [List.not_mem_nil, not_false_eq_true, true_and]
    refine and_congr_right fun _ => ?_
    constructor
    · rintro (h | ⟨e, he, hf⟩)
      · exact ⟨s, h, .inl rfl⟩
      · exact ⟨e, he, .inr hf⟩
    · rintro ⟨e, he, rfl | hf⟩
      · exact .inl he
      · exact .inr ⟨e, he, hf⟩

/-- C25: in parameter order, each at most once; an invalid expression raises. -/
theorem c25_order_no_duplicates (rx : Regex) (exprs names r : List String) (h : matchParams rx exprs names = .ok r) :
    r.Sublist names ∧ r.Nodup := by
  unfold matchParams at h
  cases hc : compileAll rx exprs with
  | error e => simp [hc] at h
  | ok fs =>
    simp only [hc, Except.ok.injEq] at h
    obtain ⟨r', hr, hsub, hnd, -⟩ := matchLoop_spec exprs fs names []
    rw [← h, hr, List.nil_append]
    exact ⟨hsub, hnd⟩

/-- C25: the call raises exactly when some expression does not compile. -/
theorem c25_raises_iff (rx : Regex) (exprs names : List String) :
    (∃ e, matchParams rx exprs names = .error e) ↔ ∃ e ∈ exprs, rx e = none := by
  have := compileAll_isOk_iff rx exprs
  unfold matchParams
  cases hc : compileAll rx exprs with
  | error e =>
    simp only [hc, reduceCtorEq, exists_false, false_iff, not_forall] at this
    obtain ⟨x, hx, h⟩ := this
    simp only [Except.error.injEq, exists_eq', true_iff]
    exact ⟨x, hx, by simpa using h⟩
  | ok fs =>
    simp only [hc, Except.ok.injEq, exists_eq', true_iff] at this
    simp only [reduceCtorEq, exists_false, false_iff, not_exists, not_and]
    intro e he hn
    have := this e he
    simp [hn] at this

/-- C25: a plain name selects itself, and nothing else if it matches nothing else as an expression. -/
theorem c25_plain_name (rx : Regex) (n : String) (names : List String) (f : String → Bool) (hrx : rx n = some f)
    (hn : n ∈ names) (hf : ∀ s ∈ names, f s = true → s = n) : matchParams rx [n] names = .ok [n] := by
  cases hm : matchParams rx [n] names with
  | error e =>
    have := (c25_raises_iff rx [n] names).1 ⟨e, hm⟩
    simp [hrx] at this
  | ok r =>
    have h1 := c25_selects rx [n] names r hm
    have h2 := c25_order_no_duplicates rx [n] names r hm
    have h3 : ∀ s ∈ r, s = n := by
      intro s hs
      obtain ⟨hs, e, he, hsel⟩ := (h1 s).1 hs
      rw [List.mem_singleton] at he; subst he
      rcases hsel with rfl | ⟨g, hg, hgs⟩
      · rfl
      · rw [hrx] at hg; cases hg; exact hf s hs hgs
    have h4 : n ∈ r := (h1 n).2 ⟨hn, n, by simp, .inl rfl⟩
    congr 1
    match r, h2.2, h3, h4 with
    | [a], _, h3, _ => rw [h3 a (by simp)]
    | a :: b :: l, hnd, h3, _ =>
      have ha := h3 a (by simp); have hb := h3 b (by simp)
      subst ha; subst hb; simp at hnd

/-- a regular-expression semantics for the examples: `pre.*` selects every name starting with `pre`,
expressions without special characters only themselves -/
def exampleRx : Regex := fun e =>
  if e = "(" then none
  else if e = "alpha.*" then some fun s => s.startsWith "alpha" else some fun s => s == e

example : matchParams exampleRx ["sigma", "alpha.*", "alphaS"] ["mu", "alphaS", "sigma", "alphaB"]
    = .ok ["alphaS", "sigma", "alphaB"] := by decide +kernel

example : matchParams exampleRx ["("] ["mu"] = .error .value := by decide +kernel

/-! ### C23 -/

/-- Independent specification: a call that matches the name (a call whose expressions do not all compile
raises and matches nothing). -/
def Spec.OpMatches (rx : Regex) (name : String) : FreezeOp → Prop
  | .freeze es | .defreeze es => (∀ e ∈ es, (rx e).isSome) ∧ ∃ e ∈ es, Spec.Selects rx e name

def FreezeOp.isFreeze : FreezeOp → Bool
  | .freeze _ => true
  | .defreeze _ => false

open Classical in
/-- the parameter is frozen iff the last matching call was a freeze -/
noncomputable def Spec.frozenAfter (rx : Regex) (hist : List FreezeOp) (name : String) : Bool :=
  match (hist.filter fun op => Spec.OpMatches rx name op).getLast? with
  | some op => op.isFreeze
  | none => false

/-- consistency of the derived fields with the list of frozen names -/
structure FreezeInv (parms : List String) (s : FreezeState) : Prop where
  parms_eq : s.parms = parms
  upd : updateFrozen s = s

theorem updateFrozen_idem (s : FreezeState) : updateFrozen (updateFrozen s) = updateFrozen s := rfl

theorem op_inv (rx : Regex) (op : FreezeOp) (parms : List String) (s : FreezeState) (h : FreezeInv parms s) :
    FreezeInv parms (op.run rx s).1 := by
  cases op with
  | freeze es =>
    simp only [FreezeOp.run, freezeParams]
    cases hm : matchParams rx es s.parms with
    | error e => exact h
    | ok ms => exact ⟨h.parms_eq, rfl⟩
  | defreeze es =>
    simp only [FreezeOp.run, defreezeParams]
    cases hm : matchParams rx es s.parms with
    | error e => exact h
    | ok ms => exact ⟨h.parms_eq, rfl⟩

theorem runFreeze_inv (rx : Regex) (parms : List String) (ops : List FreezeOp) (s : FreezeState)
    (h : FreezeInv parms s) : FreezeInv parms (runFreeze rx s ops) := by
  induction ops generalizing s with
  | nil => exact h
  | cons op ops ih => exact ih _ (op_inv rx op parms s h)

open Classical in
/-- effect of one call on membership in the frozen list -/
theorem op_mem (rx : Regex) (op : FreezeOp) (s : FreezeState) (name : String) (hn : name ∈ s.parms) :
    name ∈ (op.run rx s).1.frozenParams ↔
      if Spec.OpMatches rx name op then op.isFreeze = true else name ∈ s.frozenParams := by
  have key : ∀ es, (∃ ms, matchParams rx es s.parms = .ok ms ∧ (∀ e ∈ es, (rx e).isSome) ∧
      (name ∈ ms ↔ ∃ e ∈ es, Spec.Selects rx e name)) ∨
      (∃ e, matchParams rx es s.parms = .error e ∧ ¬ ∀ e ∈ es, (rx e).isSome) := by
    intro es
    cases hm : matchParams rx es s.parms with
    | error e =>
      obtain ⟨x, hx, hx'⟩ := (c25_raises_iff rx es s.parms).1 ⟨e, hm⟩
      refine .inr ⟨e, rfl, fun h => ?_⟩
      have := h x hx
      simp [hx'] at this
    | ok ms =>
      refine .inl ⟨ms, rfl, ?_, ?_⟩
      · by_contra hc
        push Not at hc
        obtain ⟨x, hx, hx'⟩ := hc
        have : ∃ e, matchParams rx es s.parms = .error e :=
          (c25_raises_iff rx es s.parms).2 ⟨x, hx, by simpa using hx'⟩
        rw [hm] at this; simp at this
      · rw [c25_selects rx es s.parms ms hm]; simp [hn]
  cases op with
  | freeze es =>
    rcases key es with ⟨ms, hm, hok, hmem⟩ | ⟨e, hm, hno⟩
    · have hM : Spec.OpMatches rx name (.freeze es) ↔ ∃ e ∈ es, Spec.Selects rx e name :=
        ⟨fun h => h.2, fun h => ⟨hok, h⟩⟩
      rw [← hM] at hmem
      have : name ∈ ((FreezeOp.freeze es).run rx s).1.frozenParams ↔ name ∈ s.frozenParams ∨ name ∈ ms := by
        simp [FreezeOp.run, freezeParams, hm, updateFrozen]
      rw [this, hmem]
      by_cases hsel : Spec.OpMatches rx name (.freeze es) <;> simp [hsel, FreezeOp.isFreeze]
    · have hM : ¬ Spec.OpMatches rx name (.freeze es) := fun h => hno h.1
      rw [if_neg hM]
      simp [FreezeOp.run, freezeParams, hm]
  | defreeze es =>
    rcases key es with ⟨ms, hm, hok, hmem⟩ | ⟨e, hm, hno⟩
    · have hM : Spec.OpMatches rx name (.defreeze es) ↔ ∃ e ∈ es, Spec.Selects rx e name :=
        ⟨fun h => h.2, fun h => ⟨hok, h⟩⟩
      rw [← hM] at hmem
      have : name ∈ ((FreezeOp.defreeze es).run rx s).1.frozenParams ↔ name ∈ s.frozenParams ∧ name ∉ ms := by
        simp [FreezeOp.run, defreezeParams, hm, updateFrozen]
      rw [this, hmem]
      by_cases hsel : Spec.OpMatches rx name (.defreeze es) <;> simp [hsel, FreezeOp.isFreeze]
    · have hM : ¬ Spec.OpMatches rx name (.defreeze es) := fun h => hno h.1
      rw [if_neg hM]
      simp [FreezeOp.run, defreezeParams, hm]

theorem op_parms (rx : Regex) (op : FreezeOp) (s : FreezeState) : (op.run rx s).1.parms = s.parms := by
  cases op <;> simp only [FreezeOp.run, freezeParams, defreezeParams] <;> split <;> rfl

open Classical in
theorem runFreeze_mem (rx : Regex) (ops : List FreezeOp) (s : FreezeState) (name : String) (hn : name ∈ s.parms) :
    name ∈ (runFreeze rx s ops).frozenParams ↔
      match (ops.filter fun op => Spec.OpMatches rx name op).getLast? with
      | some op => op.isFreeze = true
      | none => name ∈ s.frozenParams := by
  induction ops generalizing s with
  | nil => simp [runFreeze]
  | cons op ops ih =>
    rw [runFreeze, ih _ (by rw [op_parms]; exact hn), List.filter_cons]
    by_cases hop : Spec.OpMatches rx name op
    · simp only [hop, decide_true, if_true, List.getLast?_cons]
      cases hl : (ops.filter fun op => Spec.OpMatches rx name op).getLast? with
      | none => simp [op_mem rx op s name hn, hop]
      | some o => simp
    · simp only [hop, decide_false]
      cases hl : (ops.filter fun op => Spec.OpMatches rx name op).getLast? with
      | none => simp [op_mem rx op s name hn, hop, hl]
      | some o => simp [hl]

open Classical in
/-- C23: after any history of calls a parameter is frozen iff the last call matching it was a freeze. -/
theorem c23_last_call_wins (rx : Regex) (parms : List String) (hist : List FreezeOp) (i : Nat) (hi : i < parms.length) :
    (runFreeze rx (FreezeState.init parms) hist).mask[i]? = some (Spec.frozenAfter rx hist parms[i]) := by
  have hinv := runFreeze_inv rx parms hist (FreezeState.init parms) ⟨rfl, rfl⟩
  set s := runFreeze rx (FreezeState.init parms) hist with hs
  have hmask : s.mask = parms.map fun p => s.frozenParams.contains p := by
    have := congrArg FreezeState.mask hinv.upd
    simp only [updateFrozen, hinv.parms_eq] at this
    exact this.symm
  have hmem := runFreeze_mem rx hist (FreezeState.init parms) parms[i] (by simp [FreezeState.init, updateFrozen])
  rw [← hs] at hmem
  rw [hmask, List.getElem?_map, List.getElem?_eq_getElem hi]
  simp only [Option.map_some, Option.some.injEq]
  unfold Spec.frozenAfter
  rw [List.contains_eq_mem, Bool.eq_iff_iff, decide_eq_true_eq, hmem]
  generalize (List.filter (fun op => decide (Spec.OpMatches rx parms[i] op)) hist).getLast? = o
  cases o with
  | none => simp [FreezeState.init, updateFrozen]
  | some op => rfl

/-- C23: mask, floating indices and frozen indices are consistent and partition the parameters. -/
theorem c23_indices_partition (rx : Regex) (parms : List String) (hist : List FreezeOp) :
    let s := runFreeze rx (FreezeState.init parms) hist
    s.parms = parms ∧ s.mask.length = parms.length ∧
    (∀ i, i ∈ s.frozenIndices ↔ s.mask[i]? = some true) ∧
    (∀ i, i ∈ s.floatingIndices ↔ s.mask[i]? = some false) ∧
    s.frozenIndices.Pairwise (· < ·) ∧ s.floatingIndices.Pairwise (· < ·) ∧
    (s.frozenIndices ++ s.floatingIndices).Perm (List.range parms.length) := by
  intro s
  have hinv := runFreeze_inv rx parms hist (FreezeState.init parms) ⟨rfl, rfl⟩
  have hlen : s.mask.length = parms.length := by
    have := congrArg (List.length ∘ FreezeState.mask) hinv.upd
    simp only [updateFrozen, hinv.parms_eq, Function.comp, List.length_map] at this
    exact this.symm
  have hfr : s.frozenIndices = (List.range s.mask.length).filter fun i => s.mask.getD i false := by
    have h1 := congrArg FreezeState.frozenIndices hinv.upd
    have h2 := congrArg FreezeState.mask hinv.upd
    simp only [updateFrozen] at h1 h2
    rw [h2] at h1
    exact h1.symm
  have hfl : s.floatingIndices = (List.range s.mask.length).filter fun i => !s.mask.getD i false := by
    have h1 := congrArg FreezeState.floatingIndices hinv.upd
    have h2 := congrArg FreezeState.mask hinv.upd
    simp only [updateFrozen] at h1 h2
    rw [h2] at h1
    exact h1.symm
  have hr : (List.range s.mask.length).Pairwise (· < ·) := List.pairwise_lt_range
  refine ⟨hinv.parms_eq, hlen, ?_, ?_, ?_, ?_, ?_⟩
  · intro i
    rw [hfr]
    simp only [List.mem_filter, List.mem_range, List.getD_eq_getElem?_getD]
    by_cases h : i < s.mask.length
    · simp [h]
    · simp [h]
  · intro i
    rw [hfl]
    simp only [List.mem_filter, List.mem_range, List.getD_eq_getElem?_getD]
    by_cases h : i < s.mask.length
    · simp [h]
    · simp [h]
  · rw [hfr]; exact hr.filter _
  · rw [hfl]; exact hr.filter _
  · rw [hfr, hfl, hlen]
    exact List.filter_append_perm _ _

/-- a history with overlapping expressions -/
example : (runFreeze exampleRx (FreezeState.init ["mu", "alphaS", "alphaB"])
    [.freeze ["alpha.*"], .defreeze ["alphaS"], .freeze ["("], .freeze ["mu", "mu"]]).mask
      = [true, false, true] := by decide +kernel

/-! ### C24 -/

noncomputable section

variable (c : Cfg)

/-- Specification of the gradient used by the minimiser (`loss_val_grad`): partial derivative of the taped
likelihood at the current point, where the gradient of frozen entries is stopped. -/
def Spec.grad (f : (Fin c.n → ℝ) → (Fin c.n → ℝ) → ℝ) (x : Fin c.n → ℝ) (i : Fin c.n) : ℝ :=
  deriv (fun v => f x (Function.update x i v)) (x i)

/-- Specification of the Hessian (`loss_val_grad_hess`, nested tapes). -/
def Spec.hess (f : (Fin c.n → ℝ) → (Fin c.n → ℝ) → ℝ) (x : Fin c.n → ℝ) : Matrix (Fin c.n) (Fin c.n) ℝ := fun i j =>
  deriv (fun w => deriv (fun v => f x (Function.update (Function.update x j w) i v))
    (Function.update x j w i)) (x j)

theorem getPoi_update (mask : Fin c.n → Bool) (off : c.Offsets) (xs y : Fin c.n → ℝ) (i : Fin c.n)
    (hi : mask i = true) (v : ℝ) : getPoi c mask off xs (Function.update y i v) = getPoi c mask off xs y := by
  funext k
  unfold getPoi
  by_cases h : Fin.castAdd c.nsyst (Fin.castAdd c.npou k) = i
  · subst h; simp [stopAt, hi]
  · simp [Function.update_of_ne h]

theorem getNui_update (mask : Fin c.n → Bool) (xs y : Fin c.n → ℝ) (i : Fin c.n)
    (hi : mask i = true) (v : ℝ) : getNui c mask xs (Function.update y i v) = getNui c mask xs y := by
  funext k
  unfold getNui
  by_cases h : Fin.castAdd c.nsyst (Fin.natAdd c.npoi k) = i
  · subst h; simp [stopAt, hi]
  · simp [Function.update_of_ne h]

theorem getTheta_update (mask : Fin c.n → Bool) (off : c.Offsets) (xs y : Fin c.n → ℝ) (i : Fin c.n)
    (hi : mask i = true) (v : ℝ) : getTheta c mask off xs (Function.update y i v) = getTheta c mask off xs y := by
  funext k
  unfold getTheta
  by_cases h : Fin.natAdd (c.npoi + c.npou) k = i
  · subst h; simp [stopAt, hi]
  · simp [Function.update_of_ne h]

theorem nllTape_update (t : Terms c) (mask : Fin c.n → Bool) (off : c.Offsets) (xs y : Fin c.n → ℝ) (i : Fin c.n)
    (hi : mask i = true) (hext : ∀ y v, t.ext (Function.update y i v) = t.ext y) (v : ℝ) :
    nllTape c t mask off xs (Function.update y i v) = nllTape c t mask off xs y := by
  unfold nllTape getX
  rw [getPoi_update c mask off xs y i hi v, getNui_update c mask xs y i hi v, getTheta_update c mask off xs y i hi v,
    hext]

/-- C24 (missing: external likelihood terms on the frozen parameter, see `c24_external_violated`): the
gradient with respect to a frozen parameter vanishes. -/
theorem c24_frozen_zero_gradient_partial (t : Terms c) (mask : Fin c.n → Bool) (off : c.Offsets) (x : Fin c.n → ℝ)
    (i : Fin c.n) (hi : mask i = true) (hext : ∀ y v, t.ext (Function.update y i v) = t.ext y) :
    Spec.grad c (nllTape c t mask off) x i = 0 := by
  simp only [Spec.grad, nllTape_update c t mask off x x i hi hext, deriv_const]

/-- C24 (same restriction): rows and columns of the Hessian of a frozen parameter vanish. -/
theorem c24_frozen_zero_hessian_partial (t : Terms c) (mask : Fin c.n → Bool) (off : c.Offsets) (x : Fin c.n → ℝ)
    (i : Fin c.n) (hi : mask i = true) (hext : ∀ y v, t.ext (Function.update y i v) = t.ext y) (j : Fin c.n) :
    Spec.hess c (nllTape c t mask off) x i j = 0 ∧ Spec.hess c (nllTape c t mask off) x j i = 0 := by
  constructor
  · simp only [Spec.hess, nllTape_update c t mask off x _ i hi hext, deriv_const]
  · simp only [Spec.hess]
    by_cases hij : j = i
    · subst hij
      simp only [Function.update_idem, nllTape_update c t mask off x _ j hi hext, deriv_const]
    · have : ∀ w, (fun v => nllTape c t mask off x (Function.update (Function.update x i w) j v)) =
          fun v => nllTape c t mask off x (Function.update x j v) := by
        intro w; funext v
        rw [Function.update_comm (Ne.symm hij), nllTape_update c t mask off x _ i hi hext]
      simp only [this, Function.update_of_ne hij, deriv_const]

/-- What a gradient-based minimiser can reach (`point`): the start, and visited points moved along a direction
(`dir`) it can construct from gradients and Hessian products at visited points (gradient descent, conjugate
gradients, quasi-Newton, Krylov trust region, exact trust-region and damped Newton steps). -/
inductive Spec.Kind where
  | point
  | dir

inductive Spec.Reach {n : ℕ} (g : (Fin n → ℝ) → Fin n → ℝ) (H : (Fin n → ℝ) → Matrix (Fin n) (Fin n) ℝ)
    (x0 : Fin n → ℝ) : Spec.Kind → (Fin n → ℝ) → Prop
  | start : Spec.Reach g H x0 .point x0
  | step {x d} : Spec.Reach g H x0 .point x → Spec.Reach g H x0 .dir d → Spec.Reach g H x0 .point (x + d)
  | grad {x} : Spec.Reach g H x0 .point x → Spec.Reach g H x0 .dir (g x)
  | hess {x d} : Spec.Reach g H x0 .point x → Spec.Reach g H x0 .dir d → Spec.Reach g H x0 .dir ((H x).mulVec d)
  | add {d e} : Spec.Reach g H x0 .dir d → Spec.Reach g H x0 .dir e → Spec.Reach g H x0 .dir (d + e)
  | smul {d} (r : ℝ) : Spec.Reach g H x0 .dir d → Spec.Reach g H x0 .dir (r • d)
  | solve {x d p} (lam : ℝ) (hlam : lam ≠ 0) : Spec.Reach g H x0 .point x → Spec.Reach g H x0 .dir d →
      (H x).mulVec p + lam • p = d → Spec.Reach g H x0 .dir p

theorem reach_fixed {n : ℕ} {g : (Fin n → ℝ) → Fin n → ℝ} {H : (Fin n → ℝ) → Matrix (Fin n) (Fin n) ℝ}
    {x0 : Fin n → ℝ} {i : Fin n} (hg : ∀ x, g x i = 0) (hH : ∀ x j, H x i j = 0) {k : Spec.Kind} {x : Fin n → ℝ}
    (h : Spec.Reach g H x0 k x) : x i = match k with | .point => x0 i | .dir => 0 := by
  induction h with
  | start => rfl
  | step _ _ hx hd => simp only at hx hd ⊢; rw [Pi.add_apply, hx, hd, add_zero]
  | grad _ _ => exact hg _
  | hess _ _ _ _ => simp [Matrix.mulVec, dotProduct, hH]
  | add _ _ hd he => simp only at hd he ⊢; rw [Pi.add_apply, hd, he, add_zero]
  | smul r _ hd => simp only at hd ⊢; rw [Pi.smul_apply, hd, smul_zero]
  | solve lam hlam _ _ heq _ h1 =>
    simp only at h1 ⊢
    have h2 := congrFun heq i
    rw [h1] at h2
    simp only [Pi.add_apply, Matrix.mulVec, dotProduct, hH, zero_mul, Finset.sum_const_zero, Pi.smul_apply,
      smul_eq_mul, zero_add, mul_eq_zero, hlam, false_or] at h2
    exact h2

/-- C24 (same restriction): no gradient-based fit moves a frozen parameter, whatever the number of steps. -/
theorem c24_fit_does_not_move_partial (t : Terms c) (mask : Fin c.n → Bool) (off : c.Offsets) (i : Fin c.n)
    (hi : mask i = true) (hext : ∀ y v, t.ext (Function.update y i v) = t.ext y) (x0 x : Fin c.n → ℝ)
    (h : Spec.Reach (Spec.grad c (nllTape c t mask off)) (Spec.hess c (nllTape c t mask off)) x0 .point x) : x i = x0 i :=
  reach_fixed (k := .point) (fun x => c24_frozen_zero_gradient_partial c t mask off x i hi hext)
    (fun x j => (c24_frozen_zero_hessian_partial c t mask off x i hi hext j).1) h

/-- one POI, one systematic -/
abbrev exampleCfg : Cfg := { npoi := 1, npou := 0, nsyst := 1, allowNeg := false, doBlinding := true }

/-- `main = poi² + theta`, unit constraint on the systematic, external term `x₁` -/
def exampleTerms : Terms exampleCfg :=
  { main := fun p _ th => p ⟨0, by decide⟩ ^ 2 + th ⟨0, by decide⟩, cw := ![0, 1], x0 := 0,
    penalty := fun _ _ _ _ => 0, ext := fun y => y ⟨1, by decide⟩ }

example : Spec.grad exampleCfg (nllTape exampleCfg exampleTerms ![true, false] exampleCfg.noOffsets) ![2, 3] ⟨0, by decide⟩ = 0 :=
  c24_frozen_zero_gradient_partial exampleCfg exampleTerms _ _ _ ⟨0, by decide⟩ rfl (by
    intro y v
    simp only [exampleTerms]
    rw [Function.update_of_ne]; simp)

/-- C24 is violated when an external term acts on the frozen parameter: its gradient is not stopped, and a
gradient step moves the parameter. -/
theorem c24_external_violated :
    ∃ (c : Cfg) (t : Terms c) (mask : Fin c.n → Bool) (x0 x : Fin c.n → ℝ) (i : Fin c.n), mask i = true ∧
      Spec.grad c (nllTape c t mask c.noOffsets) x0 i ≠ 0 ∧
      Spec.Reach (Spec.grad c (nllTape c t mask c.noOffsets)) (Spec.hess c (nllTape c t mask c.noOffsets)) x0 .point x ∧
      x i ≠ x0 i := by
  have hg : Spec.grad exampleCfg (nllTape exampleCfg exampleTerms (fun _ => true) exampleCfg.noOffsets)
      (fun _ => 0) ⟨1, by decide⟩ = 1 := by
    unfold Spec.grad
    have : (fun v => nllTape exampleCfg exampleTerms (fun _ => true) exampleCfg.noOffsets (fun _ => 0)
        (Function.update (fun _ => 0) ⟨1, by decide⟩ v)) = fun v => v := by
      funext v
      have h := nllTape_update exampleCfg { exampleTerms with ext := fun _ => 0 } (fun _ => true) exampleCfg.noOffsets
        (fun _ => 0) (fun _ => 0) ⟨1, by decide⟩ rfl (fun _ _ => rfl) v
      have h0 : nllTape exampleCfg { exampleTerms with ext := fun _ => 0 } (fun _ => true) exampleCfg.noOffsets
        (fun _ => 0) (fun _ => 0) = 0 := by
        have hx : getX exampleCfg (fun _ => true) exampleCfg.noOffsets (fun _ => 0) (fun _ => 0) = fun _ => 0 := by
          funext k
          fin_cases k <;> simp [getX, exampleCfg, Fin.append, Fin.addCases, getPoi, getTheta, stopAt, Cfg.noOffsets]
        unfold nllTape
        simp only [hx]
        simp [exampleTerms, getPoi, getTheta, stopAt, Cfg.noOffsets]
      rw [h0] at h
      have h' : nllTape exampleCfg exampleTerms (fun _ => true) exampleCfg.noOffsets (fun _ => 0)
          (Function.update (fun _ => 0) ⟨1, by decide⟩ v) = nllTape exampleCfg { exampleTerms with ext := fun _ => 0 }
            (fun _ => true) exampleCfg.noOffsets (fun _ => 0) (Function.update (fun _ => 0) ⟨1, by decide⟩ v) + v := by
        unfold nllTape
        simp [exampleTerms]
      rw [h', h, zero_add]
    rw [this]; simp
  refine ⟨exampleCfg, exampleTerms, fun _ => true, fun _ => 0, _, ⟨1, by decide⟩, rfl, by rw [hg]; exact one_ne_zero,
    .step .start (.grad .start), ?_⟩
  rw [Pi.add_apply, hg]; norm_num

/-! ### C26 -/

/-- Independent specification: the first group that selects the name. -/
def Spec.firstGroup (rx : Regex) (groups : List String) (name : String) : Option String :=
  groups.find? fun g => g == name || (match rx g with | some f => f name | none => false)

theorem selects_iff (rx : Regex) (g name : String) :
    (g == name || (match rx g with | some f => f name | none => false)) = true ↔ Spec.Selects rx g name := by
  unfold Spec.Selects
  rw [Bool.or_eq_true, beq_iff_eq]
  refine or_congr Iff.rfl ?_
  cases rx g <;> simp

theorem foldl_seed (ms : List String) (expr : String) (d : Dict String String) (p : String) :
    (ms.foldl (fun d p => if d.has p then d else d.set p expr) d).get? p =
      (d.get? p).or (if p ∈ ms then some expr else none) := by
  induction ms generalizing d with
  | nil => simp
  | cons m ms ih =>
    rw [List.foldl_cons, ih]
    by_cases hm : d.has m = true
    · rw [if_pos hm]
      by_cases hp : p = m
      · subst hp
        obtain ⟨v, hv⟩ := (Dict.has_iff d p).1 hm
        simp [hv]
      · simp [hp]
    · rw [if_neg hm, Dict.get?_set]
      have hm' : d.get? m = none := by rw [← Dict.has_eq_false_iff]; simpa using hm
      by_cases hp : m = p
      · subst hp; simp [hm']
      · simp [hp, Ne.symm hp]

theorem seedLoop_get (rx : Regex) (names groups : List String) (d s : Dict String String)
    (h : seedLoop rx names groups d = .ok s) (p : String) :
    s.get? p = (d.get? p).or (if p ∈ names then Spec.firstGroup rx groups p else none) := by
  induction groups generalizing d with
  | nil => simp [seedLoop] at h; subst h; simp [Spec.firstGroup]
  | cons g gs ih =>
    simp only [seedLoop] at h
    cases hm : matchParams rx [g] names with
    | error e => simp [hm] at h
    | ok ms =>
      simp only [hm] at h
      rw [ih _ h, foldl_seed]
      have hmem := c25_selects rx [g] names ms hm p
      simp only [List.mem_singleton, exists_eq_left] at hmem
      cases hd : d.get? p with
      | some v => simp
      | none =>
        simp only [Option.none_or, Spec.firstGroup, List.find?_cons]
        by_cases hn : p ∈ names
        · by_cases hs : Spec.Selects rx g p
          · rw [if_pos (hmem.2 ⟨hn, hs⟩), (selects_iff rx g p).2 hs]; simp [hn]
          · have : ¬ ((g == p || (match rx g with | some f => f p | none => false)) = true) := by
              rw [selects_iff]; exact hs
            rw [if_neg (fun h => hs (hmem.1 h).2), Bool.not_eq_true] at *
            simp [hn, this]
        · simp [hn, hmem]

variable (rx : Regex) (rand : String → ℝ) {npoi nsyst : ℕ} (poiNames : Fin npoi → String)
  (systs : Fin nsyst → String) (noiidxs : List (Fin nsyst)) (unblind groups : List String)

/-- the names subject to blinding: the POIs and the nuisances of interest -/
def Spec.blindable (name : String) : Prop := (∃ i, poiNames i = name) ∨ ∃ i ∈ noiidxs, systs i = name

/-- C26: the offsets applied to every parameter: none for parameters selected by an unblinding expression and
for nuisances that are not of interest, otherwise the value drawn from the seed of the first group selecting
the parameter, or of its own name. -/
theorem c26_offset_values (b : BlindValues npoi nsyst)
    (h : initBlinding rx rand poiNames systs noiidxs unblind groups = .ok b) :
    (∀ i, (∃ e ∈ unblind, Spec.Selects rx e (poiNames i)) → b.poi i = 1) ∧
    (∀ i, (¬ ∃ e ∈ unblind, Spec.Selects rx e (poiNames i)) →
      b.poi i = Real.exp (rand ((Spec.firstGroup rx groups (poiNames i)).getD (poiNames i)))) ∧
    (∀ i, i ∉ noiidxs → b.theta i = 0) ∧
    (∀ i, (∃ e ∈ unblind, Spec.Selects rx e (systs i)) → b.theta i = 0) ∧
    (∀ i ∈ noiidxs, (¬ ∃ e ∈ unblind, Spec.Selects rx e (systs i)) →
      b.theta i = rand ((Spec.firstGroup rx groups (systs i)).getD (systs i))) := by
  unfold initBlinding at h
  dsimp only at h
  cases hu : matchParams rx unblind (List.ofFn poiNames ++ noiidxs.map systs) with
  | error e => simp [hu] at h
  | ok un =>
    simp only [hu] at h
    cases hs : seedLoop rx (List.ofFn poiNames ++ noiidxs.map systs) groups [] with
    | error e => simp [hs] at h
    | ok seeds =>
      simp only [hs] at h
      split_ifs at h with hov
      simp only [Except.ok.injEq] at h
      subst h
      have hmem := c25_selects rx unblind _ un hu
      have hget := seedLoop_get rx _ groups [] seeds hs
      have hpn : ∀ i, poiNames i ∈ List.ofFn poiNames ++ noiidxs.map systs := by
        intro i; rw [List.mem_append, List.mem_ofFn]; exact .inl ⟨i, rfl⟩
      have hsn : ∀ i ∈ noiidxs, systs i ∈ List.ofFn poiNames ++ noiidxs.map systs := by
        intro i hi; rw [List.mem_append]; exact .inr (List.mem_map_of_mem hi)
      refine ⟨fun i hi => ?_, fun i hi => ?_, fun i hi => ?_, fun i hi => ?_, fun i hi hi' => ?_⟩ <;> dsimp only
      · rw [if_neg (not_not.2 ((hmem _).2 ⟨hpn i, hi⟩))]
      · rw [if_pos (fun hc => hi ((hmem _).1 hc).2), hget, if_pos (hpn i)]; rfl
      · rw [if_neg (fun hc => hi hc.1)]
      · by_cases hii : i ∈ noiidxs
        · rw [if_neg (fun hc => hc.2 ((hmem _).2 ⟨hsn i hii, hi⟩))]
        · rw [if_neg (fun hc => hii hc.1)]
      · rw [if_pos ⟨hi, fun hc => hi' ((hmem _).1 hc).2⟩, hget, if_pos (hsn i hi)]; rfl

/-- C26: blinded parameters of the same kind selected first by the same group share their offset. -/
theorem c26_group_members_share (b : BlindValues npoi nsyst)
    (h : initBlinding rx rand poiNames systs noiidxs unblind groups = .ok b) (g : String) :
    (∀ i j, Spec.firstGroup rx groups (poiNames i) = some g → Spec.firstGroup rx groups (poiNames j) = some g →
      b.poi i = b.poi j) ∧
    (∀ i ∈ noiidxs, ∀ j ∈ noiidxs, Spec.firstGroup rx groups (systs i) = some g →
      Spec.firstGroup rx groups (systs j) = some g → b.theta i = b.theta j) := by
  obtain ⟨h1, h2, h3, h4, h5⟩ := c26_offset_values rx rand poiNames systs noiidxs unblind groups b h
  -- a group member is not unblinded, otherwise the call raises
  have key : ∀ name, Spec.blindable poiNames systs noiidxs name → (∃ g, Spec.firstGroup rx groups name = some g) →
      ¬ ∃ e ∈ unblind, Spec.Selects rx e name := by
    rintro name hb ⟨g, hg⟩ hsel
    unfold initBlinding at h
    dsimp only at h
    cases hu : matchParams rx unblind (List.ofFn poiNames ++ noiidxs.map systs) with
    | error e => simp [hu] at h
    | ok un =>
      simp only [hu] at h
      cases hs : seedLoop rx (List.ofFn poiNames ++ noiidxs.map systs) groups [] with
      | error e => simp [hs] at h
      | ok seeds =>
        simp only [hs] at h
        split_ifs at h with hov
        have hn : name ∈ List.ofFn poiNames ++ noiidxs.map systs := by
          rw [List.mem_append, List.mem_ofFn, List.mem_map]
          rcases hb with ⟨i, hi⟩ | ⟨i, hi, hi'⟩
          · exact .inl ⟨i, hi⟩
          · exact .inr ⟨i, hi, hi'⟩
        refine hov (List.any_eq_true.2 ⟨name, (c25_selects rx unblind _ un hu name).2 ⟨hn, hsel⟩, ?_⟩)
        rw [Dict.has_iff]
        refine ⟨g, ?_⟩
        rw [seedLoop_get rx _ groups [] seeds hs, if_pos hn, hg]; rfl
  refine ⟨fun i j hi hj => ?_, fun i hi j hj hi' hj' => ?_⟩
  · rw [h2 i (key _ (.inl ⟨i, rfl⟩) ⟨g, hi⟩), h2 j (key _ (.inl ⟨j, rfl⟩) ⟨g, hj⟩), hi, hj]; rfl
  · rw [h5 i hi (key _ (.inr ⟨i, hi, rfl⟩) ⟨g, hi'⟩), h5 j hj (key _ (.inr ⟨j, hj, rfl⟩) ⟨g, hj'⟩), hi', hj']; rfl

/-- C26: the call is refused exactly when an expression is invalid or some blindable parameter is both
unblinded and in a group. -/
theorem c26_overlap_raises (hrx : ∀ e ∈ unblind ++ groups, (rx e).isSome) :
    initBlinding rx rand poiNames systs noiidxs unblind groups = .error .runtime ↔
      ∃ name, Spec.blindable poiNames systs noiidxs name ∧ (∃ e ∈ unblind, Spec.Selects rx e name) ∧
        ∃ g ∈ groups, Spec.Selects rx g name := by
  have hmatch : ∀ es names, (∀ e ∈ es, (rx e).isSome) → ∃ r, matchParams rx es names = .ok r := by
    intro es names hes
    cases hm : matchParams rx es names with
    | ok r => exact ⟨r, rfl⟩
    | error e =>
      obtain ⟨x, hx, hx'⟩ := (c25_raises_iff rx es names).1 ⟨e, hm⟩
      have := hes x hx
      simp [hx'] at this
  have hseed : ∀ (names gs : List String) (d : Dict String String), (∀ e ∈ gs, (rx e).isSome) →
      ∃ s, seedLoop rx names gs d = .ok s := by
    intro names gs
    induction gs with
    | nil => exact fun d _ => ⟨d, rfl⟩
    | cons g gs ih =>
      intro d hgs
      obtain ⟨r, hr⟩ := hmatch [g] names (by simpa using hgs g (by simp))
      simp only [seedLoop, hr]
      exact ih _ fun e he => hgs e (List.mem_cons_of_mem _ he)
  have hfirst : ∀ name, (∃ g, Spec.firstGroup rx groups name = some g) ↔ ∃ g ∈ groups, Spec.Selects rx g name := by
    intro name
    unfold Spec.firstGroup
    rw [← Option.isSome_iff_exists, List.find?_isSome]
    simp only [selects_iff]
  have hnames : ∀ name, name ∈ List.ofFn poiNames ++ noiidxs.map systs ↔ Spec.blindable poiNames systs noiidxs name := by
    intro name
    rw [List.mem_append, List.mem_ofFn, List.mem_map]; rfl
  obtain ⟨un, hu⟩ := hmatch unblind (List.ofFn poiNames ++ noiidxs.map systs) fun e he => hrx e (by simp [he])
  obtain ⟨seeds, hs⟩ := hseed (List.ofFn poiNames ++ noiidxs.map systs) groups [] fun e he => hrx e (by simp [he])
  have hmem := c25_selects rx unblind _ un hu
  unfold initBlinding
  simp only [hu, hs]
  have hany : (un.any fun p => seeds.has p) = true ↔ ∃ name, Spec.blindable poiNames systs noiidxs name ∧
      (∃ e ∈ unblind, Spec.Selects rx e name) ∧ ∃ g ∈ groups, Spec.Selects rx g name := by
    rw [List.any_eq_true]
    refine exists_congr fun name => ?_
    rw [hmem, hnames, Dict.has_iff, ← hfirst, and_assoc]
    refine and_congr_right fun hb => and_congr_right fun _ => ?_
    rw [seedLoop_get rx _ groups [] seeds hs, if_pos ((hnames name).2 hb)]
    simp
  rw [← hany]
  split_ifs with hov <;> simp [hov]

/-- C26: the multiplicative offsets are positive. -/
theorem c26_offsets_positive (b : BlindValues npoi nsyst)
    (h : initBlinding rx rand poiNames systs noiidxs unblind groups = .ok b) (i : Fin npoi) : 0 < b.poi i := by
  obtain ⟨h1, h2, -⟩ := c26_offset_values rx rand poiNames systs noiidxs unblind groups b h
  by_cases hi : ∃ e ∈ unblind, Spec.Selects rx e (poiNames i)
  · rw [h1 i hi]; exact one_pos
  · rw [h2 i hi]; exact Real.exp_pos _

/-- the change of variables that undoes the offsets -/
def unblindMap (off : c.Offsets) (x : Fin c.n → ℝ) : Fin c.n → ℝ :=
  Fin.append (Fin.append
    (fun i => x (Fin.castAdd c.nsyst (Fin.castAdd c.npou i)) * if c.allowNeg then off.poi i else Real.sqrt (off.poi i))
    (fun i => x (Fin.castAdd c.nsyst (Fin.natAdd c.npoi i))))
    (fun i => x (Fin.natAdd (c.npoi + c.npou) i) + off.theta i)

def blindMap (off : c.Offsets) (x : Fin c.n → ℝ) : Fin c.n → ℝ :=
  Fin.append (Fin.append
    (fun i => x (Fin.castAdd c.nsyst (Fin.castAdd c.npou i)) / if c.allowNeg then off.poi i else Real.sqrt (off.poi i))
    (fun i => x (Fin.castAdd c.nsyst (Fin.natAdd c.npoi i))))
    (fun i => x (Fin.natAdd (c.npoi + c.npou) i) - off.theta i)

theorem append_ext {α : Type*} {a b e : ℕ} (f g : Fin (a + b + e) → α)
    (h1 : ∀ i, f (Fin.castAdd e (Fin.castAdd b i)) = g (Fin.castAdd e (Fin.castAdd b i)))
    (h2 : ∀ i, f (Fin.castAdd e (Fin.natAdd a i)) = g (Fin.castAdd e (Fin.natAdd a i)))
    (h3 : ∀ i, f (Fin.natAdd (a + b) i) = g (Fin.natAdd (a + b) i)) : f = g := by
  funext k
  refine Fin.addCases (fun k => ?_) h3 k
  exact Fin.addCases h1 h2 k

/-- the bijection between parameter values with and without blinding -/
def blindEquiv (off : c.Offsets) (hoff : ∀ i, 0 < off.poi i) : (Fin c.n → ℝ) ≃ (Fin c.n → ℝ) where
  toFun := blindMap c off
  invFun := unblindMap c off
  left_inv x := by
    have hne : ∀ i, (if c.allowNeg then off.poi i else Real.sqrt (off.poi i)) ≠ 0 := fun i => by
      split
      · exact (hoff i).ne'
      · exact (Real.sqrt_pos.2 (hoff i)).ne'
    refine append_ext _ _ (fun i => ?_) (fun i => ?_) (fun i => ?_)
    · simp only [unblindMap, blindMap, Fin.append_left]
      exact div_mul_cancel₀ _ (hne i)
    · simp only [unblindMap, blindMap, Fin.append_left, Fin.append_right]
    · simp only [unblindMap, blindMap, Fin.append_right]; ring
  right_inv x := by
    have hne : ∀ i, (if c.allowNeg then off.poi i else Real.sqrt (off.poi i)) ≠ 0 := fun i => by
      split
      · exact (hoff i).ne'
      · exact (Real.sqrt_pos.2 (hoff i)).ne'
    refine append_ext _ _ (fun i => ?_) (fun i => ?_) (fun i => ?_)
    · simp only [unblindMap, blindMap, Fin.append_left]
      exact mul_div_cancel_right₀ _ (hne i)
    · simp only [unblindMap, blindMap, Fin.append_left, Fin.append_right]
    · simp only [unblindMap, blindMap, Fin.append_right]; ring

theorem getPoi_blind (mask : Fin c.n → Bool) (off : c.Offsets) (hoff : ∀ i, 0 < off.poi i) (hb : c.doBlinding = true)
    (x : Fin c.n → ℝ) :
    getPoi c mask off (blindMap c off x) (blindMap c off x) = getPoi c mask c.noOffsets x x := by
  funext i
  have hs : ∀ (m : Bool) (v : ℝ), stopAt m v v = v := by intro m v; unfold stopAt; split <;> rfl
  simp only [getPoi, hb, if_true, hs, Cfg.noOffsets, mul_one, blindMap, Fin.append_left]
  cases ha : c.allowNeg with
  | true => simp [(hoff i).ne']
  | false =>
    simp only [Bool.false_eq_true, if_false]
    rw [div_pow, Real.sq_sqrt (hoff i).le, div_mul_cancel₀ _ (hoff i).ne']

theorem getNui_blind (mask : Fin c.n → Bool) (off : c.Offsets) (x : Fin c.n → ℝ) :
    getNui c mask (blindMap c off x) (blindMap c off x) = getNui c mask x x := by
  funext i
  simp only [getNui, blindMap, Fin.append_left, Fin.append_right]

theorem getTheta_blind (mask : Fin c.n → Bool) (off : c.Offsets) (hb : c.doBlinding = true) (x : Fin c.n → ℝ) :
    getTheta c mask off (blindMap c off x) (blindMap c off x) = getTheta c mask c.noOffsets x x := by
  funext i
  have hs : ∀ (m : Bool) (v : ℝ), stopAt m v v = v := by intro m v; unfold stopAt; split <;> rfl
  simp only [getTheta, hb, if_true, hs, Cfg.noOffsets, add_zero, blindMap, Fin.append_right, sub_add_cancel]

/-- C26 (missing: fits with external likelihood terms, see `c26_external_violated`): blinding is a bijective
change of the raw parameters under which the effective parameters and the likelihood are the same. -/
theorem c26_same_likelihood_partial (t : Terms c) (hext : ∀ y y', t.ext y = t.ext y') (mask : Fin c.n → Bool)
    (off : c.Offsets) (hoff : ∀ i, 0 < off.poi i) (hb : c.doBlinding = true) :
    ∃ e : (Fin c.n → ℝ) ≃ (Fin c.n → ℝ), (∀ x, getX c mask off (e x) (e x) = getX c mask c.noOffsets x x) ∧
      ∀ x, nllAt c t mask off (e x) = nllAt c t mask c.noOffsets x := by
  have hx : ∀ x, getX c mask off (blindMap c off x) (blindMap c off x) = getX c mask c.noOffsets x x := by
    intro x
    unfold getX
    rw [getPoi_blind c mask off hoff hb, getNui_blind, getTheta_blind c mask off hb]
  refine ⟨blindEquiv c off hoff, hx, fun x => ?_⟩
  show nllTape c t mask off (blindMap c off x) (blindMap c off x) = nllTape c t mask c.noOffsets x x
  unfold nllTape
  simp only [hx, getPoi_blind c mask off hoff hb, getNui_blind, getTheta_blind c mask off hb,
    hext (blindMap c off x) x]

/-- C26 (same restriction): the attainable values and the minimum are unaffected by blinding. -/
theorem c26_same_minimum_partial (t : Terms c) (hext : ∀ y y', t.ext y = t.ext y') (mask : Fin c.n → Bool)
    (off : c.Offsets) (hoff : ∀ i, 0 < off.poi i) (hb : c.doBlinding = true) :
    Set.range (nllAt c t mask off) = Set.range (nllAt c t mask c.noOffsets) ∧
    ∀ m, IsLeast (Set.range (nllAt c t mask off)) m ↔ IsLeast (Set.range (nllAt c t mask c.noOffsets)) m := by
  obtain ⟨e, -, he⟩ := c26_same_likelihood_partial c t hext mask off hoff hb
  have : Set.range (nllAt c t mask off) = Set.range (nllAt c t mask c.noOffsets) := by
    ext v
    constructor
    · rintro ⟨x, rfl⟩
      exact ⟨e.symm x, by rw [← he, e.apply_symm_apply]⟩
    · rintro ⟨x, rfl⟩
      exact ⟨e x, he x⟩
  exact ⟨this, fun m => by rw [this]⟩

/-- C26: switching blinding off restores the identity: the effective parameters are those of the raw vector
(squared for the POIs when negative ones are not allowed). -/
theorem c26_switch_off (mask : Fin c.n → Bool) (vals cur : c.Offsets) (hb : c.doBlinding = true) (x : Fin c.n → ℝ) :
    (∀ i, getX c mask (c.setBlinding vals false cur) x x (Fin.castAdd c.nsyst (Fin.castAdd c.npou i)) =
      if c.allowNeg then x (Fin.castAdd c.nsyst (Fin.castAdd c.npou i))
      else x (Fin.castAdd c.nsyst (Fin.castAdd c.npou i)) ^ 2) ∧
    (∀ i, getX c mask (c.setBlinding vals false cur) x x (Fin.castAdd c.nsyst (Fin.natAdd c.npoi i)) =
      x (Fin.castAdd c.nsyst (Fin.natAdd c.npoi i))) ∧
    (∀ i, getX c mask (c.setBlinding vals false cur) x x (Fin.natAdd (c.npoi + c.npou) i) =
      x (Fin.natAdd (c.npoi + c.npou) i)) := by
  have hs : ∀ (m : Bool) (v : ℝ), stopAt m v v = v := by intro m v; unfold stopAt; split <;> rfl
  refine ⟨fun i => ?_, fun i => ?_, fun i => ?_⟩
  · simp [getX, Fin.append_left, getPoi, Cfg.setBlinding, hb, Cfg.noOffsets, hs]
  · simp [getX, Fin.append_left, Fin.append_right, getNui, hs]
  · simp [getX, Fin.append_right, getTheta, Cfg.setBlinding, hb, Cfg.noOffsets, hs]

/-- C26: a fit without blinding reads no offset: the effective parameters and the likelihood are those of the raw vector
whatever values are stored. -/
theorem c26_no_blinding (t : Terms c) (mask : Fin c.n → Bool) (off off' : c.Offsets) (hb : c.doBlinding = false)
    (x : Fin c.n → ℝ) :
    getX c mask off x x = getX c mask off' x x ∧ nllAt c t mask off x = nllAt c t mask off' x ∧
    (∀ i, getX c mask off x x (Fin.castAdd c.nsyst (Fin.castAdd c.npou i)) =
      if c.allowNeg then x (Fin.castAdd c.nsyst (Fin.castAdd c.npou i))
      else x (Fin.castAdd c.nsyst (Fin.castAdd c.npou i)) ^ 2) ∧
    ∀ i, getX c mask off x x (Fin.natAdd (c.npoi + c.npou) i) = x (Fin.natAdd (c.npoi + c.npou) i) := by
  have hs : ∀ (m : Bool) (v : ℝ), stopAt m v v = v := by intro m v; unfold stopAt; split <;> rfl
  have h1 : getPoi c mask off x x = getPoi c mask off' x x := by funext i; simp [getPoi, hb]
  have h2 : getTheta c mask off x x = getTheta c mask off' x x := by funext i; simp [getTheta, hb]
  have h3 : getX c mask off x x = getX c mask off' x x := by unfold getX; rw [h1, h2]
  refine ⟨h3, ?_, fun i => ?_, fun i => ?_⟩
  · unfold nllAt nllTape; rw [h1, h2, h3]
  · simp [getX, Fin.append_left, getPoi, hb, hs]
  · simp [getX, Fin.append_right, getTheta, hb, hs]

example : ∃ c : Cfg, c.doBlinding = false ∧ 0 < c.npoi ∧ 0 < c.nsyst := ⟨{ exampleCfg with doBlinding := false }, rfl, by decide, by decide⟩

/-- C26: with blinding switched on, the stored values are the ones in use. -/
theorem c26_switch_on (vals cur : c.Offsets) (hb : c.doBlinding = true) : c.setBlinding vals true cur = vals := by
  simp [Cfg.setBlinding, hb]

/-- blinding values of a configuration with a group, an unblinded parameter, and a constrained nuisance -/
example : ∃ b, initBlinding exampleRx (fun _ => 3) ![("mu1" : String), "alphaP"] ![("alphaS" : String), "lumi", "alphaB"]
    [0, 2] ["mu1"] ["alpha.*"] = .ok b ∧ b.poi 0 = 1 ∧ b.poi 1 = Real.exp 3 ∧ b.theta 0 = 3 ∧ b.theta 1 = 0 ∧ b.theta 2 = 3 := by
  have hno : initBlinding exampleRx (fun _ => 3) ![("mu1" : String), "alphaP"] ![("alphaS" : String), "lumi", "alphaB"]
    [0, 2] ["mu1"] ["alpha.*"] ≠ .error .runtime := by
    intro h
    obtain ⟨name, hb, ⟨e, he, hs⟩, g, hg, hs'⟩ := (c26_overlap_raises _ _ _ _ _ _ _ (by decide +kernel)).1 h
    rw [List.mem_singleton] at he hg; subst he; subst hg
    have hname : name = "mu1" := by
      rcases hs with rfl | ⟨f, hf, hf'⟩
      · rfl
      · simp [exampleRx] at hf; subst hf; simpa using hf'
    subst hname
    rcases hs' with h | ⟨f, hf, hf'⟩
    · exact absurd h (by decide)
    · simp [exampleRx] at hf; subst hf; exact absurd hf' (by decide +kernel)
  cases hb : initBlinding exampleRx (fun _ => 3) ![("mu1" : String), "alphaP"] ![("alphaS" : String), "lumi", "alphaB"]
    [0, 2] ["mu1"] ["alpha.*"] with
  | error e =>
    exfalso
    unfold initBlinding at hb hno
    have h1 : matchParams exampleRx ["mu1"] (List.ofFn ![("mu1" : String), "alphaP"] ++
      ([0, 2] : List (Fin 3)).map ![("alphaS" : String), "lumi", "alphaB"]) = .ok ["mu1"] := by decide +kernel
    have h2 : seedLoop exampleRx (List.ofFn ![("mu1" : String), "alphaP"] ++
      ([0, 2] : List (Fin 3)).map ![("alphaS" : String), "lumi", "alphaB"]) ["alpha.*"] [] =
        .ok [("alphaP", "alpha.*"), ("alphaS", "alpha.*"), ("alphaB", "alpha.*")] := by decide +kernel
    simp only [h1, h2] at hb hno
    split_ifs at hb with h
    exact hno (by simp [h])
  | ok b =>
    obtain ⟨h1, h2, h3, h4, h5⟩ := c26_offset_values _ _ _ _ _ _ _ b hb
    refine ⟨b, rfl, h1 0 ⟨"mu1", by simp, .inl rfl⟩, h2 1 ?_, h5 0 (by simp) ?_, h3 1 (by decide), h5 2 (by simp) ?_⟩
    all_goals
      rintro ⟨e, he, rfl | ⟨f, hf, hf'⟩⟩
      · exact absurd he (by decide)
      · rw [List.mem_singleton] at he; subst he
        simp [exampleRx] at hf; subst hf; exact absurd hf' (by decide)

/-- one blinded nuisance of interest with a unit external curvature -/
abbrev exampleCfg1 : Cfg := { npoi := 0, npou := 0, nsyst := 1, allowNeg := false, doBlinding := true }

def exampleTerms1 : Terms exampleCfg1 :=
  { main := fun _ _ _ => 0, cw := fun _ => 1, x0 := fun _ => 0, penalty := fun _ _ _ _ => 0,
    ext := fun y => 1 / 2 * y ⟨0, by decide⟩ ^ 2 }

/-- C26 is violated with external likelihood terms, which read the raw parameters: the attainable minimum
changes when blinding is switched on. -/
theorem c26_external_violated :
    ∃ (c : Cfg) (t : Terms c) (off : c.Offsets), c.doBlinding = true ∧ (∀ i, 0 < off.poi i) ∧
      IsLeast (Set.range (nllAt c t (fun _ => false) c.noOffsets)) 0 ∧
      ¬ IsLeast (Set.range (nllAt c t (fun _ => false) off)) 0 := by
  let off : exampleCfg1.Offsets := { poi := fun _ => 1, theta := fun _ => 1 }
  have hval : ∀ (o : exampleCfg1.Offsets) x, nllAt exampleCfg1 exampleTerms1 (fun _ => false) o x =
      1 / 2 * (x ⟨0, by decide⟩ + o.theta ⟨0, by decide⟩) ^ 2 + 1 / 2 * x ⟨0, by decide⟩ ^ 2 := by
    intro o x
    unfold nllAt nllTape
    have : getX exampleCfg1 (fun _ => false) o x x = fun _ => x ⟨0, by decide⟩ + o.theta ⟨0, by decide⟩ := by
      funext k
      have hk : k = Fin.natAdd (0 + 0) (0 : Fin 1) := by
        apply Fin.ext; have := k.2; simp only [Fin.natAdd, Fin.val_zero]; change k.val < 1 at this; omega
      rw [hk]
      show Fin.append _ _ (Fin.natAdd (0 + 0) (0 : Fin 1)) = _
      rw [Fin.append_right]
      simp [getTheta, stopAt]
    rw [this]
    simp only [exampleTerms1, sub_zero, zero_add, one_mul, add_zero]
    have : ∀ f : Fin exampleCfg1.n → ℝ, ∑ i, f i = f ⟨0, by decide⟩ := fun f => Fin.sum_univ_one f
    rw [this]
  refine ⟨exampleCfg1, exampleTerms1, off, rfl, fun i => i.elim0,
    ⟨⟨fun _ => 0, by rw [hval]; simp [Cfg.noOffsets]⟩, ?_⟩, ?_⟩
  · rintro _ ⟨x, rfl⟩
    rw [hval]; positivity
  · rintro ⟨⟨x, hx⟩, -⟩
    rw [hval] at hx
    simp only [off] at hx
    nlinarith [sq_nonneg (x ⟨0, by decide⟩ + 1), sq_nonneg (x ⟨0, by decide⟩), sq_nonneg (2 * x ⟨0, by decide⟩ + 1)]

end

end Verif.FitParams
