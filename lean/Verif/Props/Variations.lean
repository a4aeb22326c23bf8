import Verif.Model.Variations
import Verif.Props.ResultFile
import Verif.Props.Propagation

/-!
C93: histograms of predictions with every parameter varied.
-/

namespace Verif.Variations

open Verif.Cov Verif.Impacts Verif.ResultFile Verif.Grid Matrix

noncomputable section

variable {n m : ℕ}

/-! ### The stored histograms -/

/-- the bins of a channel in its histogram: a channel without axes has one bin -/
def Spec.bins (c : Chan) : List Nat := if c.axes = [] then [1] else c.axes.map fun a => if c.flow then a.extent else a.size

/-- number of bins of the channels before the `k`-th -/
def Spec.before (chans : List Chan) (k : Nat) : Nat := ((chans.take k).map fun c => (Spec.bins c).prod).sum

/-- uncertainty of a parameter: before a fit from its constraint, one for parameters without, after a fit from the covariance -/
def Spec.sigma (prefit : Bool) (cw : Vec n) (C : Mat n) (j : Fin n) : ℝ :=
  if prefit then (if cw j = 0 then 1 else Real.sqrt (1 / cw j)) else Real.sqrt (C j j)

theorem bins_eq (c : Chan) : Spec.bins c = c.histAxes.map fun a => if c.flow then a.extent else a.size := by
  unfold Spec.bins Chan.histAxes
  split
  · cases c.flow <;> rfl
  · rfl

theorem bins_prod (c : Chan) : (Spec.bins c).prod = c.shape.prod := by
  unfold Spec.bins Chan.shape
  split
  · next h => simp [h]
  · rfl

theorem chanHist_ok (c : Chan) (hc : c.flow = true → ∀ a ∈ c.axes, a.category = false) (values : List (List Num)) (start : Nat)
    (hrow : ∀ x ∈ values, x.length = n * 2) (hlen : start + (Spec.bins c).prod ≤ values.length) :
    ∃ t, chanHist c (varAxes n) values start = .ok t ∧ ∀ i ∈ grid (Spec.bins c), ∀ j < n, ∀ k < 2,
      t.val (i ++ [j, k]) = (values.getD (start + ravel (Spec.bins c) i) []).getD (j * 2 + k) 0 := by
  have hrav : ∀ j k, ravel [n, 2] [j, k] = j * 2 + k := by
    intro j k
    simp [ravel]
  have hmem : ∀ j < n, ∀ k < 2, [j, k] ∈ grid [n, 2] := by
    intro j hj k hk
    rw [mem_grid]
    exact .cons hj (.cons hk .nil)
  unfold chanHist
  cases hf : c.flow with
  | true =>
    have hb : Spec.bins c = c.histAxes.map (·.extent) := by rw [bins_eq, hf]; rfl
    obtain ⟨t, h1, -, h2, -⟩ := c87_flow c.histAxes (varAxes n) values start
      (by
        intro a ha
        unfold Chan.histAxes at ha
        split at ha
        · rw [List.mem_singleton] at ha; subst ha; rfl
        · exact hc hf a ha)
      (by
        intro a ha
        simp only [varAxes, List.mem_cons, List.not_mem_nil, or_false] at ha
        rcases ha with rfl | rfl <;> rfl)
      (by simpa [varAxes] using hrow) (by rw [← hb]; exact hlen)
    refine ⟨t, by simpa using h1, fun i hi j hj k hk => ?_⟩
    rw [h2 i (hb ▸ hi) [j, k] (hmem j hj k hk), ← hb]
    show List.getD _ (ravel [n, 2] [j, k]) 0 = _
    rw [hrav]
  | false =>
    have hb : Spec.bins c = c.histAxes.map (·.size) := by rw [bins_eq, hf]; rfl
    set rows := (values.take (start + c.shape.prod)).drop start with hrows
    have hp := bins_prod c
    have hrl : rows.length = c.shape.prod := by
      rw [hrows, List.length_drop, List.length_take]
      omega
    have hrm : ∀ x ∈ rows, x.length = n * 2 := fun x hx => hrow x (List.mem_of_mem_take (List.mem_of_mem_drop hx))
    have hfl : rows.flatten.length = ((c.histAxes ++ varAxes n).map (·.size)).prod := by
      rw [List.map_append, ← hb, List.prod_append, hp, List.length_flatten, ← hrl]
      rw [show rows.map List.length = List.replicate rows.length (n * 2) from List.eq_replicate_iff.2
        ⟨by simp, fun b hb => by obtain ⟨x, hx, rfl⟩ := List.mem_map.1 hb; exact hrm x hx⟩]
      simp [varAxes]
    refine ⟨⟨(c.histAxes ++ varAxes n).map (·.size), fun i => rows.flatten.getD (ravel ((c.histAxes ++ varAxes n).map (·.size)) i) 0⟩, ?_, fun i hi j hj k hk => ?_⟩
    · simp only [Bool.false_eq_true, if_false]
      unfold ofFlat
      rw [if_pos hfl]
    · show rows.flatten.getD (ravel ((c.histAxes ++ varAxes n).map (·.size)) (i ++ [j, k])) 0 = _
      rw [List.map_append, ← hb, CovPlot.ravel_append _ _ _ _ (length_of_mem_grid hi)]
      show rows.flatten.getD (ravel (Spec.bins c) i * [n, 2].prod + ravel [n, 2] [j, k]) 0 = _
      rw [hrav, show [n, 2].prod = n * 2 by simp, flatten_getD rows (n * 2) _ _ hrm (by rw [hrl, ← hp]; exact ravel_lt hi) (by omega)]
      congr 1
      rw [hrows]
      simp only [List.getD_eq_getElem?_getD, List.getElem?_drop]
      rw [List.getElem?_take_of_lt (by have := ravel_lt hi; omega)]

theorem before_cons (c : Chan) (cs : List Chan) (k : Nat) : Spec.before (c :: cs) (k + 1) = (Spec.bins c).prod + Spec.before cs k := by
  simp [Spec.before]

theorem histsFrom_ok (values : List (List Num)) (hrow : ∀ x ∈ values, x.length = n * 2) (chans : List Chan) (start : Nat)
    (hc : ∀ c ∈ chans, c.flow = true → ∀ a ∈ c.axes, a.category = false)
    (hlen : start + (chans.map fun c => (Spec.bins c).prod).sum ≤ values.length) :
    ∃ hs, histsFrom (varAxes n) values start chans = .ok hs ∧ hs.map (·.1) = chans.map (·.name) ∧
      ∀ (q : Nat) (c : Chan), chans[q]? = some c → ∃ t : Tensor Num, hs[q]? = some (c.name, t) ∧ ∀ i ∈ grid (Spec.bins c), ∀ j < n, ∀ k < 2,
        t.val (i ++ [j, k]) = (values.getD (start + Spec.before chans q + ravel (Spec.bins c) i) []).getD (j * 2 + k) 0 := by
  induction chans generalizing start with
  | nil => exact ⟨[], rfl, rfl, by simp⟩
  | cons c cs ih =>
    simp only [List.map_cons, List.sum_cons] at hlen
    obtain ⟨t, h1, h2⟩ := chanHist_ok (n := n) c (hc c (by simp)) values start hrow (by omega)
    obtain ⟨hs, i1, i2, i3⟩ := ih (start + c.shape.prod) (fun c' h' => hc c' (by simp [h'])) (by rw [← bins_prod]; omega)
    refine ⟨(c.name, t) :: hs, ?_, by simp [i2], fun q c' hq => ?_⟩
    · show (chanHist c (varAxes n) values start).bind _ = _
      rw [h1]
      show Except.map _ _ = _
      rw [i1]
      rfl
    · cases q with
      | zero =>
        simp only [List.getElem?_cons_zero, Option.some_inj] at hq
        subst hq
        refine ⟨t, rfl, fun i hi j hj k hk => ?_⟩
        rw [h2 i hi j hj k hk]
        simp [Spec.before]
      | succ q =>
        obtain ⟨t', g1, g2⟩ := i3 q c' (by simpa using hq)
        refine ⟨t', by simpa using g1, fun i hi j hj k hk => ?_⟩
        rw [g2 i hi j hj k hk, before_cons, bins_prod, add_assoc start]

theorem row_getD (l : List (Fin n)) (f : Fin n → Num) (g : Fin n → Num) (j k : Nat) (hj : j < l.length) (hk : k < 2) :
    (l.flatMap fun j => [f j, g j]).getD (j * 2 + k) 0 = if k = 0 then f (l.get ⟨j, hj⟩) else g (l.get ⟨j, hj⟩) := by
  induction l generalizing j with
  | nil => simp at hj
  | cons a l ih =>
    cases j with
    | zero =>
      rcases k with _ | _ | k
      · rfl
      · rfl
      · omega
    | succ j =>
      have := ih j (by simpa using hj)
      rw [List.flatMap_cons, show (j + 1) * 2 + k = (j * 2 + k) + 2 by ring]
      simpa using this

/-- C93.  With `--computeVariations` every channel gets a histogram in which, in every bin and for every parameter, the lower and the upper entry are
the prediction of that bin minus and plus its derivative with respect to the parameter times the uncertainty of the parameter; the covariance is what it
was.  (Channels with flow bins have no axis of names: `c87_category_violated`.) -/
theorem c93_stored (prefit : Bool) (cw : Vec n) (C : Mat n) (J : Matrix (Fin m) (Fin n) ℝ) (expected : Vec m)
    (chans : List Chan) (hc : ∀ c ∈ chans, c.flow = true → ∀ a ∈ c.axes, a.category = false) (hm : Spec.before chans chans.length = m) :
    ∃ hs : List (String × Tensor Num), saveVariations prefit cw (some C) J expected chans = .ok (some C, hs) ∧ hs.map (·.1) = chans.map (·.name) ∧
      ∀ (q : Nat) (c : Chan), chans[q]? = some c → ∃ t : Tensor Num, hs[q]? = some (c.name, t) ∧
        ∀ i ∈ grid (Spec.bins c), ∃ hb : Spec.before chans q + ravel (Spec.bins c) i < m, ∀ j : Fin n,
          t.val (i ++ [j.val, 0]) = some (expected ⟨_, hb⟩ - J ⟨_, hb⟩ j * Spec.sigma prefit cw C j) ∧
          t.val (i ++ [j.val, 1]) = some (expected ⟨_, hb⟩ + J ⟨_, hb⟩ j * Spec.sigma prefit cw C j) := by
  set used : Mat n := if prefit then diagonal (prefitVariance cw 1) else C with hused
  have hsig : ∀ j, Real.sqrt (used j j) = Spec.sigma prefit cw C j := by
    intro j
    rw [hused]
    unfold Spec.sigma
    cases prefit with
    | false => rfl
    | true =>
      simp only [if_true, diagonal_apply_eq, prefitVariance]
      split
      · simp
      · rw [one_div]
  have hrow : ∀ x ∈ flatVariations false used J expected, x.length = n * 2 := by
    intro x hx
    obtain ⟨o, -, rfl⟩ := List.mem_map.1 hx
    simp [List.length_flatMap]
  have hsum : (chans.map fun c => (Spec.bins c).prod).sum = m := by
    rw [← hm]
    simp [Spec.before]
  obtain ⟨hs, h1, h2, h3⟩ := histsFrom_ok (flatVariations false used J expected) hrow chans 0 hc (by
    rw [hsum]; simp [flatVariations])
  refine ⟨hs, ?_, h2, fun q c hq => ?_⟩
  · unfold saveVariations
    dsimp only
    rw [← hused, h1]
    cases prefit <;> rfl
  · obtain ⟨t, g1, g2⟩ := h3 q c hq
    refine ⟨t, g1, fun i hi => ?_⟩
    have hb : Spec.before chans q + ravel (Spec.bins c) i < m := by
      have hlt := ravel_lt hi
      have hsplit : Spec.before chans q + (Spec.bins c).prod ≤ m := by
        rw [← hsum]
        obtain ⟨hql, hqe⟩ := List.getElem?_eq_some_iff.1 hq
        have : chans = chans.take q ++ c :: chans.drop (q + 1) := by
          rw [← hqe, List.cons_getElem_drop_succ, List.take_append_drop]
        conv_rhs => rw [this]
        rw [List.map_append, List.sum_append, List.map_cons, List.sum_cons]
        unfold Spec.before
        omega
      omega
    refine ⟨hb, fun j => ?_⟩
    have hget : (flatVariations false used J expected).getD (0 + Spec.before chans q + ravel (Spec.bins c) i) [] =
        (List.finRange n).flatMap fun j => [(variation false used J ⟨_, hb⟩ j).map fun d => (downUp (expected ⟨_, hb⟩) d).1,
          (variation false used J ⟨_, hb⟩ j).map fun d => (downUp (expected ⟨_, hb⟩) d).2] := by
      unfold flatVariations
      rw [zero_add, List.getD_eq_getElem?_getD, List.getElem?_map, List.getElem?_eq_getElem (by simpa using hb)]
      simp
    have hval : ∀ k < 2, t.val (i ++ [j.val, k]) =
        some (if k = 0 then expected ⟨_, hb⟩ - J ⟨_, hb⟩ j * Spec.sigma prefit cw C j else expected ⟨_, hb⟩ + J ⟨_, hb⟩ j * Spec.sigma prefit cw C j) := by
      intro k hk
      rw [g2 i hi j.val j.isLt k hk, hget, row_getD _ _ _ _ _ (by simp) hk]
      have hvar : variation false used J ⟨_, hb⟩ j = some (J ⟨_, hb⟩ j * Spec.sigma prefit cw C j) := by
        simp [variation, hsig]
      simp only [List.get_eq_getElem, List.getElem_finRange, Fin.cast_mk, Fin.eta, hvar, downUp, Option.map_some]
      split <;> rfl
    exact ⟨hval 0 (by omega), hval 1 (by omega)⟩

/-- C93.  Without a covariance the variations are refused. -/
theorem c93_refused (prefit : Bool) (cw : Vec n) (J : Matrix (Fin m) (Fin n) ℝ) (expected : Vec m) (chans : List Chan) :
    saveVariations prefit cw none J expected chans = .error .runtime := rfl

/-! ### What the entries mean -/

/-- C93.  If the prediction depends linearly on the parameters, the stored entries are the predictions for the parameter moved down and up by its
uncertainty, all others as fitted. -/
theorem c93_moved (pred : Vec n → ℝ) (J : Matrix (Fin 1) (Fin n) ℝ) (x : Vec n) (hlin : ∀ d, pred (x + d) = pred x + ∑ k, J 0 k * d k)
    (cov : Mat n) (j : Fin n) : ∃ d, variation false cov J 0 j = some d ∧
      downUp (pred x) d = (pred (fun k => x k + if k = j then -Real.sqrt (cov j j) else 0), pred (fun k => x k + if k = j then Real.sqrt (cov j j) else 0)) := by
  refine ⟨_, rfl, ?_⟩
  have h : ∀ s : ℝ, pred (fun k => x k + if k = j then s else 0) = pred x + J 0 j * s := by
    intro s
    have := hlin fun k => if k = j then s else 0
    rw [show (x + fun k => if k = j then s else 0) = fun k => x k + if k = j then s else 0 from rfl] at this
    rw [this]
    simp
  rw [h, h]
  simp only [downUp, mul_neg, sub_eq_add_neg]

/-- C93.  Before the fit, where the parameters are independent, the squares of the variations add up to the variance of the prediction. -/
theorem c93_prefit_sum (cw : Vec n) (hcw : ∀ j, 0 ≤ cw j) (err : ℝ) (J : Matrix (Fin m) (Fin n) ℝ) (o : Fin m) (v : Fin m → ℝ)
    (hv : expVar (K := Fin 0) (diagonal (prefitVariance cw err)) J none = .ok v) :
    ∃ d : Fin n → ℝ, (∀ j, variation false (diagonal (prefitVariance cw err)) J o j = some (d j)) ∧ ∑ j, d j ^ 2 = v o := by
  refine ⟨fun j => J o j * Real.sqrt (prefitVariance cw err j), fun j => by simp [variation], ?_⟩
  cases hv
  refine Finset.sum_congr rfl fun j _ => ?_
  rw [Finset.sum_eq_single j]
  · rw [mul_pow, Real.sq_sqrt, diagonal_apply_eq]
    · ring
    · unfold prefitVariance
      split
      · exact sq_nonneg _
      · exact inv_nonneg.2 (hcw j)
  · intro k _ hk
    rw [diagonal_apply_ne _ (Ne.symm hk)]
    ring
  · intro h
    exact absurd (Finset.mem_univ _) h

/-- C93.  With correlations, for a quadratic likelihood at its minimum and predictions that are linear in the floating parameters: the entries of a parameter
are the predictions at the minimum of the likelihood with that parameter held one uncertainty down and up, all other floating parameters
fitted again. -/
theorem c93_profiled (parms : Fin n → String) (frozen : List String) (prev : Mat n) (quad : Quad n) (hs : quad.H.IsSymm)
    (hpos : Cov.Spec.posOnFloating (fun i => parms i ∈ frozen) quad.H) (x : Vec n)
    (hmin : ∀ i, parms i ∉ frozen → (quad.g + quad.H.mulVec x) i = 0) (grad : Vec n) (idx : Fin n) (hidx : parms idx ∉ frozen)
    (pred : Vec n → ℝ) (J : Matrix (Fin 1) (Fin n) ℝ) (hJ : ∀ k, parms k ∈ frozen → J 0 k = 0)
    (hlin : ∀ d : Vec n, (∀ k, parms k ∈ frozen → d k = 0) → pred (x + d) = pred x + ∑ k, J 0 k * d k) :
    ∃ edm cov d, fitterEdmvalCov parms frozen prev grad quad.H = .ok (edm, cov) ∧ variation true cov J 0 idx = some d ∧
      ∀ sign : ℝ, sign = 1 ∨ sign = -1 → ∃ z : Vec n, (∀ i, parms i ∈ frozen → z i = x i) ∧ z idx = x idx + sign * Real.sqrt (cov idx idx) ∧
        (∀ y : Vec n, (∀ i, parms i ∈ frozen → y i = x i) → y idx = z idx → y ≠ z → quad.val z < quad.val y) ∧
        pred z = if sign = 1 then (downUp (pred x) d).2 else (downUp (pred x) d).1 := by
  obtain ⟨edm, cov, hcov, hinv, hsy, -⟩ := c35_covariance_partial parms frozen prev grad quad.H hs hpos
  set c : Vec n := fun j => if parms j ∈ frozen then 0 else cov j idx with hc
  have hc0 : ∀ j, parms j ∈ frozen → c j = 0 := fun j hj => by simp only [hc, if_pos hj]
  have hHc : ∀ e : Vec n, (∀ j, parms j ∈ frozen → e j = 0) → e ⬝ᵥ quad.H.mulVec c = e idx := by
    intro e he
    have h1 : ∀ j, parms j ∉ frozen → quad.H.mulVec c j = if idx = j then 1 else 0 := by
      intro j hj
      rw [← hinv idx j hidx hj]
      simp only [mulVec, dotProduct, hc]
      refine Finset.sum_congr rfl fun k _ => ?_
      by_cases hk : parms k ∈ frozen
      · simp [hk]
      · rw [if_neg hk, if_pos hk, hs.apply, hsy idx k hidx hk, mul_comm]
    simp only [dotProduct]
    rw [Finset.sum_eq_single idx]
    · rw [h1 idx hidx, if_pos rfl, mul_one]
    · intro j _ hj
      by_cases hf : parms j ∈ frozen
      · rw [he j hf, zero_mul]
      · rw [h1 j hf, if_neg (Ne.symm hj), mul_zero]
    · intro h; exact absurd (Finset.mem_univ _) h
  have hcc : c ⬝ᵥ quad.H.mulVec c = cov idx idx := by rw [hHc c hc0]; simp only [hc, if_neg hidx]
  have hσ : 0 < cov idx idx := by
    rw [← hcc, quadForm_eq]
    refine hpos c hc0 fun h0 => ?_
    have := hHc (Pi.single idx 1) (fun j hj => by
      rw [Pi.single_eq_of_ne]; rintro rfl; exact hidx hj)
    rw [h0] at this
    simp at this
  have hσ' := Real.sqrt_pos.2 hσ
  have hexp : ∀ e : Vec n, (∀ j, parms j ∈ frozen → e j = 0) →
      quad.val (x + e) = quad.val x + (1 / 2) * (e ⬝ᵥ quad.H.mulVec e) := by
    intro e he
    have hlin : e ⬝ᵥ (quad.g + quad.H.mulVec x) = 0 := by
      simp only [dotProduct]
      refine Finset.sum_eq_zero fun j _ => ?_
      by_cases hj : parms j ∈ frozen
      · rw [he j hj, zero_mul]
      · rw [hmin j hj, mul_zero]
    rw [dotProduct_add] at hlin
    unfold Quad.val
    rw [quad_add hs, symm_dot hs x e, dotProduct_add, dotProduct_comm quad.g e]
    linarith
  refine ⟨edm, cov, _, hcov, by unfold variation; rw [if_pos rfl, if_neg hσ'.ne'], fun sign hsign => ?_⟩
  set k : ℝ := sign / Real.sqrt (cov idx idx) with hk
  refine ⟨x + k • c, fun i hi => by simp [hc0 i hi], ?_, ?_, ?_⟩
  · simp only [Pi.add_apply, Pi.smul_apply, smul_eq_mul, hc, if_neg hidx, hk]
    congr 1
    rw [div_mul_eq_mul_div, mul_div_assoc, Real.div_sqrt]
  · intro y hy hyz hne
    set e := y - (x + k • c) with he
    have he0 : ∀ j, parms j ∈ frozen → e j = 0 := fun j hj => by simp [he, hy j hj, hc0 j hj]
    have hei : e idx = 0 := by simp only [he, Pi.sub_apply, hyz, sub_self]
    have hye : y = x + (k • c + e) := by rw [he]; abel
    rw [hye, hexp _ (fun j hj => by simp [hc0 j hj]), hexp (k • c + e) (fun j hj => by
        rw [Pi.add_apply, he0 j hj, add_zero, Pi.smul_apply, hc0 j hj, smul_zero]), quad_add hs, mulVec_smul, smul_dotProduct,
      smul_dotProduct, symm_dot hs c e, hHc e he0, hei]
    have hpe : 0 < e ⬝ᵥ quad.H.mulVec e := by
      rw [quadForm_eq]
      exact hpos e he0 fun h0 => hne (by rw [hye, h0, add_zero])
    simp only [smul_eq_mul, mul_zero, add_zero]
    linarith
  · rw [hlin _ fun j hj => by simp [hc0 j hj]]
    have hsum : ∑ a, J 0 a * (k • c) a = sign * ∑ a, J 0 a * (cov a idx / Real.sqrt (cov idx idx)) := by
      rw [Finset.mul_sum]
      refine Finset.sum_congr rfl fun a _ => ?_
      by_cases ha : parms a ∈ frozen
      · rw [hJ a ha]; ring
      · simp only [Pi.smul_apply, smul_eq_mul, hc, if_neg ha, hk]
        ring
    rw [hsum]
    rcases hsign with rfl | rfl
    · rw [if_pos rfl, one_mul]
      rfl
    · rw [if_neg (by norm_num), neg_one_mul]
      rfl

/-- C93 deviates.  After a fit the stored variations keep the other parameters where they are, though the parameters are correlated: the variation of a
single parameter may be larger than the whole uncertainty of the prediction, here more than twice. -/
theorem c93_larger_violated : ∃ (cov : Mat 2) (J : Matrix (Fin 1) (Fin 2) ℝ) (d : ℝ) (v : Fin 1 → ℝ), cov.PosDef ∧
    variation false cov J 0 0 = some d ∧ expVar (K := Fin 0) cov J none = .ok v ∧ 2 * Real.sqrt (v 0) < d := by
  refine ⟨!![1, -(9 / 10); -(9 / 10), 1], fun _ _ => 1, 1, _, ?_, ?_, rfl, ?_⟩
  · refine Matrix.PosDef.of_dotProduct_mulVec_pos ?_ fun x hx => ?_
    · ext i j
      fin_cases i <;> fin_cases j <;> rfl
    · have h : star x ⬝ᵥ !![1, -(9 / 10); -(9 / 10), 1] *ᵥ x = (x 0 - 9 / 10 * x 1) ^ 2 + 19 / 100 * x 1 ^ 2 := by
        simp [dotProduct, mulVec, Fin.sum_univ_two]
        ring
      rw [h]
      by_cases h1 : x 1 = 0
      · have h0 : x 0 ≠ 0 := fun h0 => hx (by ext i; fin_cases i <;> simp [h0, h1])
        rw [h1]
        have := pow_pos (abs_pos.2 h0) 2
        rw [sq_abs] at this
        simpa using this
      · have := pow_pos (abs_pos.2 h1) 2
        rw [sq_abs] at this
        have := sq_nonneg (x 0 - 9 / 10 * x 1)
        linarith
  · simp [variation]
  · simp only [Fin.sum_univ_two]
    have : Real.sqrt (1 / 5) < 1 / 2 := by
      rw [Real.sqrt_lt' (by norm_num)]
      norm_num
    norm_num at this ⊢
    linarith

/-! ### cases meeting the hypotheses -/

namespace Ex93

/-- a channel with three bins and one without axes -/
def chans : List Chan := [⟨"a", [⟨3, 5, false⟩], false⟩, ⟨"b", [], false⟩]

def J : Matrix (Fin 4) (Fin 2) ℝ := fun o j => if j = 0 then 1 else o.val

example : ∃ hs : List (String × Tensor Num), saveVariations true ![0, 4] (some (1 : Mat 2)) J (fun o => o.val) chans = .ok (some 1, hs) ∧
    hs.map (·.1) = ["a", "b"] := by
  obtain ⟨hs, h1, h2, -⟩ := c93_stored true ![0, 4] 1 J (fun o => o.val) chans (by decide) (by decide)
  exact ⟨hs, h1, h2⟩

/-- one parameter held one uncertainty up, the other follows -/
example : ∃ edm cov d, fitterEdmvalCov Cov.Ex.parms [] 0 0 Cov.Ex.H = .ok (edm, cov) ∧ variation true cov (fun _ k => if k = 0 then 1 else 3) 0 1 = some d := by
  obtain ⟨edm, cov, d, h1, h2, -⟩ := c93_profiled Cov.Ex.parms [] 0 ⟨0, 0, Cov.Ex.H⟩ Cov.Ex.H_symm (Cov.Ex.H_pos _) 0 (by simp) 0 1 (by simp)
    (fun z => z 0 + 3 * z 1) (fun _ k => if k = 0 then 1 else 3) (by simp) (by intro d _; simp [Fin.sum_univ_two])
  exact ⟨edm, cov, d, h1, h2⟩

example : ∃ d, variation false (1 : Mat 2) (fun _ k => if k = 0 then 1 else 3) (0 : Fin 1) 1 = some d ∧
    downUp ((![1, 2] : Fin 2 → ℝ) 0 + 3 * (![1, 2] : Fin 2 → ℝ) 1) d = (4, 10) := by
  obtain ⟨d, h1, h2⟩ := c93_moved (fun z : Fin 2 → ℝ => z 0 + 3 * z 1) (fun _ k => if k = 0 then 1 else 3) ![1, 2]
    (by intro d; simp [Fin.sum_univ_two]; ring) 1 1
  refine ⟨d, h1, ?_⟩
  rw [h2]
  norm_num

example : ∃ d : Fin 2 → ℝ, (∀ j, variation false (diagonal (prefitVariance ![0, 4] 1)) J 2 j = some (d j)) ∧ ∑ j, d j ^ 2 = 2 := by
  obtain ⟨d, h1, h2⟩ := c93_prefit_sum ![0, 4] (by intro j; fin_cases j <;> norm_num) 1 J 2 _ rfl
  refine ⟨d, h1, ?_⟩
  rw [h2]
  simp [Fin.sum_univ_two, J, prefitVariance]
  norm_num

end Ex93

end

end Verif.Variations
