import Verif.Lemmas.Cov
import Verif.Model.FitState

/-
C35: covariance with frozen parameters.  C36: linear fits land on the minimum in one step.
-/

namespace Verif.Cov

open Matrix

noncomputable section

variable {n : ℕ}

namespace Spec

/-- the Hessian is positive definite on the directions that move only floating parameters -/
def posOnFloating (isFrozen : Fin n → Prop) (H : Mat n) : Prop :=
  ∀ z : Vec n, (∀ i, isFrozen i → z i = 0) → z ≠ 0 → 0 < ∑ i, ∑ j, z i * H i j * z j

end Spec

theorem quadForm_eq (H : Mat n) (z : Vec n) : z ⬝ᵥ H.mulVec z = ∑ i, ∑ j, z i * H i j * z j := by
  simp only [dotProduct, mulVec, Finset.mul_sum, mul_assoc]

theorem gather_posDef_iff (parms : Fin n → String) (frozen : List String) {H : Mat n} (hs : H.IsSymm) :
    (gatherM (floatingIdx parms frozen) H).PosDef ↔ Spec.posOnFloating (fun i => parms i ∈ frozen) H := by
  rw [gatherM_posDef (nodup_floatingIdx _ _) hs]
  simp only [mem_floatingIdx, not_not, Spec.posOnFloating, quadForm_eq]

theorem nil_posDef_iff (parms : Fin n → String) {H : Mat n} (hs : H.IsSymm) :
    H.PosDef ↔ Spec.posOnFloating (fun i => parms i ∈ ([] : List String)) H := by
  rw [posDef_iff']
  simp only [Spec.posOnFloating, quadForm_eq, List.not_mem_nil, false_imp_iff, implies_true, true_imp_iff]
  exact and_iff_right hs

/-- C35, as far as the code goes: the reported matrix is the inverse of the floating block of the Hessian at the
positions of the floating parameters and *keeps whatever the covariance variable held* in the rows and columns
of frozen parameters; so it is zero there only if it was before (missing part: see `c35_frozen_violated`).
The estimated distance to the minimum is non-negative and vanishes exactly with the floating gradient. -/
theorem c35_covariance_partial (parms : Fin n → String) (frozen : List String) (cov : Mat n) (grad : Vec n)
    (H : Mat n) (hs : H.IsSymm) (hpos : Spec.posOnFloating (fun i => parms i ∈ frozen) H) :
    ∃ edm cov', fitterEdmvalCov parms frozen cov grad H = .ok (edm, cov') ∧
      (∀ i j, parms i ∉ frozen → parms j ∉ frozen →
        (∑ k, if parms k ∉ frozen then cov' i k * H k j else 0) = if i = j then 1 else 0) ∧
      (∀ i j, parms i ∉ frozen → parms j ∉ frozen → cov' i j = cov' j i) ∧
      (∀ i j, parms i ∈ frozen ∨ parms j ∈ frozen → cov' i j = cov i j) ∧
      ((∀ i j, parms i ∈ frozen ∨ parms j ∈ frozen → cov i j = 0) →
        ∀ i j, parms i ∈ frozen ∨ parms j ∈ frozen → cov' i j = 0) ∧
      0 ≤ edm ∧ (edm = 0 ↔ ∀ i, parms i ∉ frozen → grad i = 0) := by
  have key : ∀ {m : ℕ} {M : Mat m} (v : Vec m), M.PosDef →
      0 ≤ (1 / 2) * (v ⬝ᵥ M⁻¹.mulVec v) ∧ ((1 / 2) * (v ⬝ᵥ M⁻¹.mulVec v) = 0 ↔ v = 0) := by
    intro m M v hM
    have h1 := (posDef_iff'.1 hM.inv).2
    by_cases hv : v = 0
    · subst hv; simp
    · have := h1 v hv
      exact ⟨by linarith, ⟨fun h => by linarith, fun h => absurd h hv⟩⟩
  by_cases hf : frozen = []
  · subst hf
    have hp := (nil_posDef_iff parms hs).2 hpos
    refine ⟨_, _, by simp only [fitterEdmvalCov, List.length_nil, gt_iff_lt, Nat.lt_irrefl, if_false]; exact edmvalCov_ok hp grad, ?_, ?_, ?_, ?_, (key grad hp).1, ?_⟩
    · intro i j _ _
      simp only [List.not_mem_nil, not_false_eq_true, if_true]
      have := congrFun (congrFun (inv_mul_of_posDef hp) i) j
      rw [Matrix.mul_apply, Matrix.one_apply] at this
      exact this
    · intro i j _ _
      exact congrFun (congrFun (posDef_iff'.1 hp.inv).1 j) i
    · simp
    · simp
    · rw [(key grad hp).2]; simp [funext_iff]
  · have hp := (gather_posDef_iff parms frozen hs).2 hpos
    have hnd := nodup_floatingIdx parms frozen
    have hlen : frozen.length > 0 := List.length_pos_iff.2 hf
    refine ⟨_, _, by simp only [fitterEdmvalCov, hlen, if_true]; rw [edmvalCov_ok hp], ?_, ?_, ?_, ?_, (key _ hp).1, ?_⟩
    · intro i j hi hj
      obtain ⟨a, rfl⟩ := List.get_of_mem (mem_floatingIdx.2 hi)
      obtain ⟨b, rfl⟩ := List.get_of_mem (mem_floatingIdx.2 hj)
      have := congrFun (congrFun (inv_mul_of_posDef hp) a) b
      rw [Matrix.mul_apply, Matrix.one_apply] at this
      have h2 := sum_get hnd fun k =>
        scatterM cov (floatingIdx parms frozen) (gatherM (floatingIdx parms frozen) H)⁻¹ ((floatingIdx parms frozen).get a) k * H k ((floatingIdx parms frozen).get b)
      simp only [scatterM_get hnd, mem_floatingIdx] at h2
      rw [← h2]
      simp only [(List.nodup_iff_injective_get.1 hnd).eq_iff]
      exact this
    · intro i j hi hj
      obtain ⟨a, rfl⟩ := List.get_of_mem (mem_floatingIdx.2 hi)
      obtain ⟨b, rfl⟩ := List.get_of_mem (mem_floatingIdx.2 hj)
      simp only [scatterM_get hnd]
      exact congrFun (congrFun (posDef_iff'.1 hp.inv).1 b) a
    · intro i j h
      exact scatterM_out _ (by simpa [mem_floatingIdx] using h)
    · intro h0 i j h
      rw [scatterM_out _ (by simpa [mem_floatingIdx] using h)]
      exact h0 i j h
    · rw [(key _ hp).2]
      constructor
      · intro h i hi
        obtain ⟨a, rfl⟩ := List.get_of_mem (mem_floatingIdx.2 hi)
        exact congrFun h a
      · intro h
        funext a
        exact h _ (mem_floatingIdx.1 (List.get_mem _ _))

/-- C35: a Hessian that is not positive definite on the floating parameters is refused. -/
theorem c35_not_positive_definite (parms : Fin n → String) (frozen : List String) (cov : Mat n) (grad : Vec n)
    (H : Mat n) (hs : H.IsSymm) (hpos : ¬ Spec.posOnFloating (fun i => parms i ∈ frozen) H) :
    fitterEdmvalCov parms frozen cov grad H = .error .value := by
  by_cases hf : frozen = []
  · subst hf
    have hp := (nil_posDef_iff parms hs).not.2 hpos
    simp only [fitterEdmvalCov, List.length_nil, gt_iff_lt, Nat.lt_irrefl, if_false, edmvalCov, cholesky_none hp]
  · have hp := (gather_posDef_iff parms frozen hs).not.2 hpos
    have hlen : frozen.length > 0 := List.length_pos_iff.2 hf
    simp only [fitterEdmvalCov, hlen, if_true, edmvalCov, cholesky_none hp]

/-- C35: the CPU and the GPU routine return the same. -/
theorem c35_cpu_gpu (grad : Vec n) (H : Mat n) : tfEdmvalCov grad H = edmvalCov grad H := tfEdmvalCov_eq grad H

/-- C35 does not hold: after the reset to defaults (`FitState.defaultAssign`: the covariance is the diagonal
matrix of the prefit variances) the variance reported for *every* frozen parameter that has a constraint is its
prefit variance `1/cw`, not zero. -/
theorem c35_frozen_violated (parms : Fin n → String) (frozen : List String) (cw : Vec n) (grad : Vec n) (err : ℝ)
    (H : Mat n) (hs : H.IsSymm) (hpos : Spec.posOnFloating (fun i => parms i ∈ frozen) H)
    (i : Fin n) (hi : parms i ∈ frozen) (hcw : cw i ≠ 0) :
    ∃ edm cov', fitterEdmvalCov parms frozen (Matrix.diagonal fun i => if cw i = 0 then err ^ 2 else (cw i)⁻¹)
        grad H = .ok (edm, cov') ∧ cov' i i = (cw i)⁻¹ ∧ cov' i i ≠ 0 := by
  obtain ⟨edm, cov', h, _, _, h3, _⟩ := c35_covariance_partial parms frozen
    (Matrix.diagonal fun i => if cw i = 0 then err ^ 2 else (cw i)⁻¹) grad H hs hpos
  refine ⟨edm, cov', h, ?_, ?_⟩
  · rw [h3 i i (.inl hi)]; simp [hcw]
  · rw [h3 i i (.inl hi)]; simp [hcw]

/-! ### C36 -/

/-- C36: the gradient used by the fit is the derivative of the recorded loss: moving parameter `i` by `t` changes the
recorded loss to first order by `t` times entry `i` of the gradient, to second order by entry `i, i` of the Hessian -/
theorem c36_derivatives (q : Quad n) (hs : q.H.IsSymm) (frozen : Fin n → Bool) (x d : Vec n) :
    q.tape frozen x (x + d) = q.tape frozen x x + d ⬝ᵥ q.grad frozen x + (1 / 2) * (d ⬝ᵥ (q.hess frozen).mulVec d) := by
  set e : Vec n := fun i => if frozen i then 0 else d i with he
  have h1 : (fun i => if frozen i then x i else (x + d) i) = x + e := by
    funext i; simp only [he, Pi.add_apply]; split <;> simp
  have h0 : (fun i => if frozen i then x i else x i) = x := by funext i; split <;> rfl
  have h2 : e ⬝ᵥ (q.g + q.H.mulVec x) = d ⬝ᵥ q.grad frozen x := by
    simp only [dotProduct, he, Quad.grad, Pi.add_apply]
    refine Finset.sum_congr rfl fun i _ => ?_
    split <;> simp
  have h3 : e ⬝ᵥ q.H.mulVec e = d ⬝ᵥ (q.hess frozen).mulVec d := by
    rw [quadForm_eq, quadForm_eq]
    refine Finset.sum_congr rfl fun i _ => Finset.sum_congr rfl fun j _ => ?_
    simp only [he, Quad.hess, of_apply]
    cases frozen i <;> cases frozen j <;> simp
  simp only [Quad.tape]
  rw [h1, h0, quad_step q hs, h2, h3]

/-- the unique minimum of `f` among the points that agree with `x` on the frozen parameters -/
def Spec.uniqueMin (frozen : Fin n → Bool) (f : Vec n → ℝ) (x x' : Vec n) : Prop :=
  (∀ i, frozen i → x' i = x i) ∧ ∀ y, (∀ i, frozen i → y i = x i) → y ≠ x' → f x' < f y

/-- C36 without frozen parameters: from every starting point the dense solution is the unique global minimum. -/
theorem c36_dense_partial (q : Quad n) (hs : q.H.IsSymm) (frozen : Fin n → Bool) (hf : ∀ i, frozen i = false)
    (hpos : Spec.posOnFloating (fun i => frozen i = true) q.H) (x : Vec n) :
    ∃ x', minimizeDense q frozen x = .ok x' ∧ Spec.uniqueMin frozen q.val x x' := by
  have hh : q.hess frozen = q.H := by ext i j; simp [Quad.hess, hf]
  have hg : q.grad frozen x = q.g + q.H.mulVec x := by funext i; simp [Quad.grad, hf]
  have hp : q.H.PosDef := by
    rw [posDef_iff']
    refine ⟨hs, fun z hz => ?_⟩
    rw [quadForm_eq]
    exact hpos z (fun i hi => by simp [hf] at hi) hz
  obtain ⟨U, hU, hc⟩ := cholesky_some hp
  refine ⟨x + choSolve U (-(q.g + q.H.mulVec x)), by rw [minimizeDense, hh, hU, hg], by simp [hf], ?_⟩
  intro y _ hy
  set x' := x + choSolve U (-(q.g + q.H.mulVec x)) with hx'
  have hz : q.g + q.H.mulVec x' = 0 := by
    rw [hx', choSolve_eq hc, mulVec_add, mulVec_mulVec, mul_inv_of_posDef hp, one_mulVec]
    abel
  have hq := quad_step q hs x' (y - x')
  rw [hz, dotProduct_zero, add_zero, add_sub_cancel] at hq
  have := (posDef_iff'.1 hp).2 (y - x') (sub_ne_zero.2 hy)
  rw [hq]; linarith

/-- C36 does not hold with frozen parameters: the rows of frozen parameters in the Hessian are zero, so the
Cholesky decomposition fails and the fit raises — for every quadratic likelihood, every starting point and
every pattern that freezes at least one parameter. -/
theorem c36_frozen_violated (q : Quad n) (frozen : Fin n → Bool) (hf : ∃ i, frozen i = true) (x : Vec n) :
    minimizeDense q frozen x = .error .value := by
  obtain ⟨i, hi⟩ := hf
  have : ¬ (q.hess frozen).PosDef := by
    intro h
    have := h.diag_pos (i := i)
    simp [Quad.hess, hi] at this
  rw [minimizeDense, cholesky_none this]

/-- What is assumed of the conjugate-gradient routine (exact arithmetic, converged): the result solves the
equation and lies in the span of the vectors it generates from the right-hand side. -/
structure Spec.CG (cg : (Vec n → Vec n) → Vec n → Option (Vec n)) : Prop where
  solves : ∀ A b d, cg A b = some d → A d = b
  krylov : ∀ A b d, cg A b = some d → d ∈ Submodule.span ℝ {v | ∃ k : ℕ, v = A^[k] b}

/-- C36 under `--noHessian`: with any frozen pattern the converged solution is the unique minimum over the
floating parameters and the frozen parameters stay where they are. -/
theorem c36_cg (cg : (Vec n → Vec n) → Vec n → Option (Vec n)) (hcg : Spec.CG cg) (q : Quad n) (hs : q.H.IsSymm)
    (frozen : Fin n → Bool) (hpos : Spec.posOnFloating (fun i => frozen i = true) q.H) (x x' : Vec n)
    (h : minimizeCG cg q frozen x = .ok x') : Spec.uniqueMin frozen q.val x x' := by
  unfold minimizeCG at h
  cases hd : cg (fun p => (q.hess frozen).mulVec p) (-q.grad frozen x) with
  | none => rw [hd] at h; cases h
  | some d =>
    rw [hd] at h
    cases h
    have h1 := hcg.solves _ _ _ hd
    have h2 := hcg.krylov _ _ _ hd
    have hzero : ∀ i, frozen i = true → d i = 0 := by
      intro i hi
      refine Submodule.span_induction (p := fun v _ => v i = 0) ?_ rfl ?_ ?_ h2
      · rintro v ⟨k, rfl⟩
        cases k with
        | zero => simp [Quad.grad, hi]
        | succ k =>
          rw [Function.iterate_succ_apply']
          simp [mulVec, dotProduct, Quad.hess, hi]
      · intro u v _ _ hu hv; simp [hu, hv]
      · intro c u _ hu; simp [hu]
    refine ⟨fun i hi => by simp [hzero i hi], ?_⟩
    intro y hy hne
    have hq := quad_step q hs (x + d) (y - (x + d))
    rw [add_sub_cancel] at hq
    have hz : (y - (x + d)) ⬝ᵥ (q.g + q.H.mulVec (x + d)) = 0 := by
      refine Finset.sum_eq_zero fun i _ => ?_
      cases hi : frozen i with
      | true => simp [hy i hi, hzero i hi]
      | false =>
        have : (q.g + q.H.mulVec (x + d)) i = 0 := by
          have h3 := congrFun h1 i
          have h4 : (q.hess frozen).mulVec d i = q.H.mulVec d i := by
            simp only [mulVec, dotProduct, Quad.hess, of_apply, hi, Bool.false_or]
            refine Finset.sum_congr rfl fun j _ => ?_
            cases hj : frozen j with
            | true => simp [hzero j hj]
            | false => simp
          have h5 : q.grad frozen x i = q.g i + q.H.mulVec x i := by simp [Quad.grad, hi]
          simp only [Pi.neg_apply, h5] at h3
          rw [h4] at h3
          simp only [mulVec_add, Pi.add_apply, h3]; ring
        rw [this, mul_zero]
    rw [hz, add_zero] at hq
    have hp := hpos (y - (x + d)) (fun i hi => by simp [hy i hi, hzero i hi]) (sub_ne_zero.2 hne)
    rw [← quadForm_eq] at hp
    rw [hq]; linarith

open Classical in
/-- the ideal routine: the solution in the generated span, if there is one -/
def Spec.idealCG (A : Vec n → Vec n) (b : Vec n) : Option (Vec n) :=
  if h : ∃ d, A d = b ∧ d ∈ Submodule.span ℝ {v | ∃ k : ℕ, v = A^[k] b} then some h.choose else none

theorem idealCG_spec : Spec.CG (n := n) Spec.idealCG := by
  constructor
  · intro A b d h
    unfold Spec.idealCG at h
    split at h
    · next h1 => cases h; exact h1.choose_spec.1
    · cases h
  · intro A b d h
    unfold Spec.idealCG at h
    split at h
    · next h1 => cases h; exact h1.choose_spec.2
    · cases h

/-- C36 under `--noHessian`: the equation solved always has a solution in the span the routine searches, whatever
is frozen; with the ideal routine the fit returns the minimum and never raises. -/
theorem c36_cg_total (q : Quad n) (hs : q.H.IsSymm) (frozen : Fin n → Bool)
    (hpos : Spec.posOnFloating (fun i => frozen i = true) q.H) (x : Vec n) :
    ∃ x', minimizeCG Spec.idealCG q frozen x = .ok x' ∧ Spec.uniqueMin frozen q.val x x' := by
  set A : Vec n →ₗ[ℝ] Vec n := (q.hess frozen).mulVecLin with hA
  set b : Vec n := -q.grad frozen x with hb
  have hAf : (fun p => (q.hess frozen).mulVec p) = ⇑A := rfl
  set K : Submodule ℝ (Vec n) := Submodule.span ℝ {v | ∃ k : ℕ, v = A^[k] b} with hK
  have hzero : ∀ v ∈ K, ∀ i, frozen i = true → v i = 0 := by
    intro v hv i hi
    refine Submodule.span_induction (p := fun v _ => v i = 0) ?_ rfl ?_ ?_ hv
    · rintro v ⟨k, rfl⟩
      cases k with
      | zero => simp [hb, Quad.grad, hi]
      | succ k =>
        rw [Function.iterate_succ_apply']
        simp [hA, mulVec, dotProduct, Quad.hess, hi]
    · intro u v _ _ hu hv; simp [hu, hv]
    · intro c u _ hu; simp [hu]
  have hmap : ∀ v ∈ K, A v ∈ K := by
    intro v hv
    refine Submodule.span_induction (p := fun v _ => A v ∈ K) ?_ ?_ ?_ ?_ hv
    · rintro v ⟨k, rfl⟩
      exact Submodule.subset_span ⟨k + 1, by rw [Function.iterate_succ_apply']⟩
    · simp
    · intro u v _ _ hu hv; rw [map_add]; exact K.add_mem hu hv
    · intro c u _ hu; rw [map_smul]; exact K.smul_mem c hu
  have hinj : Function.Injective (A.restrict hmap) := by
    rw [← LinearMap.ker_eq_bot, LinearMap.ker_eq_bot']
    rintro ⟨v, hv⟩ h
    have h0 : A v = 0 := congrArg Subtype.val h
    by_contra hne
    have hne' : v ≠ 0 := fun h => hne (Subtype.ext h)
    have hp := hpos v (hzero v hv) hne'
    have : v ⬝ᵥ (q.hess frozen).mulVec v = ∑ i, ∑ j, v i * q.H i j * v j := by
      rw [quadForm_eq]
      refine Finset.sum_congr rfl fun i _ => Finset.sum_congr rfl fun j _ => ?_
      simp only [Quad.hess, of_apply]
      have hi := hzero v hv i
      have hj := hzero v hv j
      cases h1 : frozen i <;> cases h2 : frozen j <;> simp [h1, h2] at hi hj ⊢ <;> simp [*]
    rw [← this] at hp
    have h1 : (q.hess frozen).mulVec v = 0 := h0
    rw [h1, dotProduct_zero] at hp
    exact lt_irrefl _ hp
  have hsurj := LinearMap.surjective_of_injective hinj
  obtain ⟨⟨d, hd⟩, hdb⟩ := hsurj ⟨b, Submodule.subset_span ⟨0, rfl⟩⟩
  have hex : ∃ d, (fun p => (q.hess frozen).mulVec p) d = b ∧
      d ∈ Submodule.span ℝ {v | ∃ k : ℕ, v = (fun p => (q.hess frozen).mulVec p)^[k] b} :=
    ⟨d, congrArg Subtype.val hdb, hd⟩
  have : ∃ x', minimizeCG Spec.idealCG q frozen x = .ok x' := by
    refine ⟨x + hex.choose, ?_⟩
    unfold minimizeCG
    rw [show Spec.idealCG (fun p => (q.hess frozen).mulVec p) (-q.grad frozen x) = some hex.choose from by
      unfold Spec.idealCG; rw [dif_pos hex]]
  obtain ⟨x', hx'⟩ := this
  exact ⟨x', hx', c36_cg _ idealCG_spec q hs frozen hpos x x' hx'⟩

/-! ### cases meeting the hypotheses -/

namespace Ex

/-- correlated Hessian of two parameters -/
def H : Mat 2 := !![2, 1; 1, 2]

def parms : Fin 2 → String := !["mu", "theta"]

theorem H_symm : H.IsSymm := by
  ext i j; fin_cases i <;> fin_cases j <;> simp [H]

theorem H_pos (p : Fin 2 → Prop) : Spec.posOnFloating p H := by
  intro z _ hz
  have : z 0 ≠ 0 ∨ z 1 ≠ 0 := by
    by_contra h
    push Not at h
    exact hz (by funext i; fin_cases i <;> simp [h.1, h.2])
  simp only [Fin.sum_univ_two, H]
  simp
  rcases this with h | h
  · nlinarith [sq_nonneg (z 0 + 2 * z 1), sq_pos_of_ne_zero h]
  · nlinarith [sq_nonneg (2 * z 0 + z 1), sq_pos_of_ne_zero h]

end Ex

/-- one of two correlated parameters frozen, covariance variable at the prefit variances: the hypotheses of
`c35_covariance_partial` and `c35_frozen_violated` are met and the frozen variance comes out as one -/
example : ∃ edm cov', fitterEdmvalCov Ex.parms ["theta"] (Matrix.diagonal fun _ => if (1 : ℝ) = 0 then (0 : ℝ) ^ 2 else (1 : ℝ)⁻¹)
    ![1, 0] Ex.H = .ok (edm, cov') ∧ cov' 1 1 = (1 : ℝ)⁻¹ ∧ cov' 1 1 ≠ 0 :=
  c35_frozen_violated Ex.parms ["theta"] (fun _ => 1) ![1, 0] 0 Ex.H Ex.H_symm (Ex.H_pos _) 1
    (by simp [Ex.parms]) one_ne_zero

/-- the zero matrix is refused -/
example : fitterEdmvalCov Ex.parms [] 0 0 0 = .error .value :=
  c35_not_positive_definite _ _ _ _ _ (by ext i j; simp) (by
    intro h
    have := h (fun _ => 1) (by simp) (by intro h; simpa using congrFun h 0)
    simp at this)

/-- no frozen parameter -/
example : ∃ x', minimizeDense ⟨0, ![1, 2], Ex.H⟩ (fun _ => false) ![5, 5] = .ok x' ∧
    Spec.uniqueMin (fun _ => false) (Quad.val ⟨0, ![1, 2], Ex.H⟩) ![5, 5] x' :=
  c36_dense_partial ⟨0, ![1, 2], Ex.H⟩ Ex.H_symm _ (fun _ => rfl) (Ex.H_pos _) _

/-- second parameter frozen: the dense path raises, the Hessian-free path returns the minimum -/
example : minimizeDense ⟨0, ![1, 2], Ex.H⟩ ![false, true] ![5, 5] = .error .value ∧
    ∃ x', minimizeCG Spec.idealCG ⟨0, ![1, 2], Ex.H⟩ ![false, true] ![5, 5] = .ok x' ∧
      Spec.uniqueMin ![false, true] (Quad.val ⟨0, ![1, 2], Ex.H⟩) ![5, 5] x' :=
  ⟨c36_frozen_violated _ _ ⟨1, rfl⟩ _, c36_cg_total ⟨0, ![1, 2], Ex.H⟩ Ex.H_symm _ (Ex.H_pos _) _⟩

end

end Verif.Cov
