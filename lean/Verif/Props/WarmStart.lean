import Verif.Props.Scans
import Verif.Props.Propagation

/-! C65: the linear warm start of the shifted refits. -/

namespace Verif.Scans

open Matrix Verif.Cov Verif.Impacts

variable {n : ℕ}

/-- a loss that is quadratic in the parameters: a linear and a quadratic part (data, external terms) and the constraints with
weights `cw` and centres `x0` -/
noncomputable def Spec.quadLoss (a : Cov.Vec n) (D : Mat n) (cw x x0 : Cov.Vec n) : ℝ :=
  a ⬝ᵥ x + (1 / 2) * (x ⬝ᵥ D.mulVec x) + (1 / 2) * ∑ j, cw j * (x j - x0 j) ^ 2

/-- `x` minimises the loss among the points that agree with it on the frozen parameters -/
def Spec.IsFit (L : Cov.Vec n → ℝ) (F : Fin n → Prop) (x : Cov.Vec n) : Prop := ∀ y, (∀ i, F i → y i = x i) → L x ≤ L y

/-- a covariance: zero for frozen parameters, inverse Hessian of the floating ones -/
structure Spec.IsCov (F : Fin n → Prop) (H cov : Mat n) : Prop where
  row : ∀ i j, F i → cov i j = 0
  col : ∀ i j, F j → cov i j = 0
  inv : ∀ i j, ¬ F i → ¬ F j → (H * cov) i j = if i = j then 1 else 0

theorem quadLoss_shift (a : Cov.Vec n) {D : Mat n} (hD : D.IsSymm) (cw x x0 z Δ δ : Cov.Vec n) :
    Spec.quadLoss a D cw (x + z + Δ) (x0 + δ) - Spec.quadLoss a D cw (x + Δ) (x0 + δ) =
      Spec.quadLoss a D cw (x + z) x0 - Spec.quadLoss a D cw x x0 +
        z ⬝ᵥ ((D + diagonal cw).mulVec Δ - fun j => cw j * δ j) := by
  have e : ∑ j, cw j * ((x + z + Δ) j - (x0 + δ) j) ^ 2 = ∑ j, cw j * ((x + Δ) j - (x0 + δ) j) ^ 2 +
      (∑ j, cw j * ((x + z) j - x0 j) ^ 2 - ∑ j, cw j * (x j - x0 j) ^ 2) +
      2 * (z ⬝ᵥ ((diagonal cw).mulVec Δ) - z ⬝ᵥ fun j => cw j * δ j) := by
    simp only [dotProduct, mulVec_diagonal, Finset.mul_sum, ← Finset.sum_add_distrib, ← Finset.sum_sub_distrib, Pi.add_apply]
    refine Finset.sum_congr rfl fun j _ => ?_
    ring
  unfold Spec.quadLoss
  rw [e]
  simp only [add_mulVec, mulVec_add, dotProduct_add, add_dotProduct, dotProduct_sub]
  rw [symm_dot hD Δ z, symm_dot hD z x, symm_dot hD Δ x]
  ring

/-- With a quadratic loss the linear warm start is the refit: if the nominal point is a minimum, the start point for a
shifted centre is the minimum of the loss with that centre, with any set of frozen parameters.  `d` is the response computed
by `_dxdvars` from the covariance and the mixed derivative of the loss. -/
theorem c65_warm_start (a : Cov.Vec n) {D : Mat n} (hD : D.IsSymm) (cw : Cov.Vec n) (F : Fin n → Prop) (cov : Mat n)
    (hcov : Spec.IsCov F (D + diagonal cw) cov) (pd2 : Mat n)
    (hpd : Spec.mixed (fun x x0 => Spec.quadLoss a D cw x x0) fun u w => u ⬝ᵥ pd2.mulVec w)
    (d : Nat → Nat → ℝ) (hd : ∀ k j : Fin n, d k j = dxdvar cov pd2 k j) (xnom : Vec ℝ) (x0 : Cov.Vec n)
    (hfit : Spec.IsFit (fun y => Spec.quadLoss a D cw y x0) F fun k => xnom k) (idx : Fin n) (shift : ℝ) :
    Spec.IsFit (fun y => Spec.quadLoss a D cw y (Function.update x0 idx (x0 idx + shift))) F
      (fun k => warmX (some d) xnom idx shift k) ∧
    ∀ k : Fin n, F k → warmX (some d) xnom idx shift k = xnom k := by
  have hp : pd2 = -diagonal cw := by
    refine bil_ext fun u w => ?_
    have h := hpd 0 0 u w
    dsimp only at h
    rw [← h]
    simp only [Spec.quadLoss, zero_add, neg_mulVec, dotProduct_neg, dotProduct_zero, mulVec_zero,
      Pi.zero_apply, sub_zero, mul_zero]
    simp only [dotProduct, mulVec_diagonal, Finset.mul_sum]
    have e : ∀ A B C E G : Fin n → ℝ, ∀ p q : ℝ, (∀ j, A j - B j - C j + E j = -G j) →
        p + q + ∑ j, A j - (p + q + ∑ j, B j) - ∑ j, C j + ∑ j, E j = -∑ j, G j := by
      intro A B C E G p q h
      rw [← Finset.sum_neg_distrib, Finset.sum_congr rfl fun j _ => (h j).symm, Finset.sum_add_distrib,
        Finset.sum_sub_distrib, Finset.sum_sub_distrib]
      ring
    apply e
    intro j
    ring
  set δ : Cov.Vec n := Pi.single idx shift with hδ
  have h0 : Function.update x0 idx (x0 idx + shift) = x0 + δ := by
    funext j
    by_cases hj : j = idx
    · subst hj; simp [hδ]
    · simp [hδ, hj]
  set Δ : Cov.Vec n := fun k => d k idx * shift with hΔ
  have hdk : ∀ k : Fin n, d k idx = cov k idx * cw idx := fun k => by
    rw [hd, dxdvar, hp, mul_neg, neg_neg, mul_diagonal]
  have hw : (fun k : Fin n => warmX (some d) xnom idx shift k) = (fun k : Fin n => xnom k) + Δ := rfl
  have hF : ∀ k, F k → Δ k = 0 := fun k hk => by
    rw [hΔ]; simp only [hdk, hcov.row k idx hk, zero_mul]
  have hg : ∀ i, ¬ F i → ((D + diagonal cw).mulVec Δ - fun j => cw j * δ j) i = 0 := by
    intro i hi
    have e1 : (D + diagonal cw).mulVec Δ i = ((D + diagonal cw) * cov) i idx * cw idx * shift := by
      simp only [mulVec, dotProduct, hΔ, hdk, Matrix.mul_apply, Finset.sum_mul]
      exact Finset.sum_congr rfl fun j _ => by ring
    rw [Pi.sub_apply, e1]
    by_cases hidx : F idx
    · have : ((D + diagonal cw) * cov) i idx = 0 := by
        rw [Matrix.mul_apply]
        exact Finset.sum_eq_zero fun j _ => by rw [hcov.col j idx hidx, mul_zero]
      have hne : i ≠ idx := fun h => hi (h ▸ hidx)
      rw [this, hδ]; simp [hne]
    · rw [hcov.inv i idx hi hidx]
      by_cases hne : i = idx
      · subst hne; simp [hδ]
      · simp [hδ, hne]
  refine ⟨fun y hy => ?_, fun k hk => by
    have := congrFun hw k
    rw [show warmX (some d) xnom idx shift k = _ from this, Pi.add_apply, hF k hk, add_zero]⟩
  rw [hw] at hy ⊢
  rw [h0]
  set xn : Cov.Vec n := fun k : Fin n => xnom k with hxn
  set z : Cov.Vec n := y - xn - Δ with hz
  have hy2 : y = xn + z + Δ := by rw [hz]; abel
  have hz0 : ∀ i, F i → z i = 0 := fun i hi => by
    rw [hz, Pi.sub_apply, Pi.sub_apply, hy i hi, Pi.add_apply]; ring
  have key := quadLoss_shift a hD cw xn x0 z Δ δ
  have hdot : z ⬝ᵥ ((D + diagonal cw).mulVec Δ - fun j => cw j * δ j) = 0 := by
    refine Finset.sum_eq_zero fun i _ => ?_
    by_cases hi : F i
    · rw [hz0 i hi, zero_mul]
    · rw [hg i hi, mul_zero]
  rw [hdot, add_zero, ← hy2] at key
  have := hfit (xn + z) fun i hi => by rw [Pi.add_apply, hz0 i hi, add_zero]
  dsimp only at this ⊢
  linarith

/-- A case: two correlated parameters and a frozen one; the minimum is at the origin. -/
example : ∃ (D cov pd2 : Mat 3) (cw : Cov.Vec 3), D.IsSymm ∧ D 0 1 ≠ 0 ∧ Spec.IsCov (fun i => i = 2) (D + diagonal cw) cov ∧
    Spec.mixed (fun x x0 => Spec.quadLoss 0 D cw x x0) (fun u w => u ⬝ᵥ pd2.mulVec w) ∧
    Spec.IsFit (fun y => Spec.quadLoss 0 D cw y 0) (fun i => i = 2) fun k => (fun _ => 0 : Vec ℝ) k := by
  refine ⟨!![1, 1, 0; 1, 1, 0; 0, 0, 1], !![2 / 3, -1 / 3, 0; -1 / 3, 2 / 3, 0; 0, 0, 0], -diagonal 1, 1, ?_, ?_, ?_, ?_, ?_⟩
  · ext i j; fin_cases i <;> fin_cases j <;> rfl
  · norm_num
  · constructor
    · rintro i j rfl; fin_cases j <;> rfl
    · rintro i j rfl; fin_cases i <;> rfl
    · intro i j hi hj
      fin_cases i <;> fin_cases j <;> simp at hi hj <;> simp [Matrix.mul_apply, Fin.sum_univ_three] <;> norm_num
  · intro x w d e
    simp only [Spec.quadLoss, dotProduct, Fin.sum_univ_three, neg_mulVec, mulVec_diagonal, Pi.neg_apply, Pi.one_apply, Pi.add_apply,
      Pi.zero_apply]
    ring
  · intro y _
    simp only [Spec.quadLoss, dotProduct, Fin.sum_univ_three, mulVec, Pi.one_apply, Pi.zero_apply]
    simp
    nlinarith [sq_nonneg (y 0 + y 1), sq_nonneg (y 0), sq_nonneg (y 1), sq_nonneg (y 2)]

end Verif.Scans
