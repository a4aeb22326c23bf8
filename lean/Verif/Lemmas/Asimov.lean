import Verif.Model.Asimov
import Verif.Lemmas.BBB
import Verif.Props.BBBCov
import Verif.Props.Likelihood

/-
Bin by bin: with data equal to the expectation the profiled β is the centre of its constraint, and the terms of the
likelihood are zero there and not negative elsewhere.
-/

namespace Verif.LinearFit

open Verif.BBB Matrix

noncomputable section

variable {P : Type*} [Fintype P]

theorem solveQuadEq_of_roots {a b c r s : ℝ} (ha : 0 < a) (h1 : b = -a * (r + s)) (h2 : c = a * r * s) (h : s ≤ r) :
    solveQuadEq a b c = r := by
  unfold solveQuadEq
  rw [h1, h2, show (-a * (r + s)) ^ 2 - 4 * a * (a * r * s) = (a * (r - s)) ^ 2 by ring,
    Real.sqrt_sq (mul_nonneg ha.le (sub_nonneg.2 h))]
  field_simp
  ring

/-! ### lite -/

theorem lite_nexp (b : LiteBin P) : b.nexp = b.nActive + b.nZero := by
  unfold LiteBin.nexp LiteBin.nActive LiteBin.nZero
  rw [← Finset.sum_add_distrib]
  exact Finset.sum_congr rfl fun p _ => by split_ifs <;> simp

theorem lite_applied_default (b : LiteBin P) (kind : Kind) : b.applied kind (defaultBeta0 kind) = b.nexp := by
  unfold LiteBin.applied LiteBin.nexp
  refine Finset.sum_congr rfl fun p _ => ?_
  cases kind <;> simp [LiteBin.apply, defaultBeta0]

/-- with data equal to the expectation the closed forms give the centre of the constraint -/
theorem lite_fixed (b : LiteBin P) (fit : Fit) (kind : Kind) (h0 : b.beta0 = defaultBeta0 kind) (hs2 : ∀ p, 0 ≤ b.sumw2 p)
    (hn : b.nobs = b.nexp) (hp : fit = .poisson → 0 ≤ b.nobs) (hc : fit = .chisq → 0 < b.varnobs)
    (hA : kind ≠ .normAdd → ¬ b.masked → 0 < b.nActive) : b.profile fit kind = b.beta0 := by
  have hk := b.k_pos hs2
  have hV := b.varbeta_nonneg hs2
  have hnz : b.nobs = b.nActive + b.nZero := hn.trans (lite_nexp b)
  rcases fit with _ | _ | _
  · have hp := hp rfl
    rcases kind with _ | _ | _
    · by_cases hm : b.masked
      · simp [LiteBin.profile, hm]
      · have hA := hA (by decide) hm
        have h0 : b.beta0 = 1 := h0
        simp only [LiteBin.profile, hm, if_false, LiteBin.nActiveSafe, hA, if_true, h0]
        have ha : 0 < b.nActive * (b.nActive + b.k) := by positivity
        refine solveQuadEq_of_roots (s := -b.k * b.nZero / (b.nActive * (b.nActive + b.k))) ha ?_ ?_ ?_
        · rw [hnz]; field_simp; ring
        · field_simp
        · rw [div_le_one ha]
          have : 0 ≤ b.k * b.nobs := by positivity
          rw [hnz] at this
          nlinarith
    · by_cases hm : b.masked
      · simp [LiteBin.profile, hm]
      · have hA := hA (by decide) hm
        have h0 : b.beta0 = 1 := h0
        simp only [LiteBin.profile, hm, if_false, LiteBin.nActiveSafe, hA, if_true, h0]
        have ha : 0 < b.k * b.nActive := by positivity
        refine solveQuadEq_of_roots (s := -(b.nActive ^ 2 + b.k * b.nZero) / (b.k * b.nActive)) ha ?_ ?_ ?_
        · field_simp; ring
        · rw [hnz]; field_simp; ring
        · rw [div_le_one ha]
          have : 0 ≤ b.k * b.nobs := by positivity
          rw [hnz] at this
          nlinarith
    · have h0 : b.beta0 = 0 := h0
      by_cases hv : b.varbeta = 0
      · simp [LiteBin.profile, hv]
      · have hvp : 0 < √b.varbeta := Real.sqrt_pos.2 (lt_of_le_of_ne hV (Ne.symm hv))
        simp only [LiteBin.profile, hv, if_false, h0, hn]
        refine solveQuadEq_of_roots (s := -(b.varbeta + b.nexp) / √b.varbeta) hvp ?_ ?_ ?_
        · field_simp; ring
        · ring
        · apply div_nonpos_of_nonpos_of_nonneg _ hvp.le
          rw [hn] at hp; linarith
  · have hc := hc rfl
    rcases kind with _ | _ | _
    · by_cases hm : b.masked
      · simp [LiteBin.profile, hm]
      · have hA := hA (by decide) hm
        have h0 : b.beta0 = 1 := h0
        simp only [LiteBin.profile, hm, if_false, LiteBin.nActiveSafe, hA, if_true, h0]
        have ha : 0 < b.nActive ^ 2 := by positivity
        refine solveQuadEq_of_roots (s := -b.k * b.varnobs / b.nActive ^ 2) ha ?_ ?_ ?_
        · rw [hnz]; field_simp; ring
        · field_simp
        · rw [div_le_one ha]
          have : 0 < b.k * b.varnobs := by positivity
          nlinarith
    · by_cases hm : b.masked
      · simp [LiteBin.profile, hm]
      · have hA := hA (by decide) hm
        have h0 : b.beta0 = 1 := h0
        simp only [LiteBin.profile, hm, if_false, LiteBin.nActiveSafe, hA, if_true, h0]
        have : 0 < b.k + b.nActive * b.nActive / b.varnobs := by positivity
        rw [div_eq_one_iff_eq this.ne', hnz]
        ring
    · have h0 : b.beta0 = 0 := h0
      simp [LiteBin.profile, h0, hn]
  · rfl

/-! ### full -/

theorem full_applied_default (b : FullBin P) (kind : Kind) : b.applied kind (fun _ => defaultBeta0 kind) = b.nexp := by
  unfold FullBin.applied FullBin.nexp
  refine Finset.sum_congr rfl fun p _ => ?_
  cases kind <;> simp [FullBin.apply, defaultBeta0]

theorem full_n2k_nonneg (b : FullBin P) (hs2 : ∀ p, 0 ≤ b.sumw2 p) : 0 ≤ b.n2k := by
  classical
  refine Finset.sum_nonneg fun p _ => ?_
  have := b.k_pos hs2 p
  split_ifs
  · exact le_rfl
  · positivity

theorem full_fixed (b : FullBin P) (fit : Fit) (kind : Kind) (hkind : kind ≠ .gamma) (hfit : fit ≠ .covariance)
    (h0 : b.beta0 = fun _ => defaultBeta0 kind) (hs2 : ∀ p, 0 ≤ b.sumw2 p)
    (hn : b.nobs = b.nexp) (hp : fit = .poisson → 0 < b.nobs) (hc : fit = .chisq → 0 < b.varnobs) :
    b.profile fit kind = some b.beta0 := by
  classical
  have hS := full_n2k_nonneg b hs2
  have hV : 0 ≤ ∑ p, b.sumw2 p := Finset.sum_nonneg fun p _ => hs2 p
  rcases fit with _ | _ | _
  · have hp := hp rfl
    rcases kind with _ | _ | _
    · exact absurd rfl hkind
    · have hb : ∀ p, b.beta0 p = 1 := fun p => by rw [h0]; rfl
      have hnb : solveQuadEq 1 (∑ p, ((if b.masked p then 0 else b.norm p ^ 2 / b.k p) - b.beta0 p * b.norm p))
          (-b.nobs * ∑ p, if b.masked p then 0 else b.norm p ^ 2 / b.k p) = b.nobs := by
        refine solveQuadEq_of_roots (s := -b.n2k) one_pos ?_ ?_ (by linarith)
        · rw [hn]; unfold FullBin.n2k FullBin.nexp
          rw [Finset.sum_sub_distrib]
          simp only [hb, one_mul]; ring
        · unfold FullBin.n2k; ring
      unfold FullBin.profile
      dsimp only
      rw [hnb, fdiv, if_neg hp.ne', div_self hp.ne']
      simp
    · have hb : ∀ p, b.beta0 p = 0 := fun p => by rw [h0]; rfl
      have hnb : solveQuadEq 1 (∑ p, (b.sumw2 p - √(b.sumw2 p) * b.beta0 p - b.norm p)) (-b.nobs * ∑ p, b.sumw2 p) = b.nobs := by
        refine solveQuadEq_of_roots (s := -∑ p, b.sumw2 p) one_pos ?_ ?_ (by linarith)
        · rw [hn]; unfold FullBin.nexp
          simp only [hb, mul_zero, sub_zero, Finset.sum_sub_distrib]; ring
        · ring
      unfold FullBin.profile
      dsimp only
      rw [hnb, fdiv, if_neg hp.ne', div_self hp.ne']
      simp
  · have hc := hc rfl
    rcases kind with _ | _ | _
    · exact absurd rfl hkind
    · have hb : ∀ p, b.beta0 p = 1 := fun p => by rw [h0]; rfl
      have hden : 0 < 1 + 1 / b.varnobs * b.n2k := by positivity
      have hnb : (b.nobs / b.varnobs * b.n2k + ∑ p, b.norm p * b.beta0 p) / (1 + 1 / b.varnobs * b.n2k) = b.nobs := by
        rw [div_eq_iff hden.ne']
        have : ∑ p, b.norm p * b.beta0 p = b.nobs := by rw [hn]; simp [FullBin.nexp, hb]
        rw [this]; ring
      unfold FullBin.profile
      dsimp only
      rw [hnb]
      simp
    · have hb : ∀ p, b.beta0 p = 0 := fun p => by rw [h0]; rfl
      unfold FullBin.profile
      dsimp only
      simp [hb, hn]
      funext p
      rw [hb]
  · exact absurd rfl hfit

/-! ### covariance -/

section cov
variable {B : Type*} [Fintype B] [DecidableEq B]

theorem covLite_add_fixed (c : CovLite B) (hn : c.nobs = c.nexp) (h0 : c.beta0 = 0) : c.profileAdd = 0 := by
  unfold CovLite.profileAdd
  rw [hn, h0]
  simp

theorem covLite_mult_fixed (c : CovLite B) (hW : c.W.PosSemidef) (hk : ∀ i, 0 < c.k i) (hn : c.nobs - c.nZero = c.nActive)
    (h0 : c.beta0 = fun _ => 1) : c.profileMult = c.beta0 := by
  have hu : IsUnit c.matMult.det := lite_mat_unit c.W hW c.nActive c.k hk
  have hr : c.rhsMult = c.matMult *ᵥ fun _ => 1 := by
    unfold CovLite.rhsMult CovLite.matMult
    rw [hn, h0, add_mulVec, ← mulVec_mulVec, ← mulVec_mulVec]
    congr 1
    · congr 2
      funext i; simp [mulVec_diagonal]
    · funext i; simp [mulVec_diagonal]
  unfold CovLite.profileMult
  rw [hr, mulVec_mulVec, nonsing_inv_mul _ hu, one_mulVec, h0]
  funext i
  simp

theorem covFull_add_fixed (c : CovFull B P) (hn : c.nobs = fun i => ∑ p, c.norm i p) (h0 : c.beta0 = fun _ _ => 0) :
    c.profileAdd = c.beta0 := by
  unfold CovFull.profileAdd
  dsimp only
  have h1 : c.nobs - (fun i => ∑ p, c.norm i p) = 0 := by rw [hn]; simp
  have h2 : (fun i => ∑ p, √(c.varbeta i p) * c.beta0 i p) = 0 := by rw [h0]; funext i; simp
  rw [h1, h2, mulVec_zero, mulVec_zero, add_zero, mulVec_zero, zero_add, ← hn, sub_self, mulVec_zero]
  simp

theorem covFull_mult_fixed (c : CovFull B P) (hW : c.W.PosSemidef) (hk : ∀ i p, 0 < c.k i p)
    (hn : c.nobs = fun i => ∑ p, c.norm i p) (h0 : c.beta0 = fun _ _ => 1) : c.profileMult = c.beta0 := by
  classical
  have hn2k : ∀ i, 0 ≤ c.n2k i := fun i => Finset.sum_nonneg fun p _ => by
    have := hk i p
    split_ifs
    · exact le_refl 0
    · positivity
  have hu := full_mat_unit c.W hW c.n2k hn2k
  have hr : diagonal c.n2k *ᵥ (c.W *ᵥ c.nobs) + (fun i => ∑ p, c.norm i p * c.beta0 i p) =
      (diagonal c.n2k * c.W + 1) *ᵥ c.nobs := by
    rw [add_mulVec, one_mulVec, ← mulVec_mulVec]
    congr 1
    rw [h0, hn]; simp
  unfold CovFull.profileMult
  dsimp only
  rw [hr, mulVec_mulVec, nonsing_inv_mul _ hu, one_mulVec]
  simp

end cov

/-! ### constraint term -/

theorem lbeta_default (kind : Kind) (m : Prop) (k : ℝ) : lbeta kind m k (defaultBeta0 kind) (defaultBeta0 kind) = 0 := by
  cases kind <;> simp [lbeta, defaultBeta0]

theorem lbeta_nonneg (kind : Kind) (m : Prop) (k β : ℝ) (hk : 0 < k) (hβ : kind = .gamma → 0 < β) :
    0 ≤ lbeta kind m k (defaultBeta0 kind) β := by
  classical
  cases kind
  · have := Real.log_le_sub_one_of_pos (hβ rfl)
    simp only [lbeta, defaultBeta0, one_ne_zero, if_false, Real.log_one, sub_zero, mul_one]
    nlinarith
  · simp only [lbeta]
    split_ifs
    · exact le_rfl
    · positivity
  · simp only [lbeta]; positivity

theorem lbeta_zero (kind : Kind) (m : Prop) (k β : ℝ) (hk : 0 < k) (hβ : kind = .gamma → 0 < β)
    (h : lbeta kind m k (defaultBeta0 kind) β = 0) : β = defaultBeta0 kind ∨ (kind = .normMult ∧ m) := by
  classical
  cases kind
  · left
    have hβ := hβ rfl
    simp only [lbeta, defaultBeta0, one_ne_zero, if_false, Real.log_one, sub_zero, mul_one] at h
    have h1 : Real.log β = β - 1 := by
      have : k * (β - 1 - Real.log β) = 0 := by linarith
      rcases mul_eq_zero.1 this with h | h
      · exact absurd h hk.ne'
      · linarith
    by_contra hne
    have := Real.log_lt_sub_one_of_pos hβ hne
    linarith
  · by_cases hm : m
    · exact .inr ⟨rfl, hm⟩
    · left
      simp only [lbeta, if_neg hm, defaultBeta0] at h ⊢
      have : (β - 1) ^ 2 = 0 := by
        have := mul_eq_zero.1 h
        rcases this with h | h
        · linarith
        · exact absurd h hk.ne'
      have := pow_eq_zero_iff two_ne_zero |>.1 this
      linarith
  · left
    simp only [lbeta, defaultBeta0, sub_zero] at h ⊢
    have : β ^ 2 = 0 := by linarith
    exact pow_eq_zero_iff two_ne_zero |>.1 this

end

end Verif.LinearFit
