import Verif.Model.BBBFull
import Verif.Props.BBBLite
import Mathlib.LinearAlgebra.Matrix.PosDef

/-!
C31 (covariance data term), C32 (full mode, Gaussian types), C33 (full mode, gamma type), C34 (full).
-/

namespace Verif.BBB

noncomputable section

variable {P : Type*} [Fintype P]

/-! ### Specification -/

open Classical in
/-- expected yield of one bin when every process with template statistics has its own β -/
def Spec.fullMean (kind : Kind) (norm sumw2 : P → ℝ) (masked : P → Prop) (β : P → ℝ) : ℝ :=
  match kind with
  | .gamma | .normMult => ∑ p, (if masked p then 1 else β p) * norm p
  | .normAdd => ∑ p, (norm p + √(sumw2 p) * β p)

open Classical in
/-- sum of the constraint terms of the β that exist -/
def Spec.fullConstraint (kind : Kind) (masked : P → Prop) (k β0 β : P → ℝ) : ℝ :=
  match kind with
  | .gamma | .normMult => ∑ p, if masked p then 0 else Spec.constraintNll kind (k p) (β0 p) (β p)
  | .normAdd => ∑ p, Spec.constraintNll .normAdd (k p) (β0 p) (β p)

/-- total for one bin, full mode -/
def Spec.fullNll (fit : Fit) (kind : Kind) (b : FullBin P) (β : P → ℝ) : ℝ :=
  Spec.dataNll fit b.nobs b.varnobs (Spec.fullMean kind b.norm b.sumw2 b.masked β) +
    Spec.fullConstraint kind b.masked b.k b.beta0 β

omit [Fintype P] in
theorem FullBin.k_pos (b : FullBin P) (h : ∀ p, 0 ≤ b.sumw2 p) (p : P) : 0 < b.k p := kstat_pos (h p)

/-- C32: the yields produced by applying β are the specified ones. -/
theorem c32_applied_is_spec (b : FullBin P) (kind : Kind) (β : P → ℝ) :
    b.applied kind β = Spec.fullMean kind b.norm b.sumw2 b.masked β := by
  cases kind
  all_goals
    simp only [FullBin.applied, FullBin.apply, Spec.fullMean]
    try exact Finset.sum_congr rfl fun p _ => by split_ifs <;> simp

/-- C32: the contribution of the bin to the code's NLL is the specified one up to a constant that
does not depend on β (masked entries of the gamma type sit at β0, where `profile_and_apply` puts them). -/
theorem c32_objective_is_likelihood (b : FullBin P) (fit : Fit) (kind : Kind) :
    ∃ c, ∀ β, (∀ p, b.masked p → β p = b.beta0 p) → b.objective fit kind β = Spec.fullNll fit kind b β - c := by
  classical
  refine ⟨(if fit = .poisson then Verif.Spec.poissonNll b.nobs b.nobs else 0) +
    (if kind = .gamma then Spec.fullConstraint kind b.masked b.k b.beta0 b.beta0 else 0), fun β hβ => ?_⟩
  have hc : ∑ p, lbeta kind (b.masked p) (b.k p) (b.beta0 p) (β p) =
      Spec.fullConstraint kind b.masked b.k b.beta0 β -
        (if kind = .gamma then Spec.fullConstraint kind b.masked b.k b.beta0 b.beta0 else 0) := by
    cases kind
    · simp only [Spec.fullConstraint, if_true]
      rw [← Finset.sum_sub_distrib]
      refine Finset.sum_congr rfl fun p _ => ?_
      by_cases hm : b.masked p
      · rw [hβ p hm]; simp [hm, lbeta]
      · simp only [hm, if_false, lbeta_eq]; simp
    · simp only [Spec.fullConstraint]
      rw [if_neg (by simp), sub_zero]
      refine Finset.sum_congr rfl fun p _ => ?_
      by_cases hm : b.masked p
      · simp [hm, lbeta]
      · simp only [hm, if_false, lbeta_eq]; simp
    · simp only [Spec.fullConstraint]
      rw [if_neg (by simp), sub_zero]
      refine Finset.sum_congr rfl fun p _ => ?_
      simp [lbeta, Spec.constraintNll]; ring
  rw [FullBin.objective, hc, dataTerm_eq, c32_applied_is_spec, Spec.fullNll]
  ring

omit [Fintype P] in
/-- generic step: tangent to the data term at the profiled yield + quadratic constraints -/
private theorem gauss_full_step (U : Finset P) (f : ℝ → ℝ) (w k β0 β' β : P → ℝ) (N0 g : ℝ)
    (_hk : ∀ p ∈ U, 0 < k p) (hβ' : ∀ p ∈ U, k p * (β' p - β0 p) = -g * w p)
    (htan : f (N0 + ∑ p ∈ U, w p * β' p) + g * ((N0 + ∑ p ∈ U, w p * β p) - (N0 + ∑ p ∈ U, w p * β' p))
      ≤ f (N0 + ∑ p ∈ U, w p * β p)) :
    f (N0 + ∑ p ∈ U, w p * β' p) + ∑ p ∈ U, k p * (β' p - β0 p) ^ 2 / 2
        + ∑ p ∈ U, k p * (β p - β' p) ^ 2 / 2
      ≤ f (N0 + ∑ p ∈ U, w p * β p) + ∑ p ∈ U, k p * (β p - β0 p) ^ 2 / 2 := by
  have h1 : ∑ p ∈ U, k p * (β p - β0 p) ^ 2 / 2 =
      ∑ p ∈ U, k p * (β' p - β0 p) ^ 2 / 2 + ∑ p ∈ U, k p * (β p - β' p) ^ 2 / 2
        - g * ((N0 + ∑ p ∈ U, w p * β p) - (N0 + ∑ p ∈ U, w p * β' p)) := by
    have : g * ((N0 + ∑ p ∈ U, w p * β p) - (N0 + ∑ p ∈ U, w p * β' p)) =
        ∑ p ∈ U, g * (w p * β p - w p * β' p) := by
      rw [← Finset.mul_sum, Finset.sum_sub_distrib]; ring
    rw [this, ← Finset.sum_add_distrib, ← Finset.sum_sub_distrib]
    refine Finset.sum_congr rfl fun p hp => ?_
    have := hβ' p hp
    have e : g * (w p * β p - w p * β' p) = -(-g * w p) * (β p - β' p) := by ring
    rw [e, ← this]; ring
  rw [h1]; linarith

omit [Fintype P] in
private theorem eq_of_gap (U : Finset P) (k β' β : P → ℝ) (hk : ∀ p ∈ U, 0 < k p)
    (h : ∑ p ∈ U, k p * (β p - β' p) ^ 2 / 2 ≤ 0) : ∀ p ∈ U, β p = β' p := by
  have hnn : ∀ p ∈ U, 0 ≤ k p * (β p - β' p) ^ 2 / 2 := fun p hp => by
    have := hk p hp; positivity
  have h0 := le_antisymm h (Finset.sum_nonneg hnn)
  intro p hp
  have := (Finset.sum_eq_zero_iff_of_nonneg hnn).1 h0 p hp
  have hkp := hk p hp
  have h2 : (β p - β' p) ^ 2 = 0 := by
    have : k p * (β p - β' p) ^ 2 = 0 := by linarith
    exact (mul_eq_zero.1 this).resolve_left hkp.ne'
  nlinarith [pow_eq_zero_iff (two_ne_zero) |>.1 h2]

omit [Fintype P] in
private theorem gap_nonneg (U : Finset P) (k β' β : P → ℝ) (hk : ∀ p ∈ U, 0 < k p) :
    0 ≤ ∑ p ∈ U, k p * (β p - β' p) ^ 2 / 2 :=
  Finset.sum_nonneg fun p hp => by have := hk p hp; positivity

open Classical in
private theorem mult_split (b : FullBin P) (β : P → ℝ) :
    Spec.fullMean .normMult b.norm b.sumw2 b.masked β =
      (∑ p, if b.masked p then b.norm p else 0) +
        ∑ p ∈ Finset.univ.filter (fun p => ¬ b.masked p), b.norm p * β p := by
  rw [Finset.sum_filter, ← Finset.sum_add_distrib]
  refine Finset.sum_congr rfl fun p _ => ?_
  by_cases h : b.masked p <;> simp [h, mul_comm]

open Classical in
private theorem mult_constraint (b : FullBin P) (β : P → ℝ) :
    Spec.fullConstraint .normMult b.masked b.k b.beta0 β =
      ∑ p ∈ Finset.univ.filter (fun p => ¬ b.masked p), b.k p * (β p - b.beta0 p) ^ 2 / 2 := by
  rw [Finset.sum_filter]
  refine Finset.sum_congr rfl fun p _ => ?_
  by_cases h : b.masked p <;> simp [h, Spec.constraintNll]

open Classical in
private theorem mult_offset (b : FullBin P) (hb : ∀ p, b.masked p → b.beta0 p = 1 ∨ b.norm p = 0) :
    (∑ p, b.beta0 p * b.norm p) = (∑ p, if b.masked p then b.norm p else 0) +
        ∑ p ∈ Finset.univ.filter (fun p => ¬ b.masked p), b.norm p * b.beta0 p := by
  rw [Finset.sum_filter, ← Finset.sum_add_distrib]
  refine Finset.sum_congr rfl fun p _ => ?_
  by_cases h : b.masked p
  · rcases hb p h with h1 | h1 <;> simp [h, h1]
  · simp [h, mul_comm]

open Classical in
private theorem n2k_eq (b : FullBin P) :
    b.n2k = ∑ p ∈ Finset.univ.filter (fun p => ¬ b.masked p), b.norm p ^ 2 / b.k p := by
  rw [Finset.sum_filter]
  refine Finset.sum_congr rfl fun p _ => ?_
  by_cases h : b.masked p <;> simp [h]

/-- C32: multiplicative Gaussian β per process, Poisson data with at least one event: the closed form
exists (no division by zero), gives a positive yield and is the minimiser over all per-process β with
a positive yield; every β that ties with it agrees with it on all processes with template statistics. -/
theorem c32_normal_mult_full_poisson_minimises (b : FullBin P) (hs2 : ∀ p, 0 ≤ b.sumw2 p)
    (hb : ∀ p, b.masked p → b.beta0 p = 1 ∨ b.norm p = 0) (hn : 0 < b.nobs) (hS : 0 < b.n2k) :
    ∃ β', b.profile .poisson .normMult = some β' ∧
      0 < Spec.fullMean .normMult b.norm b.sumw2 b.masked β' ∧
      ∀ β, 0 < Spec.fullMean .normMult b.norm b.sumw2 b.masked β →
        Spec.fullNll .poisson .normMult b β' ≤ Spec.fullNll .poisson .normMult b β ∧
        (Spec.fullNll .poisson .normMult b β = Spec.fullNll .poisson .normMult b β' →
          ∀ p, ¬ b.masked p → β p = β' p) := by
  classical
  set n2 : P → ℝ := fun p => if b.masked p then 0 else b.norm p ^ 2 / b.k p with hn2
  set pb := ∑ p, (n2 p - b.beta0 p * b.norm p) with hpb
  have hn2k : ∑ p, n2 p = b.n2k := rfl
  set T := solveQuadEq 1 pb (-b.nobs * ∑ p, n2 p) with hT
  have hneg : (1 : ℝ) * 0 ^ 2 + pb * 0 + -b.nobs * ∑ p, n2 p < 0 := by
    rw [hn2k]; have := mul_pos hn hS; linarith
  have hTpos : 0 < T := lt_solveQuadEq one_pos hneg
  have hroot : T ^ 2 + pb * T - b.nobs * b.n2k = 0 := by
    have := solveQuadEq_root one_pos (disc_nonneg_of_le one_pos hneg.le)
    rw [← hT, hn2k] at this; linarith
  set U := Finset.univ.filter (fun p => ¬ b.masked p) with hU
  have hkU : ∀ p ∈ U, 0 < b.k p := fun p _ => b.k_pos hs2 p
  refine ⟨fun p => if b.masked p then b.beta0 p else b.beta0 p + (b.nobs / T - 1) * b.norm p / b.k p, ?_, ?_⟩
  · simp only [FullBin.profile]
    rw [← hpb, ← hT]
    simp [fdiv, hTpos.ne']
  set β' : P → ℝ := fun p => if b.masked p then b.beta0 p else b.beta0 p + (b.nobs / T - 1) * b.norm p / b.k p
  have hβ'U : ∀ p ∈ U, b.k p * (β' p - b.beta0 p) = -(1 - b.nobs / T) * b.norm p := by
    intro p hp
    have hm : ¬ b.masked p := by simpa [hU] using hp
    have := hkU p hp
    simp only [β', hm, if_false]; field_simp; ring
  have hpbe : pb = b.n2k - ∑ p, b.beta0 p * b.norm p := by
    rw [hpb, Finset.sum_sub_distrib, hn2k]
  have hmean' : Spec.fullMean .normMult b.norm b.sumw2 b.masked β' = T := by
    rw [mult_split]
    have e1 : ∑ p ∈ U, b.norm p * β' p =
        (∑ p ∈ U, b.norm p * b.beta0 p) + (b.nobs / T - 1) * b.n2k := by
      rw [n2k_eq, Finset.mul_sum, ← Finset.sum_add_distrib]
      refine Finset.sum_congr rfl fun p hp => ?_
      have hm : ¬ b.masked p := by simpa [hU] using hp
      simp only [β', hm, if_false]; ring
    rw [e1, ← add_assoc, ← mult_offset b hb]
    have : b.nobs / T * b.n2k = T + pb := by
      field_simp; nlinarith
    rw [sub_mul, this, hpbe]; ring
  refine ⟨by rw [hmean']; exact hTpos, ?_⟩
  intro β hμ
  have hspl := mult_split b
  have htan : Verif.Spec.poissonNll b.nobs ((∑ p, if b.masked p then b.norm p else 0) + ∑ p ∈ U, b.norm p * β' p)
      + (1 - b.nobs / T) * (((∑ p, if b.masked p then b.norm p else 0) + ∑ p ∈ U, b.norm p * β p)
        - ((∑ p, if b.masked p then b.norm p else 0) + ∑ p ∈ U, b.norm p * β' p))
      ≤ Verif.Spec.poissonNll b.nobs ((∑ p, if b.masked p then b.norm p else 0) + ∑ p ∈ U, b.norm p * β p) := by
    rw [← hspl, ← hspl, hmean']
    have := poisson_tangent (n := b.nobs) (μ := Spec.fullMean .normMult b.norm b.sumw2 b.masked β) (ν := T)
      hn.le (.inr hμ) (.inr hTpos)
    rw [poissonBin_eq_spec, poissonBin_eq_spec] at this
    simp only [Verif.Spec.halfDeviance] at this
    linarith
  have := gauss_full_step U (Verif.Spec.poissonNll b.nobs) b.norm b.k b.beta0 β' β _ _ hkU hβ'U htan
  rw [← hspl, ← hspl, ← mult_constraint, ← mult_constraint] at this
  have hgap := gap_nonneg U b.k β' β hkU
  have hdef : ∀ β, Spec.fullNll .poisson .normMult b β =
      Verif.Spec.poissonNll b.nobs (Spec.fullMean .normMult b.norm b.sumw2 b.masked β) +
        Spec.fullConstraint .normMult b.masked b.k b.beta0 β := fun β => rfl
  rw [hdef, hdef]
  refine ⟨by linarith, fun he p hp => ?_⟩
  exact eq_of_gap U b.k β' β hkU (by linarith) p (by simpa [hU] using hp)

/-- C32: the same for an empty observed bin, as long as the expected yield exceeds `∑ norm²/k`. -/
theorem c32_normal_mult_full_poisson_empty (b : FullBin P) (hs2 : ∀ p, 0 ≤ b.sumw2 p)
    (hb : ∀ p, b.masked p → b.beta0 p = 1 ∨ b.norm p = 0) (hn : b.nobs = 0)
    (hS : b.n2k < ∑ p, b.beta0 p * b.norm p) :
    ∃ β', b.profile .poisson .normMult = some β' ∧
      0 < Spec.fullMean .normMult b.norm b.sumw2 b.masked β' ∧
      ∀ β, Spec.fullNll .poisson .normMult b β' ≤ Spec.fullNll .poisson .normMult b β ∧
        (Spec.fullNll .poisson .normMult b β = Spec.fullNll .poisson .normMult b β' →
          ∀ p, ¬ b.masked p → β p = β' p) := by
  classical
  set n2 : P → ℝ := fun p => if b.masked p then 0 else b.norm p ^ 2 / b.k p with hn2
  set pb := ∑ p, (n2 p - b.beta0 p * b.norm p) with hpb
  have hn2k : ∑ p, n2 p = b.n2k := rfl
  have hpbe : pb = b.n2k - ∑ p, b.beta0 p * b.norm p := by
    rw [hpb, Finset.sum_sub_distrib, hn2k]
  have hpneg : pb < 0 := by linarith
  have hT : solveQuadEq 1 pb (-b.nobs * ∑ p, n2 p) = -pb := by
    unfold solveQuadEq
    rw [hn]
    have : pb ^ 2 - 4 * 1 * (-0 * ∑ p, n2 p) = (-pb) ^ 2 := by ring
    rw [this, Real.sqrt_sq (by linarith)]; ring
  set U := Finset.univ.filter (fun p => ¬ b.masked p) with hU
  have hkU : ∀ p ∈ U, 0 < b.k p := fun p _ => b.k_pos hs2 p
  refine ⟨fun p => if b.masked p then b.beta0 p else b.beta0 p + (0 - 1) * b.norm p / b.k p, ?_, ?_⟩
  · simp only [FullBin.profile]
    rw [← hpb, hT]
    simp [fdiv, hpneg.ne, hn]
  set β' : P → ℝ := fun p => if b.masked p then b.beta0 p else b.beta0 p + (0 - 1) * b.norm p / b.k p
  have hβ'U : ∀ p ∈ U, b.k p * (β' p - b.beta0 p) = -1 * b.norm p := by
    intro p hp
    have hm : ¬ b.masked p := by simpa [hU] using hp
    have := hkU p hp
    simp only [β', hm, if_false]; field_simp; ring
  have hmean' : Spec.fullMean .normMult b.norm b.sumw2 b.masked β' = -pb := by
    rw [mult_split]
    have e1 : ∑ p ∈ U, b.norm p * β' p = (∑ p ∈ U, b.norm p * b.beta0 p) - b.n2k := by
      rw [n2k_eq, ← Finset.sum_sub_distrib]
      refine Finset.sum_congr rfl fun p hp => ?_
      have hm : ¬ b.masked p := by simpa [hU] using hp
      simp only [β', hm, if_false]; ring
    rw [e1, hpbe, mult_offset b hb]; ring
  refine ⟨by rw [hmean']; linarith, ?_⟩
  intro β
  have hspl := mult_split b
  have := gauss_full_step U (Verif.Spec.poissonNll b.nobs) b.norm b.k b.beta0 β' β
    (∑ p, if b.masked p then b.norm p else 0) 1 hkU hβ'U (by simp only [Verif.Spec.poissonNll, hn, if_true]; linarith)
  rw [← hspl, ← hspl, ← mult_constraint, ← mult_constraint] at this
  have hgap := gap_nonneg U b.k β' β hkU
  have hdef : ∀ β, Spec.fullNll .poisson .normMult b β =
      Verif.Spec.poissonNll b.nobs (Spec.fullMean .normMult b.norm b.sumw2 b.masked β) +
        Spec.fullConstraint .normMult b.masked b.k b.beta0 β := fun β => rfl
  rw [hdef, hdef]
  refine ⟨by linarith, fun he p hp => ?_⟩
  exact eq_of_gap U b.k β' β hkU (by linarith) p (by simpa [hU] using hp)

private theorem add_split (b : FullBin P) (β : P → ℝ) :
    Spec.fullMean .normAdd b.norm b.sumw2 b.masked β = b.nexp + ∑ p, √(b.sumw2 p) * β p := by
  simp only [Spec.fullMean, FullBin.nexp, Finset.sum_add_distrib]

private theorem add_constraint (b : FullBin P) (β : P → ℝ) :
    Spec.fullConstraint .normAdd b.masked b.k b.beta0 β = ∑ p, 1 * (β p - b.beta0 p) ^ 2 / 2 := by
  simp [Spec.fullConstraint, Spec.constraintNll]

/-- C32: additive Gaussian β per process, Poisson data with at least one event. -/
theorem c32_normal_add_full_poisson_minimises (b : FullBin P) (hs2 : ∀ p, 0 ≤ b.sumw2 p)
    (hn : 0 < b.nobs) (hV : 0 < b.varsum) :
    ∃ β', b.profile .poisson .normAdd = some β' ∧
      0 < Spec.fullMean .normAdd b.norm b.sumw2 b.masked β' ∧
      ∀ β, 0 < Spec.fullMean .normAdd b.norm b.sumw2 b.masked β →
        Spec.fullNll .poisson .normAdd b β' ≤ Spec.fullNll .poisson .normAdd b β ∧
        (Spec.fullNll .poisson .normAdd b β = Spec.fullNll .poisson .normAdd b β' → β = β') := by
  set pb := ∑ p, (b.sumw2 p - √(b.sumw2 p) * b.beta0 p - b.norm p) with hpb
  set T := solveQuadEq 1 pb (-b.nobs * ∑ p, b.sumw2 p) with hT
  have hVd : ∑ p, b.sumw2 p = b.varsum := rfl
  have hneg : (1 : ℝ) * 0 ^ 2 + pb * 0 + -b.nobs * ∑ p, b.sumw2 p < 0 := by
    rw [hVd]; have := mul_pos hn hV; linarith
  have hTpos : 0 < T := lt_solveQuadEq one_pos hneg
  have hroot : T ^ 2 + pb * T - b.nobs * b.varsum = 0 := by
    have := solveQuadEq_root one_pos (disc_nonneg_of_le one_pos hneg.le)
    rw [← hT, hVd] at this; linarith
  refine ⟨fun p => b.beta0 p + (b.nobs / T - 1) * √(b.sumw2 p), ?_, ?_⟩
  · simp only [FullBin.profile]
    rw [← hpb, ← hT]
    simp [fdiv, hTpos.ne']
  set β' : P → ℝ := fun p => b.beta0 p + (b.nobs / T - 1) * √(b.sumw2 p)
  have hkU : ∀ p ∈ (Finset.univ : Finset P), (0 : ℝ) < (fun _ : P => (1 : ℝ)) p := fun _ _ => one_pos
  have hβ'U : ∀ p ∈ (Finset.univ : Finset P), (fun _ : P => (1 : ℝ)) p * (β' p - b.beta0 p)
      = -(1 - b.nobs / T) * √(b.sumw2 p) := by
    intro p _; simp only [β']; ring
  have hmean' : Spec.fullMean .normAdd b.norm b.sumw2 b.masked β' = T := by
    rw [add_split]
    have e1 : ∑ p, √(b.sumw2 p) * β' p = (∑ p, √(b.sumw2 p) * b.beta0 p) + (b.nobs / T - 1) * b.varsum := by
      unfold FullBin.varsum
      rw [Finset.mul_sum, ← Finset.sum_add_distrib]
      refine Finset.sum_congr rfl fun p _ => ?_
      have := Real.mul_self_sqrt (hs2 p)
      simp only [β']
      have e : √(b.sumw2 p) * (b.beta0 p + (b.nobs / T - 1) * √(b.sumw2 p)) =
        √(b.sumw2 p) * b.beta0 p + (b.nobs / T - 1) * (√(b.sumw2 p) * √(b.sumw2 p)) := by ring
      rw [e, this]
    rw [e1]
    have h1 : b.nobs / T * b.varsum = T + pb := by field_simp; nlinarith
    have h2 : pb = b.varsum - (∑ p, √(b.sumw2 p) * b.beta0 p) - b.nexp := by
      rw [hpb, Finset.sum_sub_distrib, Finset.sum_sub_distrib]; rfl
    rw [sub_mul, h1, h2]; ring
  refine ⟨by rw [hmean']; exact hTpos, ?_⟩
  intro β hμ
  have hspl := add_split b
  have htan : Verif.Spec.poissonNll b.nobs (b.nexp + ∑ p, √(b.sumw2 p) * β' p)
      + (1 - b.nobs / T) * ((b.nexp + ∑ p, √(b.sumw2 p) * β p) - (b.nexp + ∑ p, √(b.sumw2 p) * β' p))
      ≤ Verif.Spec.poissonNll b.nobs (b.nexp + ∑ p, √(b.sumw2 p) * β p) := by
    rw [← hspl, ← hspl, hmean']
    have := poisson_tangent (n := b.nobs) (μ := Spec.fullMean .normAdd b.norm b.sumw2 b.masked β) (ν := T)
      hn.le (.inr hμ) (.inr hTpos)
    rw [poissonBin_eq_spec, poissonBin_eq_spec] at this
    simp only [Verif.Spec.halfDeviance] at this
    linarith
  have := gauss_full_step Finset.univ (Verif.Spec.poissonNll b.nobs) (fun p => √(b.sumw2 p)) (fun _ => 1) b.beta0 β' β _ _
    hkU hβ'U htan
  rw [← hspl, ← hspl, ← add_constraint, ← add_constraint] at this
  have hgap := gap_nonneg Finset.univ (fun _ => 1) β' β hkU
  have hdef : ∀ β, Spec.fullNll .poisson .normAdd b β =
      Verif.Spec.poissonNll b.nobs (Spec.fullMean .normAdd b.norm b.sumw2 b.masked β) +
        Spec.fullConstraint .normAdd b.masked b.k b.beta0 β := fun β => rfl
  rw [hdef, hdef]
  refine ⟨by linarith, fun he => funext fun p => ?_⟩
  exact eq_of_gap Finset.univ (fun _ => 1) β' β hkU (by linarith) p (Finset.mem_univ p)

/-- C32: multiplicative Gaussian β per process, chi-square data. -/
theorem c32_normal_mult_full_chisq_minimises (b : FullBin P) (hs2 : ∀ p, 0 ≤ b.sumw2 p)
    (hb : ∀ p, b.masked p → b.beta0 p = 1 ∨ b.norm p = 0) (hv : 0 < b.varnobs) :
    ∃ β', b.profile .chisq .normMult = some β' ∧
      ∀ β, Spec.fullNll .chisq .normMult b β' ≤ Spec.fullNll .chisq .normMult b β ∧
        (Spec.fullNll .chisq .normMult b β = Spec.fullNll .chisq .normMult b β' →
          ∀ p, ¬ b.masked p → β p = β' p) := by
  classical
  set T := (b.nobs / b.varnobs * b.n2k + ∑ p, b.norm p * b.beta0 p) / (1 + 1 / b.varnobs * b.n2k) with hT
  have hS : 0 ≤ b.n2k := by
    rw [n2k_eq]; exact Finset.sum_nonneg fun p _ => by have := b.k_pos hs2 p; positivity
  have hden : 0 < 1 + 1 / b.varnobs * b.n2k := by positivity
  set U := Finset.univ.filter (fun p => ¬ b.masked p) with hU
  have hkU : ∀ p ∈ U, 0 < b.k p := fun p _ => b.k_pos hs2 p
  refine ⟨fun p => if b.masked p then b.beta0 p
      else b.beta0 p + 1 / b.varnobs * (b.nobs - T) * b.norm p / b.k p, rfl, ?_⟩
  set β' : P → ℝ := fun p => if b.masked p then b.beta0 p
      else b.beta0 p + 1 / b.varnobs * (b.nobs - T) * b.norm p / b.k p
  have hβ'U : ∀ p ∈ U, b.k p * (β' p - b.beta0 p) = -((T - b.nobs) / b.varnobs) * b.norm p := by
    intro p hp
    have hm : ¬ b.masked p := by simpa [hU] using hp
    have := hkU p hp
    simp only [β', hm, if_false]; field_simp; ring
  have hmean' : Spec.fullMean .normMult b.norm b.sumw2 b.masked β' = T := by
    rw [mult_split]
    have e1 : ∑ p ∈ U, b.norm p * β' p =
        (∑ p ∈ U, b.norm p * b.beta0 p) + 1 / b.varnobs * (b.nobs - T) * b.n2k := by
      rw [n2k_eq, Finset.mul_sum, ← Finset.sum_add_distrib]
      refine Finset.sum_congr rfl fun p hp => ?_
      have hm : ¬ b.masked p := by simpa [hU] using hp
      simp only [β', hm, if_false]; ring
    rw [e1, ← add_assoc, ← mult_offset b hb]
    have h1 : T * (1 + 1 / b.varnobs * b.n2k) = b.nobs / b.varnobs * b.n2k + ∑ p, b.norm p * b.beta0 p := by
      rw [hT]; field_simp
    have h2 : ∑ p, b.norm p * b.beta0 p = ∑ p, b.beta0 p * b.norm p :=
      Finset.sum_congr rfl fun p _ => mul_comm _ _
    rw [h2] at h1
    have h3 : 1 / b.varnobs * (b.nobs - T) * b.n2k =
      b.nobs / b.varnobs * b.n2k - T * (1 + 1 / b.varnobs * b.n2k) + T := by ring
    rw [h3, h1]; ring
  intro β
  have hspl := mult_split b
  have hf : ∀ μ, Spec.dataNll .chisq b.nobs b.varnobs μ = 1 / 2 * ((μ - b.nobs) ^ 2 / b.varnobs) := by
    intro μ; simp only [Spec.dataNll]; field_simp
  have htan : Spec.dataNll .chisq b.nobs b.varnobs ((∑ p, if b.masked p then b.norm p else 0) + ∑ p ∈ U, b.norm p * β' p)
      + (T - b.nobs) / b.varnobs * (((∑ p, if b.masked p then b.norm p else 0) + ∑ p ∈ U, b.norm p * β p)
        - ((∑ p, if b.masked p then b.norm p else 0) + ∑ p ∈ U, b.norm p * β' p))
      ≤ Spec.dataNll .chisq b.nobs b.varnobs ((∑ p, if b.masked p then b.norm p else 0) + ∑ p ∈ U, b.norm p * β p) := by
    rw [← hspl, ← hspl, hmean', hf, hf]
    have := chisq_tangent b.varnobs b.nobs (Spec.fullMean .normMult b.norm b.sumw2 b.masked β) T hv
    have h2 : 0 ≤ 1 / 2 * ((Spec.fullMean .normMult b.norm b.sumw2 b.masked β - T) ^ 2 / b.varnobs) := by positivity
    linarith
  have := gauss_full_step U (Spec.dataNll .chisq b.nobs b.varnobs) b.norm b.k b.beta0 β' β _ _ hkU hβ'U htan
  rw [← hspl, ← hspl, ← mult_constraint, ← mult_constraint] at this
  have hgap := gap_nonneg U b.k β' β hkU
  unfold Spec.fullNll
  refine ⟨by linarith, fun he p hp => ?_⟩
  exact eq_of_gap U b.k β' β hkU (by linarith) p (by simpa [hU] using hp)

/-- C32: additive Gaussian β per process, chi-square data. -/
theorem c32_normal_add_full_chisq_minimises (b : FullBin P) (hs2 : ∀ p, 0 ≤ b.sumw2 p) (hv : 0 < b.varnobs) :
    ∃ β', b.profile .chisq .normAdd = some β' ∧
      ∀ β, Spec.fullNll .chisq .normAdd b β' ≤ Spec.fullNll .chisq .normAdd b β ∧
        (Spec.fullNll .chisq .normAdd b β = Spec.fullNll .chisq .normAdd b β' → β = β') := by
  have hV : 0 ≤ b.varsum := Finset.sum_nonneg fun p _ => hs2 p
  set D := ((∑ p, √(b.sumw2 p) * b.beta0 p) + b.varsum / b.varnobs * (b.nobs - b.nexp)) / (1 + b.varsum / b.varnobs) with hD
  have hden : 0 < 1 + b.varsum / b.varnobs := by positivity
  have hD' : D * (1 + b.varsum / b.varnobs) =
      (∑ p, √(b.sumw2 p) * b.beta0 p) + b.varsum / b.varnobs * (b.nobs - b.nexp) := by
    rw [hD]; field_simp
  refine ⟨fun p => b.beta0 p - √(b.sumw2 p) * ((b.nexp + D - b.nobs) / b.varnobs), rfl, ?_⟩
  set β' : P → ℝ := fun p => b.beta0 p - √(b.sumw2 p) * ((b.nexp + D - b.nobs) / b.varnobs)
  have hkU : ∀ p ∈ (Finset.univ : Finset P), (0 : ℝ) < (fun _ : P => (1 : ℝ)) p := fun _ _ => one_pos
  have hβ'U : ∀ p ∈ (Finset.univ : Finset P), (fun _ : P => (1 : ℝ)) p * (β' p - b.beta0 p)
      = -((b.nexp + D - b.nobs) / b.varnobs) * √(b.sumw2 p) := by
    intro p _; simp only [β']; ring
  have hmean' : Spec.fullMean .normAdd b.norm b.sumw2 b.masked β' = b.nexp + D := by
    rw [add_split]
    have e1 : ∑ p, √(b.sumw2 p) * β' p =
        (∑ p, √(b.sumw2 p) * b.beta0 p) - (b.nexp + D - b.nobs) / b.varnobs * b.varsum := by
      unfold FullBin.varsum
      rw [Finset.mul_sum, ← Finset.sum_sub_distrib]
      refine Finset.sum_congr rfl fun p _ => ?_
      have := Real.mul_self_sqrt (hs2 p)
      simp only [β']
      have e : √(b.sumw2 p) * (b.beta0 p - √(b.sumw2 p) * ((b.nexp + D - b.nobs) / b.varnobs)) =
        √(b.sumw2 p) * b.beta0 p - (b.nexp + D - b.nobs) / b.varnobs * (√(b.sumw2 p) * √(b.sumw2 p)) := by ring
      rw [e, this]
    rw [e1]
    have : (b.nexp + D - b.nobs) / b.varnobs * b.varsum =
      D * (1 + b.varsum / b.varnobs) - D - b.varsum / b.varnobs * (b.nobs - b.nexp) := by field_simp; ring
    rw [this, hD']; ring
  intro β
  have hspl := add_split b
  have hf : ∀ μ, Spec.dataNll .chisq b.nobs b.varnobs μ = 1 / 2 * ((μ - b.nobs) ^ 2 / b.varnobs) := by
    intro μ; simp only [Spec.dataNll]; field_simp
  have htan : Spec.dataNll .chisq b.nobs b.varnobs (b.nexp + ∑ p, √(b.sumw2 p) * β' p)
      + (b.nexp + D - b.nobs) / b.varnobs * ((b.nexp + ∑ p, √(b.sumw2 p) * β p) - (b.nexp + ∑ p, √(b.sumw2 p) * β' p))
      ≤ Spec.dataNll .chisq b.nobs b.varnobs (b.nexp + ∑ p, √(b.sumw2 p) * β p) := by
    rw [← hspl, ← hspl, hmean', hf, hf]
    have := chisq_tangent b.varnobs b.nobs (Spec.fullMean .normAdd b.norm b.sumw2 b.masked β) (b.nexp + D) hv
    have h2 : 0 ≤ 1 / 2 * ((Spec.fullMean .normAdd b.norm b.sumw2 b.masked β - (b.nexp + D)) ^ 2 / b.varnobs) := by positivity
    linarith
  have := gauss_full_step Finset.univ (Spec.dataNll .chisq b.nobs b.varnobs) (fun p => √(b.sumw2 p)) (fun _ => 1) b.beta0 β' β
    _ _ hkU hβ'U htan
  rw [← hspl, ← hspl, ← add_constraint, ← add_constraint] at this
  have hgap := gap_nonneg Finset.univ (fun _ => 1) β' β hkU
  unfold Spec.fullNll
  refine ⟨by linarith, fun he => funext fun p => ?_⟩
  exact eq_of_gap Finset.univ (fun _ => 1) β' β hkU (by linarith) p (Finset.mem_univ p)

/-- a bin with two processes that satisfies the hypotheses of the four theorems above -/
def exampleFullBin : FullBin (Fin 2) := ⟨![10, 4], ![5, 2], ![12, 3], 9, 9, ![1, 1], 0⟩

theorem exampleFullBin_unmasked (p : Fin 2) : ¬ exampleFullBin.masked p := by
  fin_cases p <;> simp [FullBin.masked, betamask, exampleFullBin]

example : (∀ p, 0 ≤ exampleFullBin.sumw2 p) ∧
    (∀ p, exampleFullBin.masked p → exampleFullBin.beta0 p = 1 ∨ exampleFullBin.norm p = 0) ∧
    0 < exampleFullBin.nobs ∧ 0 < exampleFullBin.varnobs ∧ 0 < exampleFullBin.varsum ∧ 0 < exampleFullBin.n2k := by
  refine ⟨?_, ?_, ?_, ?_, ?_, ?_⟩
  · intro p; fin_cases p <;> simp [exampleFullBin]
  · intro p hp; exact absurd hp (exampleFullBin_unmasked p)
  · norm_num [exampleFullBin]
  · norm_num [exampleFullBin]
  · norm_num [FullBin.varsum, exampleFullBin, Fin.sum_univ_two]
  · have hk : ∀ p, 0 < exampleFullBin.k p :=
      exampleFullBin.k_pos (by intro p; fin_cases p <;> simp [exampleFullBin])
    simp only [FullBin.n2k, exampleFullBin_unmasked, if_false, Fin.sum_univ_two]
    have h0 := hk 0
    have h1 := hk 1
    have e0 : exampleFullBin.norm 0 = 12 := by simp [exampleFullBin]
    have e1 : exampleFullBin.norm 1 = 3 := by simp [exampleFullBin]
    rw [e0, e1]; positivity

/-- C32 (what does not hold): an empty observed bin whose expected yield exceeds the equivalent number
of simulated events (template weights above one): the code divides zero by zero and every β of the bin
is not a number. -/
theorem c32_empty_bin_violated :
    ∃ b : FullBin (Fin 1), b.nobs = 0 ∧ (∀ p, ¬ b.masked p) ∧ (∀ p, 0 < b.norm p ∧ 0 < b.sumw2 p) ∧
      b.profile .poisson .normMult = none := by
  let b : FullBin (Fin 1) := ⟨![10], ![50], ![10], 0, 0, ![1], 0⟩
  have hm : ∀ p, ¬ b.masked p := by
    intro p; fin_cases p; simp [FullBin.masked, betamask, b]
  have hk : b.k 0 = 2 := by
    have hm0 : ¬ betamask b.minK (b.sumw 0) (b.sumw2 0) := hm 0
    unfold FullBin.k kstat; rw [if_neg hm0]; norm_num [b]
  refine ⟨b, rfl, hm, ?_, ?_⟩
  · intro p; fin_cases p; simp [b]
  · simp only [FullBin.profile, Fin.sum_univ_one, Fin.isValue, hm, if_false, hk]
    have e : b.norm 0 = 10 := by simp [b]
    have e' : b.beta0 0 = 1 := by simp [b]
    have e'' : b.nobs = 0 := rfl
    rw [e, e', e'']
    have : solveQuadEq 1 (10 ^ 2 / 2 - 1 * 10) (-0 * (10 ^ 2 / 2)) = 0 := by
      unfold solveQuadEq
      rw [show ((10 : ℝ) ^ 2 / 2 - 1 * 10) ^ 2 - 4 * 1 * (-0 * (10 ^ 2 / 2)) = 40 ^ 2 by norm_num,
        Real.sqrt_sq (by norm_num)]
      norm_num
    rw [this]; simp [fdiv]

/-! ### C34, full mode -/

/-- C34 (full): entries without template statistics keep their yield for the multiplicative types, and
entries with zero variance keep it for the additive type; the profiled β of a masked entry is β0. -/
theorem c34_full_untouched (b : FullBin P) (β : P → ℝ) (p : P) :
    (b.masked p → b.apply .gamma β p = b.norm p ∧ b.apply .normMult β p = b.norm p ∧
      (∀ fit β', b.profile fit .normMult = some β' → β' p = b.beta0 p) ∧
      lbeta .normMult (b.masked p) (b.k p) (b.beta0 p) (β p) = 0 ∧
      (∀ x, b.gammaBetaPoisson x p = b.beta0 p ∧ b.gammaBetaChisq x p = b.beta0 p)) ∧
    (b.sumw2 p = 0 → b.apply .normAdd β p = b.norm p ∧ b.masked p) := by
  constructor
  · intro hm
    refine ⟨by simp [FullBin.apply, hm], by simp [FullBin.apply, hm], ?_, by simp [lbeta, hm], fun x => ?_⟩
    · intro fit β' h
      cases fit
      · simp only [FullBin.profile, Option.map_eq_some_iff] at h
        obtain ⟨r, -, rfl⟩ := h
        simp [hm]
      · simp only [FullBin.profile, Option.some.injEq] at h
        subst h; simp [hm]
      · simp [FullBin.profile] at h
    · simp [FullBin.gammaBetaPoisson, FullBin.gammaBetaChisq, hm]
  · intro h
    exact ⟨by simp [FullBin.apply, h], .inl (.inl h)⟩

end

end Verif.BBB
