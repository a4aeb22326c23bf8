import Verif.Props.BBBFull
import Mathlib.Analysis.SpecialFunctions.ExpDeriv

/-!
C33: gamma type in full mode.  The parametrisation `x = threshold + exp u` keeps every β positive
whatever the iteration does, and a stationary point of the one-dimensional problem is the global minimum
of the likelihood of the bin over all β.
-/

namespace Verif.BBB

noncomputable section

variable {P : Type*} [Fintype P]

/-! ### helper lemmas -/

private theorem foldMin_le (l : List ℝ) (acc : Option ℝ) :
    (∀ a, acc = some a → ∃ m, l.foldl (fun acc x => some (match acc with | none => x | some a => min a x)) acc = some m ∧ m ≤ a) ∧
    (∀ x ∈ l, ∃ m, l.foldl (fun acc x => some (match acc with | none => x | some a => min a x)) acc = some m ∧ m ≤ x) := by
  induction l generalizing acc with
  | nil => exact ⟨fun a ha => ⟨a, ha, le_refl a⟩, by simp⟩
  | cons y l ih =>
    simp only [List.foldl_cons, List.mem_cons, forall_eq_or_imp]
    refine ⟨fun a ha => ?_, ?_, fun x hx => (ih _).2 x hx⟩
    · subst ha
      obtain ⟨m, hm, hle⟩ := (ih (some (min a y))).1 _ rfl
      exact ⟨m, hm, hle.trans (min_le_left _ _)⟩
    · cases acc with
      | none => exact (ih (some y)).1 _ rfl
      | some a =>
        obtain ⟨m, hm, hle⟩ := (ih (some (min a y))).1 _ rfl
        exact ⟨m, hm, hle.trans (min_le_right _ _)⟩

private theorem minOver_le (f : P → Option ℝ) (p : P) (a : ℝ) (h : f p = some a) :
    ∃ m, FullBin.minOver f = some m ∧ m ≤ a := by
  refine (foldMin_le _ none).2 a ?_
  rw [List.mem_filterMap]
  exact ⟨p, by simp, h⟩

private theorem foldMin_mem (l : List ℝ) (acc : Option ℝ) (m : ℝ)
    (h : l.foldl (fun acc x => some (match acc with | none => x | some a => min a x)) acc = some m) :
    acc = some m ∨ m ∈ l := by
  induction l generalizing acc with
  | nil => exact .inl h
  | cons y l ih =>
    rcases ih _ h with h1 | h1
    · cases acc with
      | none => simp at h1; exact .inr (by simp [h1])
      | some a =>
        simp at h1
        rcases min_choice a y with h2 | h2 <;> rw [h2] at h1
        · exact .inl (by rw [h1])
        · exact .inr (by simp [h1])
    · exact .inr (List.mem_cons_of_mem _ h1)

private theorem minOver_mem (f : P → Option ℝ) (m : ℝ) (h : FullBin.minOver f = some m) :
    ∃ p, f p = some m := by
  rcases foldMin_mem _ _ _ h with h | h
  · simp at h
  · rw [List.mem_filterMap] at h
    obtain ⟨p, -, hp⟩ := h
    exact ⟨p, hp⟩

/-- the threshold is never negative, so `x > 0` -/
private theorem thresholdPoisson_nonneg (b : FullBin P) (hs2 : ∀ p, 0 ≤ b.sumw2 p) (hN : ∀ p, 0 ≤ b.norm p)
    (hn : 0 ≤ b.nobs) : 0 ≤ b.thresholdPoisson := by
  unfold FullBin.thresholdPoisson
  split
  · rename_i m hm
    obtain ⟨p, hp⟩ := minOver_mem _ _ hm
    split_ifs at hp with hc
    have hk := b.k_pos hs2 p
    have := hN p
    have h2 : 1 + b.k p / b.norm p = m := by simpa using hp
    have : 0 ≤ m := by rw [← h2]; positivity
    positivity
  · exact le_refl 0

private theorem denPoisson_pos (b : FullBin P) (hs2 : ∀ p, 0 ≤ b.sumw2 p) (hN : ∀ p, 0 ≤ b.norm p)
    (hn : 0 ≤ b.nobs) (u : ℝ) (p : P) (hp : ¬ b.masked p) :
    0 < (1 - b.nobs / (b.thresholdPoisson + Real.exp u)) * b.norm p + b.k p := by
  have hk := b.k_pos hs2 p
  rcases eq_or_lt_of_le (hN p) with h0 | h0
  · rw [← h0]; linarith
  have hthr := thresholdPoisson_nonneg b hs2 hN hn
  have hexp := Real.exp_pos u
  classical
  obtain ⟨m, hm, hle⟩ := minOver_le
    (fun p => if b.masked p ∨ b.norm p = 0 then none else some (1 + b.k p / b.norm p)) p
    (1 + b.k p / b.norm p) (by simp [hp, h0.ne'])
  have hmpos : 0 < m := by
    obtain ⟨q, hq⟩ := minOver_mem _ _ hm
    split_ifs at hq with hc
    have hk := b.k_pos hs2 q
    have := hN q
    have h2 : 1 + b.k q / b.norm q = m := by simpa using hq
    rw [← h2]; positivity
  have hT : b.thresholdPoisson = b.nobs / m := by
    unfold FullBin.thresholdPoisson
    have : (FullBin.minOver fun p => if b.masked p ∨ b.norm p = 0 then none else some (1 + b.k p / b.norm p)) = some m := by
      convert hm using 4
    rw [this]
  set x := b.thresholdPoisson + Real.exp u with hx
  have hxpos : 0 < x := by positivity
  have h1 : b.nobs < x * m := by
    have : b.nobs / m < x := by rw [hx, hT]; linarith
    rwa [div_lt_iff₀ hmpos] at this
  have h2 : b.nobs / x < m := by rw [div_lt_iff₀ hxpos]; linarith
  have h3 : b.nobs / x < 1 + b.k p / b.norm p := h2.trans_le hle
  have h4 : b.nobs / x * b.norm p < (1 + b.k p / b.norm p) * b.norm p := mul_lt_mul_of_pos_right h3 h0
  have h5 : (1 + b.k p / b.norm p) * b.norm p = b.norm p + b.k p := by field_simp
  linarith

/-- C33: whatever derivatives the Newton iteration is fed with, after any number of steps and after the
final unclipped step, the total yield is positive and every β of a process with template statistics is
positive (Poisson data). -/
theorem c33_beta_positive_poisson {B : Type*} (bin : B → FullBin P)
    (hs2 : ∀ i p, 0 ≤ (bin i).sumw2 p) (hN : ∀ i p, 0 ≤ (bin i).norm p) (hn : ∀ i, 0 ≤ (bin i).nobs)
    (hβ0 : ∀ i p, 0 < (bin i).beta0 p) (grad hess : B → ℝ → ℝ) (i : B) (p : P) :
    let x := (bin i).thresholdPoisson + Real.exp (newtonSolve grad hess i)
    0 < x ∧ 0 < (bin i).gammaBetaPoisson x p := by
  intro x
  have hexp := Real.exp_pos (newtonSolve grad hess i)
  have hthr := thresholdPoisson_nonneg (bin i) (hs2 i) (hN i) (hn i)
  refine ⟨by positivity, ?_⟩
  unfold FullBin.gammaBetaPoisson
  split_ifs with h
  · exact hβ0 i p
  · exact div_pos (mul_pos ((bin i).k_pos (hs2 i) p) (hβ0 i p)) (denPoisson_pos (bin i) (hs2 i) (hN i) (hn i) _ p h)

private theorem denChisq_pos (b : FullBin P) (hs2 : ∀ p, 0 ≤ b.sumw2 p) (hN : ∀ p, 0 ≤ b.norm p)
    (hv : 0 < b.varnobs) (thr : ℝ) (hthr : b.thresholdChisq = some thr) (u : ℝ) (p : P) (hp : ¬ b.masked p) :
    0 < b.k p + (thr + Real.exp u - b.nobs) / b.varnobs * b.norm p := by
  have hk := b.k_pos hs2 p
  rcases eq_or_lt_of_le (hN p) with h0 | h0
  · rw [← h0]; linarith
  have hexp := Real.exp_pos u
  classical
  obtain ⟨m, hm, hle⟩ := minOver_le
    (fun p => if b.masked p ∨ b.norm p = 0 then none else some (b.k p / b.norm p)) p
    (b.k p / b.norm p) (by simp [hp, h0.ne'])
  have hT : thr = b.nobs - b.varnobs * m := by
    unfold FullBin.thresholdChisq at hthr
    have : (FullBin.minOver fun p => if b.masked p ∨ b.norm p = 0 then none else some (b.k p / b.norm p)) = some m := by
      convert hm using 4
    rw [this] at hthr
    simpa using hthr.symm
  have h1 : -m < (thr + Real.exp u - b.nobs) / b.varnobs := by
    rw [lt_div_iff₀ hv, hT]; nlinarith
  have h2 : -(b.k p / b.norm p) < (thr + Real.exp u - b.nobs) / b.varnobs := by linarith
  have h3 := mul_lt_mul_of_pos_right h2 h0
  have h5 : -(b.k p / b.norm p) * b.norm p = -b.k p := by field_simp
  linarith

/-- C33: the same for chi-square data; the bin must have a process with template statistics and
non-zero yield (otherwise the code's threshold is minus infinity). -/
theorem c33_beta_positive_chisq {B : Type*} (bin : B → FullBin P)
    (hs2 : ∀ i p, 0 ≤ (bin i).sumw2 p) (hN : ∀ i p, 0 ≤ (bin i).norm p) (hv : ∀ i, 0 < (bin i).varnobs)
    (hβ0 : ∀ i p, 0 < (bin i).beta0 p) (grad hess : B → ℝ → ℝ) (i : B)
    (hex : ∃ q, ¬ (bin i).masked q ∧ (bin i).norm q ≠ 0) :
    ∃ thr, (bin i).thresholdChisq = some thr ∧
      ∀ p, 0 < (bin i).gammaBetaChisq (thr + Real.exp (newtonSolve grad hess i)) p := by
  classical
  obtain ⟨q, hq, hq0⟩ := hex
  obtain ⟨m, hm, -⟩ := minOver_le
    (fun p => if (bin i).masked p ∨ (bin i).norm p = 0 then none else some ((bin i).k p / (bin i).norm p)) q
    ((bin i).k q / (bin i).norm q) (by simp [hq, hq0])
  have hthr : (bin i).thresholdChisq = some ((bin i).nobs - (bin i).varnobs * m) := by
    unfold FullBin.thresholdChisq
    have : (FullBin.minOver fun p => if (bin i).masked p ∨ (bin i).norm p = 0 then none
        else some ((bin i).k p / (bin i).norm p)) = some m := by
      convert hm using 4
    rw [this]; rfl
  refine ⟨_, hthr, fun p => ?_⟩
  unfold FullBin.gammaBetaChisq
  split_ifs with h
  · exact hβ0 i p
  · exact div_pos (mul_pos ((bin i).k_pos (hs2 i) p) (hβ0 i p))
      (denChisq_pos (bin i) (hs2 i) (hN i) (hv i) _ hthr _ p h)

/-- C33: a point where all derivatives vanish is a fixed point of the whole iteration. -/
theorem c33_newton_fixed_point {B : Type*} (grad hess : B → ℝ → ℝ) (h0 : ∀ i, grad i 0 = 0) :
    newtonSolve grad hess = fun _ => 0 := by
  have hb : newtonBody grad hess (fun _ => 0) = fun _ => 0 := by
    funext i; simp [newtonBody, newtonStep, h0]
  have hl : newtonLoop grad hess 50 (fun _ => 0) = fun _ => 0 := by
    simp only [newtonLoop, hb, h0]
    rw [if_neg]
    push Not
    intro i; rw [h0]; norm_num
  funext i
  simp only [newtonSolve, hl, h0]; simp

/-- C33: the iteration makes steps of at most one unit, so at most 50 units plus the last step. -/
theorem c33_newton_step_bounded (g h : ℝ) : |newtonStep g h| ≤ 1 := by
  unfold newtonStep
  rw [abs_le]
  exact ⟨le_max_left _ _, max_le (by norm_num) (min_le_right _ _)⟩

/-! ### stationary points are global minima -/

/-- gamma constraints + any data term with a tangent at `M`, all β from one multiplier `φ` -/
private theorem gamma_full_step (U : Finset P) (f : ℝ → ℝ) (N k β0 β' β : P → ℝ) (N0 φ : ℝ)
    (hk : ∀ p ∈ U, 0 < k p) (hβ0 : ∀ p ∈ U, 0 < β0 p)
    (hden : ∀ p ∈ U, 0 < k p + φ * N p) (hβ' : ∀ p ∈ U, β' p = k p * β0 p / (k p + φ * N p))
    (hβ : ∀ p ∈ U, 0 < β p)
    (htan : f (N0 + ∑ p ∈ U, N p * β' p) + φ * ((N0 + ∑ p ∈ U, N p * β p) - (N0 + ∑ p ∈ U, N p * β' p))
      ≤ f (N0 + ∑ p ∈ U, N p * β p)) :
    f (N0 + ∑ p ∈ U, N p * β' p) + ∑ p ∈ U, Spec.constraintNll .gamma (k p) (β0 p) (β' p)
      ≤ f (N0 + ∑ p ∈ U, N p * β p) + ∑ p ∈ U, Spec.constraintNll .gamma (k p) (β0 p) (β p) ∧
    ((∃ p ∈ U, β p ≠ β' p) →
      f (N0 + ∑ p ∈ U, N p * β' p) + ∑ p ∈ U, Spec.constraintNll .gamma (k p) (β0 p) (β' p)
        < f (N0 + ∑ p ∈ U, N p * β p) + ∑ p ∈ U, Spec.constraintNll .gamma (k p) (β0 p) (β p)) := by
  have hβ'pos : ∀ p ∈ U, 0 < β' p := fun p hp => by
    rw [hβ' p hp]; exact div_pos (mul_pos (hk p hp) (hβ0 p hp)) (hden p hp)
  have hφ : φ * ((N0 + ∑ p ∈ U, N p * β p) - (N0 + ∑ p ∈ U, N p * β' p)) =
      ∑ p ∈ U, φ * N p * (β p - β' p) := by
    rw [add_sub_add_left_eq_sub, ← Finset.sum_sub_distrib, Finset.mul_sum]
    exact Finset.sum_congr rfl fun p _ => by ring
  have hg : ∀ p ∈ U, k p * (1 - β0 p / β' p) = -(φ * N p) := fun p hp => by
    have h1 := hk p hp; have h2 := hβ0 p hp; have h3 := hden p hp
    rw [hβ' p hp]
    have : β0 p / (k p * β0 p / (k p + φ * N p)) = (k p + φ * N p) / k p := by field_simp
    rw [this]; field_simp; ring
  have hs : ∀ p ∈ U, ∀ γ, lbeta .gamma False (k p) (β0 p) γ =
      Spec.constraintNll .gamma (k p) (β0 p) γ - Spec.constraintNll .gamma (k p) (β0 p) (β0 p) := by
    intro p _ γ; rw [lbeta_eq]; simp
  have hle : ∀ p ∈ U, Spec.constraintNll .gamma (k p) (β0 p) (β' p) - φ * N p * (β p - β' p)
      ≤ Spec.constraintNll .gamma (k p) (β0 p) (β p) := fun p hp => by
    have := gamma_tangent (m := False) (hk p hp) (hβ0 p hp).le (.inr (hβ p hp)) (.inr (hβ'pos p hp))
    rw [hs p hp, hs p hp, hg p hp] at this
    linarith
  have hsum : ∑ p ∈ U, (Spec.constraintNll .gamma (k p) (β0 p) (β' p) - φ * N p * (β p - β' p)) =
      ∑ p ∈ U, Spec.constraintNll .gamma (k p) (β0 p) (β' p) - ∑ p ∈ U, φ * N p * (β p - β' p) :=
    Finset.sum_sub_distrib _ _
  constructor
  · have := Finset.sum_le_sum hle
    rw [hsum] at this; rw [hφ] at htan; linarith
  · rintro ⟨p, hp, hne⟩
    have hlt : Spec.constraintNll .gamma (k p) (β0 p) (β' p) - φ * N p * (β p - β' p)
        < Spec.constraintNll .gamma (k p) (β0 p) (β p) := by
      have := gamma_tangent_strict (m := False) (hk p hp) (hβ0 p hp) (hβ p hp) (hβ'pos p hp) hne
      rw [hs p hp, hs p hp, hg p hp] at this
      linarith
    have := Finset.sum_lt_sum hle ⟨p, hp, hlt⟩
    rw [hsum] at this; rw [hφ] at htan; linarith

open Classical in
private theorem gamma_split (b : FullBin P) (β : P → ℝ) :
    Spec.fullMean .gamma b.norm b.sumw2 b.masked β =
      (∑ p, if b.masked p then b.norm p else 0) +
        ∑ p ∈ Finset.univ.filter (fun p => ¬ b.masked p), b.norm p * β p := by
  rw [Finset.sum_filter, ← Finset.sum_add_distrib]
  refine Finset.sum_congr rfl fun p _ => ?_
  by_cases h : b.masked p <;> simp [h, mul_comm]

open Classical in
private theorem gamma_constraint (b : FullBin P) (β : P → ℝ) :
    Spec.fullConstraint .gamma b.masked b.k b.beta0 β =
      ∑ p ∈ Finset.univ.filter (fun p => ¬ b.masked p), Spec.constraintNll .gamma (b.k p) (b.beta0 p) (β p) := by
  rw [Finset.sum_filter]
  refine Finset.sum_congr rfl fun p _ => ?_
  by_cases h : b.masked p <;> simp [h]

/-- derivative of the one-dimensional function in `x`: `(φ(M) - φ(x)) · dM/dx` -/
private theorem deriv_one_dim (U : Finset P) (f φ : ℝ → ℝ) (N k β0 : P → ℝ) (N0 x φ' fM : ℝ)
    (hk : ∀ p ∈ U, 0 < k p) (hβ0 : ∀ p ∈ U, 0 < β0 p) (hden : ∀ p ∈ U, 0 < k p + φ x * N p)
    (hφ : HasDerivAt φ φ' x)
    (hf : HasDerivAt f fM (N0 + ∑ p ∈ U, N p * (k p * β0 p / (k p + φ x * N p)))) :
    HasDerivAt (fun x => f (N0 + ∑ p ∈ U, N p * (k p * β0 p / (k p + φ x * N p))) +
        ∑ p ∈ U, (k p * (k p * β0 p / (k p + φ x * N p)) - k p * β0 p * Real.log (k p * β0 p / (k p + φ x * N p))))
      ((fM - φ x) * ∑ p ∈ U, -(N p ^ 2 * (k p * β0 p) * φ' / (k p + φ x * N p) ^ 2)) x := by
  have hβ : ∀ p ∈ U, HasDerivAt (fun x => k p * β0 p / (k p + φ x * N p))
      (-(k p * β0 p * (φ' * N p)) / (k p + φ x * N p) ^ 2) x := fun p hp => by
    have h1 : HasDerivAt (fun x => k p + φ x * N p) (φ' * N p) x := (hφ.mul_const (N p)).const_add (k p)
    have := (hasDerivAt_const x (k p * β0 p)).div h1 (hden p hp).ne'
    refine this.congr_deriv ?_; ring
  have hM : HasDerivAt (fun x => N0 + ∑ p ∈ U, N p * (k p * β0 p / (k p + φ x * N p)))
      (∑ p ∈ U, N p * (-(k p * β0 p * (φ' * N p)) / (k p + φ x * N p) ^ 2)) x := by
    refine HasDerivAt.const_add _ ?_
    exact HasDerivAt.fun_sum fun p hp => (hβ p hp).const_mul (N p)
  have hc : HasDerivAt (fun x => ∑ p ∈ U, (k p * (k p * β0 p / (k p + φ x * N p)) -
        k p * β0 p * Real.log (k p * β0 p / (k p + φ x * N p))))
      (∑ p ∈ U, (k p * (-(k p * β0 p * (φ' * N p)) / (k p + φ x * N p) ^ 2) -
        k p * β0 p * ((-(k p * β0 p * (φ' * N p)) / (k p + φ x * N p) ^ 2) / (k p * β0 p / (k p + φ x * N p))))) x := by
    refine HasDerivAt.fun_sum fun p hp => ?_
    have hb := hβ p hp
    have hpos : k p * β0 p / (k p + φ x * N p) ≠ 0 :=
      (div_pos (mul_pos (hk p hp) (hβ0 p hp)) (hden p hp)).ne'
    exact (hb.const_mul (k p)).sub ((hb.log hpos).const_mul (k p * β0 p))
  have := (hf.comp x hM).add hc
  refine this.congr_deriv ?_
  rw [Finset.mul_sum, Finset.mul_sum, ← Finset.sum_add_distrib]
  refine Finset.sum_congr rfl fun p hp => ?_
  have h1 := hk p hp; have h2 := hβ0 p hp; have h3 := hden p hp
  field_simp
  ring

private theorem stationary_phi (U : Finset P) (N k β0 : P → ℝ) (φx φ' fM : ℝ) (hφ' : 0 < φ')
    (hk : ∀ p ∈ U, 0 < k p) (hβ0 : ∀ p ∈ U, 0 < β0 p) (hden : ∀ p ∈ U, 0 < k p + φx * N p)
    (hex : ∃ p ∈ U, N p ≠ 0)
    (h : (fM - φx) * ∑ p ∈ U, -(N p ^ 2 * (k p * β0 p) * φ' / (k p + φx * N p) ^ 2) = 0) : fM = φx := by
  have hs : ∑ p ∈ U, -(N p ^ 2 * (k p * β0 p) * φ' / (k p + φx * N p) ^ 2) < 0 := by
    obtain ⟨q, hq, hqN⟩ := hex
    rw [Finset.sum_neg_distrib, neg_lt_zero]
    refine Finset.sum_pos' (fun p hp => ?_) ⟨q, hq, ?_⟩
    · have h1 := hk p hp; have h2 := hβ0 p hp; have h3 := hden p hp
      positivity
    · have h1 := hk q hq; have h2 := hβ0 q hq; have h3 := hden q hq
      positivity
  rcases mul_eq_zero.1 h with h1 | h1
  · linarith
  · exact absurd h1 hs.ne

/-- C33 (Poisson): if the Newton objective is stationary at `u` then the β read off there is the unique
global minimiser of the bin's likelihood over all positive β. -/
theorem c33_stationary_is_global_minimum_poisson (b : FullBin P) (hs2 : ∀ p, 0 ≤ b.sumw2 p)
    (hN : ∀ p, 0 ≤ b.norm p) (hn : 0 < b.nobs) (hβ0 : ∀ p, 0 < b.beta0 p)
    (hb : ∀ p, b.masked p → b.beta0 p = 1 ∨ b.norm p = 0)
    (hex : ∃ p, ¬ b.masked p ∧ 0 < b.norm p) (u : ℝ)
    (hstat : HasDerivAt b.newtonObjectivePoisson 0 u) (β : P → ℝ) (hβ : ∀ p, 0 < β p) :
    let β' := b.gammaBetaPoisson (b.thresholdPoisson + Real.exp u)
    Spec.fullNll .poisson .gamma b β' ≤ Spec.fullNll .poisson .gamma b β ∧
      (Spec.fullNll .poisson .gamma b β = Spec.fullNll .poisson .gamma b β' → ∀ p, ¬ b.masked p → β p = β' p) := by
  classical
  intro β'
  set U := Finset.univ.filter (fun p => ¬ b.masked p) with hU
  have hmem : ∀ p, p ∈ U ↔ ¬ b.masked p := fun p => by simp [hU]
  set x := b.thresholdPoisson + Real.exp u with hx
  have hxpos : 0 < x := by
    have := thresholdPoisson_nonneg b hs2 hN hn.le
    have := Real.exp_pos u
    positivity
  set φ : ℝ → ℝ := fun x => 1 - b.nobs / x with hφd
  have hkU : ∀ p ∈ U, 0 < b.k p := fun p _ => b.k_pos hs2 p
  have hβU : ∀ p ∈ U, 0 < b.beta0 p := fun p _ => hβ0 p
  have hden : ∀ v, ∀ p ∈ U, 0 < b.k p + φ (b.thresholdPoisson + Real.exp v) * b.norm p := fun v p hp => by
    have := denPoisson_pos b hs2 hN hn.le v p ((hmem p).1 hp); simp only [hφd]; linarith
  have hβ' : ∀ p ∈ U, β' p = b.k p * b.beta0 p / (b.k p + φ x * b.norm p) := fun p hp => by
    simp only [β', FullBin.gammaBetaPoisson, (hmem p).1 hp, if_false, hφd]; rw [add_comm]
  set N0 : ℝ := ∑ p, if b.masked p then b.norm p else 0 with hN0
  have hN0nn : 0 ≤ N0 := Finset.sum_nonneg fun p _ => by split_ifs; exacts [hN p, le_refl 0]
  -- the objective as a function of x
  have hobj : ∀ v, b.newtonObjectivePoisson v =
      (poissonBin b.nobs (N0 + ∑ p ∈ U, b.norm p * (b.k p * b.beta0 p / (b.k p + φ (b.thresholdPoisson + Real.exp v) * b.norm p))) +
        ∑ p ∈ U, (b.k p * (b.k p * b.beta0 p / (b.k p + φ (b.thresholdPoisson + Real.exp v) * b.norm p)) -
          b.k p * b.beta0 p * Real.log (b.k p * b.beta0 p / (b.k p + φ (b.thresholdPoisson + Real.exp v) * b.norm p))))
        - ∑ p ∈ U, (b.k p * b.beta0 p - b.k p * b.beta0 p * Real.log (b.beta0 p)) := by
    intro v
    have e1 : ∑ p, b.gammaBetaPoisson (b.thresholdPoisson + Real.exp v) p * b.norm p =
        N0 + ∑ p ∈ U, b.norm p * (b.k p * b.beta0 p / (b.k p + φ (b.thresholdPoisson + Real.exp v) * b.norm p)) := by
      rw [hU, Finset.sum_filter, hN0, ← Finset.sum_add_distrib]
      refine Finset.sum_congr rfl fun p _ => ?_
      by_cases hm : b.masked p
      · rcases hb p hm with h1 | h1 <;> simp [FullBin.gammaBetaPoisson, hm, h1]
      · simp only [FullBin.gammaBetaPoisson, hm, if_false, not_false_iff, if_true, hφd]
        rw [add_comm (b.k p)]; ring
    have e2 : ∑ p, lbeta .gamma (b.masked p) (b.k p) (b.beta0 p) (b.gammaBetaPoisson (b.thresholdPoisson + Real.exp v) p) =
        ∑ p ∈ U, (b.k p * (b.k p * b.beta0 p / (b.k p + φ (b.thresholdPoisson + Real.exp v) * b.norm p)) -
          b.k p * b.beta0 p * Real.log (b.k p * b.beta0 p / (b.k p + φ (b.thresholdPoisson + Real.exp v) * b.norm p)))
        - ∑ p ∈ U, (b.k p * b.beta0 p - b.k p * b.beta0 p * Real.log (b.beta0 p)) := by
      rw [← Finset.sum_sub_distrib, hU, Finset.sum_filter]
      refine Finset.sum_congr rfl fun p _ => ?_
      have h0 := (hβ0 p).ne'
      by_cases hm : b.masked p
      · simp [FullBin.gammaBetaPoisson, hm, lbeta]
      · simp only [lbeta, FullBin.gammaBetaPoisson, hm, if_false, h0, not_false_iff, if_true, hφd]
        rw [add_comm (b.k p) ((1 - _) * _)]; ring
    unfold FullBin.newtonObjectivePoisson; dsimp only
    rw [e1, e2]; ring
  have hφder : HasDerivAt φ (b.nobs / x ^ 2) x := by
    have := ((hasDerivAt_const x b.nobs).div (hasDerivAt_id x) hxpos.ne').const_sub 1
    refine this.congr_deriv ?_
    simp; ring
  have hM' : N0 + ∑ p ∈ U, b.norm p * (b.k p * b.beta0 p / (b.k p + φ x * b.norm p)) =
      Spec.fullMean .gamma b.norm b.sumw2 b.masked β' := by
    rw [gamma_split]
    congr 1
    exact Finset.sum_congr rfl fun p hp => by rw [hβ' p hp]
  set M := Spec.fullMean .gamma b.norm b.sumw2 b.masked β' with hMd
  have hMpos : 0 < M := by
    rw [← hM']
    refine add_pos_of_nonneg_of_pos hN0nn ?_
    obtain ⟨q, hq, hqN⟩ := hex
    refine Finset.sum_pos' (fun p hp => ?_) ⟨q, (hmem q).2 hq, ?_⟩
    · have h1 := hkU p hp; have h2 := hβU p hp; have h3 := hden u p hp; have := hN p
      positivity
    · have hp := (hmem q).2 hq
      have h1 := hkU q hp; have h2 := hβU q hp; have h3 := hden u q hp
      positivity
  have hfder : HasDerivAt (poissonBin b.nobs) (1 - b.nobs / M) M := by
    have h1 : (poissonBin b.nobs) = fun μ => μ - b.nobs * Real.log μ - (b.nobs - b.nobs * Real.log b.nobs) := by
      funext μ
      rw [poissonBin_eq_spec]
      simp [Verif.Spec.halfDeviance, Verif.Spec.poissonNll, hn.ne']
    rw [h1]
    have := ((hasDerivAt_id M).sub ((Real.hasDerivAt_log hMpos.ne').const_mul b.nobs)).sub_const
      (b.nobs - b.nobs * Real.log b.nobs)
    refine this.congr_deriv ?_
    rw [div_eq_mul_inv]
  have hF := deriv_one_dim U (poissonBin b.nobs) φ b.norm b.k b.beta0 N0 x (b.nobs / x ^ 2) (1 - b.nobs / M)
    hkU hβU (hden u) hφder (by rw [hM']; exact hfder)
  have hxu : HasDerivAt (fun v => b.thresholdPoisson + Real.exp v) (Real.exp u) u :=
    (Real.hasDerivAt_exp u).const_add _
  have hcomp := (hF.comp u hxu).sub_const
    (∑ p ∈ U, (b.k p * b.beta0 p - b.k p * b.beta0 p * Real.log (b.beta0 p)))
  have hsame : b.newtonObjectivePoisson = fun v =>
      ((fun x => poissonBin b.nobs (N0 + ∑ p ∈ U, b.norm p * (b.k p * b.beta0 p / (b.k p + φ x * b.norm p))) +
        ∑ p ∈ U, (b.k p * (b.k p * b.beta0 p / (b.k p + φ x * b.norm p)) -
          b.k p * b.beta0 p * Real.log (b.k p * b.beta0 p / (b.k p + φ x * b.norm p)))) ∘
        fun v => b.thresholdPoisson + Real.exp v) v
        - ∑ p ∈ U, (b.k p * b.beta0 p - b.k p * b.beta0 p * Real.log (b.beta0 p)) := funext hobj
  rw [← hsame] at hcomp
  have hzero := hcomp.unique hstat
  have hzero' : ((1 - b.nobs / M) - φ x) *
      ∑ p ∈ U, -(b.norm p ^ 2 * (b.k p * b.beta0 p) * (b.nobs / x ^ 2) / (b.k p + φ x * b.norm p) ^ 2) = 0 := by
    have he := (Real.exp_pos u).ne'
    rcases mul_eq_zero.1 hzero with h | h
    · exact h
    · exact absurd h he
  have hphi : 1 - b.nobs / M = φ x := by
    refine stationary_phi U b.norm b.k b.beta0 (φ x) (b.nobs / x ^ 2) _ (by positivity) hkU hβU (hden u) ?_ hzero'
    obtain ⟨q, hq, hqN⟩ := hex
    exact ⟨q, (hmem q).2 hq, hqN.ne'⟩
  -- global minimum
  have hspl := gamma_split b
  have hμ : 0 < Spec.fullMean .gamma b.norm b.sumw2 b.masked β := by
    rw [hspl]
    refine add_pos_of_nonneg_of_pos hN0nn ?_
    obtain ⟨q, hq, hqN⟩ := hex
    refine Finset.sum_pos' (fun p _ => mul_nonneg (hN p) (hβ p).le) ⟨q, (hmem q).2 hq, mul_pos hqN (hβ q)⟩
  have htan : Verif.Spec.poissonNll b.nobs (N0 + ∑ p ∈ U, b.norm p * β' p)
      + φ x * ((N0 + ∑ p ∈ U, b.norm p * β p) - (N0 + ∑ p ∈ U, b.norm p * β' p))
      ≤ Verif.Spec.poissonNll b.nobs (N0 + ∑ p ∈ U, b.norm p * β p) := by
    rw [← hspl, ← hspl, ← hMd, ← hphi]
    have := poisson_tangent (n := b.nobs) (μ := Spec.fullMean .gamma b.norm b.sumw2 b.masked β) (ν := M)
      hn.le (.inr hμ) (.inr hMpos)
    rw [poissonBin_eq_spec, poissonBin_eq_spec] at this
    simp only [Verif.Spec.halfDeviance] at this
    linarith
  have hfin := gamma_full_step U (Verif.Spec.poissonNll b.nobs) b.norm b.k b.beta0 β' β N0 (φ x) hkU hβU (hden u) hβ'
    (fun p _ => hβ p) htan
  rw [← hspl, ← hspl, ← gamma_constraint, ← gamma_constraint] at hfin
  refine ⟨hfin.1, fun he p hp => ?_⟩
  by_contra hne
  exact absurd he (ne_of_gt (hfin.2 ⟨p, (hmem p).2 hp, hne⟩))

/-- C33 (Poisson, empty bin): no iteration is needed, every `u` gives the unique minimiser. -/
theorem c33_empty_bin_minimises (b : FullBin P) (hs2 : ∀ p, 0 ≤ b.sumw2 p)
    (hN : ∀ p, 0 ≤ b.norm p) (hn : b.nobs = 0) (hβ0 : ∀ p, 0 < b.beta0 p) (u : ℝ)
    (β : P → ℝ) (hβ : ∀ p, 0 < β p) :
    let β' := b.gammaBetaPoisson (b.thresholdPoisson + Real.exp u)
    Spec.fullNll .poisson .gamma b β' ≤ Spec.fullNll .poisson .gamma b β ∧
      (Spec.fullNll .poisson .gamma b β = Spec.fullNll .poisson .gamma b β' → ∀ p, ¬ b.masked p → β p = β' p) := by
  classical
  intro β'
  set U := Finset.univ.filter (fun p => ¬ b.masked p) with hU
  have hmem : ∀ p, p ∈ U ↔ ¬ b.masked p := fun p => by simp [hU]
  have hspl := gamma_split b
  have hfin := gamma_full_step U (Verif.Spec.poissonNll b.nobs) b.norm b.k b.beta0 β' β
    (∑ p, if b.masked p then b.norm p else 0) 1 (fun p _ => b.k_pos hs2 p) (fun p _ => hβ0 p)
    (fun p _ => by have := b.k_pos hs2 p; have := hN p; positivity)
    (fun p hp => by
      simp only [β', FullBin.gammaBetaPoisson, (hmem p).1 hp, if_false, hn, zero_div, sub_zero]
      rw [add_comm])
    (fun p _ => hβ p) (by simp only [Verif.Spec.poissonNll, hn, if_true]; linarith)
  rw [← hspl, ← hspl, ← gamma_constraint, ← gamma_constraint] at hfin
  refine ⟨hfin.1, fun he p hp => ?_⟩
  by_contra hne
  exact absurd he (ne_of_gt (hfin.2 ⟨p, (hmem p).2 hp, hne⟩))

/-- C33 (chi-square): a stationary point of the Newton objective is the unique global minimiser. -/
theorem c33_stationary_is_global_minimum_chisq (b : FullBin P) (hs2 : ∀ p, 0 ≤ b.sumw2 p)
    (hN : ∀ p, 0 ≤ b.norm p) (hv : 0 < b.varnobs) (hβ0 : ∀ p, 0 < b.beta0 p)
    (hb : ∀ p, b.masked p → b.beta0 p = 1 ∨ b.norm p = 0)
    (hex : ∃ p, ¬ b.masked p ∧ 0 < b.norm p) (thr : ℝ) (hthr : b.thresholdChisq = some thr) (u : ℝ)
    (hstat : HasDerivAt (b.newtonObjectiveChisq thr) 0 u) (β : P → ℝ) (hβ : ∀ p, 0 < β p) :
    let β' := b.gammaBetaChisq (thr + Real.exp u)
    Spec.fullNll .chisq .gamma b β' ≤ Spec.fullNll .chisq .gamma b β ∧
      (Spec.fullNll .chisq .gamma b β = Spec.fullNll .chisq .gamma b β' → ∀ p, ¬ b.masked p → β p = β' p) := by
  classical
  intro β'
  set U := Finset.univ.filter (fun p => ¬ b.masked p) with hU
  have hmem : ∀ p, p ∈ U ↔ ¬ b.masked p := fun p => by simp [hU]
  set x := thr + Real.exp u with hx
  set φ : ℝ → ℝ := fun x => (x - b.nobs) / b.varnobs with hφd
  have hkU : ∀ p ∈ U, 0 < b.k p := fun p _ => b.k_pos hs2 p
  have hβU : ∀ p ∈ U, 0 < b.beta0 p := fun p _ => hβ0 p
  have hden : ∀ v, ∀ p ∈ U, 0 < b.k p + φ (thr + Real.exp v) * b.norm p := fun v p hp =>
    denChisq_pos b hs2 hN hv thr hthr v p ((hmem p).1 hp)
  have hβ' : ∀ p ∈ U, β' p = b.k p * b.beta0 p / (b.k p + φ x * b.norm p) := fun p hp => by
    simp only [β', FullBin.gammaBetaChisq, (hmem p).1 hp, if_false, hφd, hx]
  set N0 : ℝ := ∑ p, if b.masked p then b.norm p else 0 with hN0
  set f : ℝ → ℝ := fun μ => 1 / 2 * (μ - b.nobs) ^ 2 / b.varnobs with hf
  have hobj : ∀ v, b.newtonObjectiveChisq thr v =
      (f (N0 + ∑ p ∈ U, b.norm p * (b.k p * b.beta0 p / (b.k p + φ (thr + Real.exp v) * b.norm p))) +
        ∑ p ∈ U, (b.k p * (b.k p * b.beta0 p / (b.k p + φ (thr + Real.exp v) * b.norm p)) -
          b.k p * b.beta0 p * Real.log (b.k p * b.beta0 p / (b.k p + φ (thr + Real.exp v) * b.norm p))))
        - ∑ p ∈ U, (b.k p * b.beta0 p - b.k p * b.beta0 p * Real.log (b.beta0 p)) := by
    intro v
    have e1 : ∑ p, b.gammaBetaChisq (thr + Real.exp v) p * b.norm p =
        N0 + ∑ p ∈ U, b.norm p * (b.k p * b.beta0 p / (b.k p + φ (thr + Real.exp v) * b.norm p)) := by
      rw [hU, Finset.sum_filter, hN0, ← Finset.sum_add_distrib]
      refine Finset.sum_congr rfl fun p _ => ?_
      by_cases hm : b.masked p
      · rcases hb p hm with h1 | h1 <;> simp [FullBin.gammaBetaChisq, hm, h1]
      · simp only [FullBin.gammaBetaChisq, hm, if_false, not_false_iff, if_true, hφd]
        ring
    have e2 : ∑ p, lbeta .gamma (b.masked p) (b.k p) (b.beta0 p) (b.gammaBetaChisq (thr + Real.exp v) p) =
        ∑ p ∈ U, (b.k p * (b.k p * b.beta0 p / (b.k p + φ (thr + Real.exp v) * b.norm p)) -
          b.k p * b.beta0 p * Real.log (b.k p * b.beta0 p / (b.k p + φ (thr + Real.exp v) * b.norm p)))
        - ∑ p ∈ U, (b.k p * b.beta0 p - b.k p * b.beta0 p * Real.log (b.beta0 p)) := by
      rw [← Finset.sum_sub_distrib, hU, Finset.sum_filter]
      refine Finset.sum_congr rfl fun p _ => ?_
      have h0 := (hβ0 p).ne'
      by_cases hm : b.masked p
      · simp [FullBin.gammaBetaChisq, hm, lbeta]
      · simp only [lbeta, FullBin.gammaBetaChisq, hm, if_false, h0, not_false_iff, if_true, hφd]
        ring
    unfold FullBin.newtonObjectiveChisq; dsimp only
    rw [e1, e2]; simp only [hf]; ring
  have hφder : HasDerivAt φ (1 / b.varnobs) x := ((hasDerivAt_id x).sub_const b.nobs).div_const b.varnobs
  have hM' : N0 + ∑ p ∈ U, b.norm p * (b.k p * b.beta0 p / (b.k p + φ x * b.norm p)) =
      Spec.fullMean .gamma b.norm b.sumw2 b.masked β' := by
    rw [gamma_split]
    congr 1
    exact Finset.sum_congr rfl fun p hp => by rw [hβ' p hp]
  set M := Spec.fullMean .gamma b.norm b.sumw2 b.masked β' with hMd
  have hfder : HasDerivAt f ((M - b.nobs) / b.varnobs) M := by
    have := ((((hasDerivAt_id M).sub_const b.nobs).pow 2).const_mul (1 / 2)).div_const b.varnobs
    refine this.congr_deriv ?_
    simp
  have hF := deriv_one_dim U f φ b.norm b.k b.beta0 N0 x (1 / b.varnobs) ((M - b.nobs) / b.varnobs)
    hkU hβU (hden u) hφder (by rw [hM']; exact hfder)
  have hxu : HasDerivAt (fun v => thr + Real.exp v) (Real.exp u) u := (Real.hasDerivAt_exp u).const_add _
  have hcomp := (hF.comp u hxu).sub_const
    (∑ p ∈ U, (b.k p * b.beta0 p - b.k p * b.beta0 p * Real.log (b.beta0 p)))
  have hsame : b.newtonObjectiveChisq thr = fun v =>
      ((fun x => f (N0 + ∑ p ∈ U, b.norm p * (b.k p * b.beta0 p / (b.k p + φ x * b.norm p))) +
        ∑ p ∈ U, (b.k p * (b.k p * b.beta0 p / (b.k p + φ x * b.norm p)) -
          b.k p * b.beta0 p * Real.log (b.k p * b.beta0 p / (b.k p + φ x * b.norm p)))) ∘
        fun v => thr + Real.exp v) v
        - ∑ p ∈ U, (b.k p * b.beta0 p - b.k p * b.beta0 p * Real.log (b.beta0 p)) := funext hobj
  rw [← hsame] at hcomp
  have hzero := hcomp.unique hstat
  have hzero' : ((M - b.nobs) / b.varnobs - φ x) *
      ∑ p ∈ U, -(b.norm p ^ 2 * (b.k p * b.beta0 p) * (1 / b.varnobs) / (b.k p + φ x * b.norm p) ^ 2) = 0 := by
    have he := (Real.exp_pos u).ne'
    rcases mul_eq_zero.1 hzero with h | h
    · exact h
    · exact absurd h he
  have hphi : (M - b.nobs) / b.varnobs = φ x := by
    refine stationary_phi U b.norm b.k b.beta0 (φ x) (1 / b.varnobs) _ (by positivity) hkU hβU (hden u) ?_ hzero'
    obtain ⟨q, hq, hqN⟩ := hex
    exact ⟨q, (hmem q).2 hq, hqN.ne'⟩
  have hspl := gamma_split b
  have hfd : ∀ μ, Spec.dataNll .chisq b.nobs b.varnobs μ = 1 / 2 * ((μ - b.nobs) ^ 2 / b.varnobs) := by
    intro μ; simp only [Spec.dataNll]; field_simp
  have htan : Spec.dataNll .chisq b.nobs b.varnobs (N0 + ∑ p ∈ U, b.norm p * β' p)
      + φ x * ((N0 + ∑ p ∈ U, b.norm p * β p) - (N0 + ∑ p ∈ U, b.norm p * β' p))
      ≤ Spec.dataNll .chisq b.nobs b.varnobs (N0 + ∑ p ∈ U, b.norm p * β p) := by
    rw [← hspl, ← hspl, ← hMd, ← hphi, hfd, hfd]
    have := chisq_tangent b.varnobs b.nobs (Spec.fullMean .gamma b.norm b.sumw2 b.masked β) M hv
    have h2 : 0 ≤ 1 / 2 * ((Spec.fullMean .gamma b.norm b.sumw2 b.masked β - M) ^ 2 / b.varnobs) := by positivity
    linarith
  have hfin := gamma_full_step U (Spec.dataNll .chisq b.nobs b.varnobs) b.norm b.k b.beta0 β' β N0 (φ x) hkU hβU (hden u) hβ'
    (fun p _ => hβ p) htan
  rw [← hspl, ← hspl, ← gamma_constraint, ← gamma_constraint] at hfin
  unfold Spec.fullNll
  refine ⟨hfin.1, fun he p hp => ?_⟩
  by_contra hne
  exact absurd he (ne_of_gt (hfin.2 ⟨p, (hmem p).2 hp, hne⟩))

/-- the example bin of C32 satisfies the hypotheses above -/
example : (∀ p, 0 ≤ exampleFullBin.sumw2 p) ∧ (∀ p, 0 ≤ exampleFullBin.norm p) ∧ 0 < exampleFullBin.nobs ∧
    0 < exampleFullBin.varnobs ∧
    (∀ p, 0 < exampleFullBin.beta0 p) ∧ (∃ p, ¬ exampleFullBin.masked p ∧ 0 < exampleFullBin.norm p) := by
  refine ⟨?_, ?_, ?_, ?_, ?_, 0, exampleFullBin_unmasked 0, ?_⟩
  · intro p; fin_cases p <;> simp [exampleFullBin]
  · intro p; fin_cases p <;> simp [exampleFullBin]
  · norm_num [exampleFullBin]
  · norm_num [exampleFullBin]
  · intro p; fin_cases p <;> simp [exampleFullBin]
  · norm_num [exampleFullBin]

/-- C33 (non-vacuity of the stationarity hypothesis): a one-process bin whose observation equals its
expectation has its stationary point at `u = log (x - threshold)` with `x` the expectation, and β = 1. -/
example : ∃ (b : FullBin (Fin 1)) (u : ℝ), 0 < b.nobs ∧ (∀ p, ¬ b.masked p) ∧ (∀ p, 0 < b.norm p) ∧
    b.gammaBetaPoisson (b.thresholdPoisson + Real.exp u) = fun _ => 1 := by
  classical
  let b : FullBin (Fin 1) := ⟨![4], ![4], ![4], 4, 4, ![1], 0⟩
  have hm : ∀ p, ¬ b.masked p := by
    intro p; fin_cases p; simp [FullBin.masked, betamask, b]
  have hk : b.k 0 = 4 := by
    have hm0 : ¬ betamask b.minK (b.sumw 0) (b.sumw2 0) := hm 0
    unfold FullBin.k kstat; rw [if_neg hm0]; norm_num [b]
  have e : b.norm 0 = 4 := by simp [b]
  have hthr : b.thresholdPoisson = 2 := by
    have : (FullBin.minOver fun p => if b.masked p ∨ b.norm p = 0 then none else some (1 + b.k p / b.norm p)) = some 2 := by
      have h0 : (FullBin.minOver fun p => if b.masked p ∨ b.norm p = 0 then none else some (1 + b.k p / b.norm p)) =
          FullBin.minOver fun _ : Fin 1 => some (2 : ℝ) := by
        congr 1; funext p; fin_cases p
        simp only [hm, Fin.zero_eta, Fin.isValue, e, hk, false_or]
        norm_num
      rw [h0]
      simp [FullBin.minOver, Finset.univ_unique]
    unfold FullBin.thresholdPoisson
    rw [this]; norm_num [b]
  refine ⟨b, Real.log 2, by norm_num [b], hm, by intro p; fin_cases p; simp [b], ?_⟩
  funext p; fin_cases p
  rw [hthr, Real.exp_log (by norm_num)]
  simp only [FullBin.gammaBetaPoisson, hm, if_false, Fin.zero_eta, Fin.isValue, hk, e]
  norm_num [b]

end

end Verif.BBB
