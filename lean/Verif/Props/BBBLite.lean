import Verif.Lemmas.BBB

/-!
C29 (gamma, lite), C30 (Gaussian, lite), C31 (chi-square): the closed forms of the profiled β are the
exact minimisers of the bin's likelihood, at every parameter point.
C34: entries without template statistics are left unchanged.
-/

namespace Verif.BBB

noncomputable section

variable {P : Type*} [Fintype P]

/-! ### Specification, independent of the model's closed forms -/

/-- expected yield of the bin when the templates are shifted by β -/
def Spec.liteMean (kind : Kind) (norm sumw2 : P → ℝ) (β : ℝ) : ℝ :=
  match kind with
  | .gamma | .normMult => ∑ p, (if sumw2 p = 0 then 1 else β) * norm p
  | .normAdd => (∑ p, norm p) + √(∑ p, sumw2 p) * β

/-- minus log-likelihood of the observation -/
def Spec.dataNll (fit : Fit) (n v μ : ℝ) : ℝ :=
  match fit with
  | .poisson => Verif.Spec.poissonNll n μ
  | .chisq => (μ - n) ^ 2 / (2 * v)
  | .covariance => 0

/-- minus log-likelihood of the auxiliary measurement `β0` of β -/
def Spec.constraintNll (kind : Kind) (k β0 β : ℝ) : ℝ :=
  match kind with
  | .gamma => if β0 = 0 then k * β else k * β - k * β0 * Real.log β
  | .normMult => k * (β - β0) ^ 2 / 2
  | .normAdd => (β - β0) ^ 2 / 2

/-- admissible β: the expectation must be able to produce the observation, and a gamma-distributed β
cannot be negative -/
def Spec.Admissible (fit : Fit) (kind : Kind) (n β0 μ β : ℝ) : Prop :=
  (fit = .poisson → 0 < μ ∨ (n = 0 ∧ 0 ≤ μ)) ∧ (kind = .gamma → 0 < β ∨ (β0 = 0 ∧ 0 ≤ β))

/-- total for one bin -/
def Spec.liteNll (fit : Fit) (kind : Kind) (norm sumw2 : P → ℝ) (n v k β0 β : ℝ) : ℝ :=
  Spec.dataNll fit n v (Spec.liteMean kind norm sumw2 β) + Spec.constraintNll kind k β0 β

/-- number of equivalent unweighted events of the bin -/
def Spec.neff (sumw sumw2 : P → ℝ) : ℝ := (∑ p, if sumw2 p = 0 then 0 else sumw p) ^ 2 / ∑ p, sumw2 p

/-! ### Tie of the code's objective to the specification -/

theorem dataTerm_eq (fit : Fit) (n v μ : ℝ) :
    dataTerm fit n v μ = Spec.dataNll fit n v μ - (if fit = .poisson then Verif.Spec.poissonNll n n else 0) := by
  cases fit
  · simp [dataTerm, Spec.dataNll, poissonBin_eq_spec, Verif.Spec.halfDeviance]
  · simp [dataTerm, Spec.dataNll]; ring
  · simp [dataTerm, Spec.dataNll]

theorem lbeta_eq (kind : Kind) (k β0 β : ℝ) :
    lbeta kind False k β0 β = Spec.constraintNll kind k β0 β - (if kind = .gamma then Spec.constraintNll kind k β0 β0 else 0) := by
  cases kind
  · by_cases h : β0 = 0
    · simp [lbeta, Spec.constraintNll, h]
    · simp only [lbeta, Spec.constraintNll, h, if_false, if_true]; ring
  · simp [lbeta, Spec.constraintNll]; ring
  · simp [lbeta, Spec.constraintNll]; ring

theorem mean_mult (b : LiteBin P) {kind : Kind} (hk : kind = .gamma ∨ kind = .normMult) (β : ℝ) :
    Spec.liteMean kind b.norm b.sumw2 β = b.nActive * β + b.nZero := by
  have : Spec.liteMean kind b.norm b.sumw2 β = ∑ p, (if b.sumw2 p = 0 then 1 else β) * b.norm p := by
    rcases hk with rfl | rfl <;> rfl
  rw [this]
  unfold LiteBin.nActive LiteBin.nZero
  rw [Finset.sum_mul, ← Finset.sum_add_distrib]
  refine Finset.sum_congr rfl fun p _ => ?_
  split_ifs <;> ring

theorem mean_add (b : LiteBin P) (β : ℝ) :
    Spec.liteMean .normAdd b.norm b.sumw2 β = b.nexp + √b.varbeta * β := rfl

/-- C29/C30/C31: the objective of the code, as a function of β in an unmasked bin with an active yield,
is the specified likelihood up to a constant: all differences agree. -/
theorem c29_objective_is_likelihood (b : LiteBin P) (fit : Fit) (kind : Kind) (hm : ¬ b.masked)
    (hA : 0 < b.nActive) (β β' : ℝ) :
    b.objective fit kind β - b.objective fit kind β' =
      Spec.liteNll fit kind b.norm b.sumw2 b.nobs b.varnobs b.k b.beta0 β -
      Spec.liteNll fit kind b.norm b.sumw2 b.nobs b.varnobs b.k b.beta0 β' := by
  have happ : ∀ β, b.applied kind β = Spec.liteMean kind b.norm b.sumw2 β := by
    intro β
    cases kind
    · rw [b.applied_mult (.inl rfl) hm, mean_mult b (.inl rfl)]
    · rw [b.applied_mult (.inr rfl) hm, mean_mult b (.inr rfl)]
    · rw [b.applied_add hA, mean_add]
  have hmf : b.masked = False := by simpa using hm
  unfold LiteBin.objective Spec.liteNll
  rw [hmf, happ, happ, dataTerm_eq, dataTerm_eq, lbeta_eq, lbeta_eq]
  ring

/-- C29: the strength of the constraint is the number of equivalent events of the templates. -/
theorem c29_constraint_strength (b : LiteBin P) (hm : ¬ b.masked) : b.k = Spec.neff b.sumw b.sumw2 := by
  have hm' : ¬ betamask b.minK (liteSumw b.sumw b.sumw2) (liteVar b.sumw2) := hm
  unfold LiteBin.k kstat
  rw [if_neg hm']
  rfl

/-! ### Scalar minimisation lemmas -/

private theorem pg_slope {A Z k n β0 : ℝ} (hA : 0 < A) (hZ : 0 ≤ Z) (hk : 0 < k) (hn : 0 ≤ n) (h0 : 0 ≤ β0)
    (x : ℝ) (hx : x = solveQuadEq (A * (A + k)) (A * (Z - n - β0 * k) + k * Z) (-β0 * k * Z)) :
    (0 < A * x + Z ∨ (n = 0 ∧ 0 ≤ A * x + Z)) ∧ (0 < x ∨ (β0 = 0 ∧ 0 ≤ x)) ∧
    ∀ β, (0 < β ∨ (β0 = 0 ∧ 0 ≤ β)) → 0 ≤ (A * (1 - n / (A * x + Z)) + k * (1 - β0 / x)) * (β - x) := by
  have ha : 0 < A * (A + k) := by positivity
  have hy0 : A * (A + k) * 0 ^ 2 + (A * (Z - n - β0 * k) + k * Z) * 0 + -β0 * k * Z ≤ 0 := by
    have : 0 ≤ β0 * k * Z := by positivity
    nlinarith
  have hroot := solveQuadEq_root ha (disc_nonneg_of_le ha hy0)
  have hle : 0 ≤ x := by rw [hx]; exact le_solveQuadEq ha hy0
  rw [← hx] at hroot
  have key : A * x * (A * x + Z - n) + k * (A * x + Z) * (x - β0) = 0 := by linarith
  -- positivity of x when β0 > 0 or (n > 0 and Z = 0)
  have hxpos : 0 < β0 → 0 < x := by
    intro hb
    rcases eq_or_lt_of_le hZ with hz | hz
    · subst hz
      have : (n + β0 * k) / (A + k) ≤ x := by
        rw [hx]; refine le_solveQuadEq ha (le_of_eq ?_); field_simp; ring
      exact lt_of_lt_of_le (by positivity) this
    · rw [hx]; refine lt_solveQuadEq ha ?_
      have : 0 < β0 * k * Z := by positivity
      nlinarith
  have hmu : 0 < A * x + Z ∨ (n = 0 ∧ 0 ≤ A * x + Z) := by
    rcases eq_or_lt_of_le hn with h | h
    · right; exact ⟨h.symm, by positivity⟩
    · left
      rcases eq_or_lt_of_le hZ with hz | hz
      · have hxp : 0 < x := by
          have : (n + β0 * k) / (A + k) ≤ x := by
            rw [hx]; refine le_solveQuadEq ha (le_of_eq ?_); rw [← hz]; field_simp; ring
          exact lt_of_lt_of_le (by positivity) this
        positivity
      · positivity
  refine ⟨hmu, ?_, ?_⟩
  · rcases eq_or_lt_of_le h0 with h | h
    · exact .inr ⟨h.symm, hle⟩
    · exact .inl (hxpos h)
  · intro β hβ
    rcases eq_or_lt_of_le hle with hx0 | hx0
    · -- x = 0, hence β0 = 0
      have hb0 : β0 = 0 := by
        by_contra hne
        exact absurd (hxpos (lt_of_le_of_ne h0 (Ne.symm hne))) (by rw [← hx0]; exact lt_irrefl _)
      have hβ' : 0 ≤ β := by rcases hβ with h | h; exacts [h.le, h.2]
      have hb : 0 ≤ A * (Z - n - β0 * k) + k * Z := by
        by_contra hneg
        push Not at hneg
        have : -(A * (Z - n - β0 * k) + k * Z) / (A * (A + k)) ≤ x := by
          rw [hx]; refine le_solveQuadEq ha (le_of_eq ?_)
          rw [hb0]; field_simp; ring
        have h2 : 0 < -(A * (Z - n - β0 * k) + k * Z) / (A * (A + k)) := by
          apply div_pos _ ha; linarith
        linarith
      refine mul_nonneg ?_ (by rw [← hx0]; linarith)
      rw [← hx0] at hmu
      rw [hb0] at hb
      rw [← hx0, hb0]
      rcases hmu with h | ⟨h, h'⟩
      · have hz : 0 < Z := by simpa using h
        have : A * (1 - n / (A * 0 + Z)) + k * (1 - 0 / 0) = (A * (Z - n) + k * Z) / Z := by
          simp; field_simp
        rw [this]; apply div_nonneg _ hz.le; linarith
      · rw [h]; simp; positivity
    · have hd : A * (1 - n / (A * x + Z)) + k * (1 - β0 / x) = 0 := by
        rcases hmu with h | ⟨h, h'⟩
        · field_simp; linarith
        · subst h
          have hmu' : 0 < A * x + Z := by positivity
          field_simp; linarith
      rw [hd]; simp

/-- sum of a data tangent and a constraint tangent with non-negative total slope -/
private theorem add_tangent {f₁ f₀ g₁ g₀ D₁ D₂ δ m : ℝ} (h1 : f₀ + D₁ * m * δ ≤ f₁) (h2 : g₀ + D₂ * δ ≤ g₁)
    (h : 0 ≤ (m * D₁ + D₂) * δ) : f₀ + g₀ ≤ f₁ + g₁ := by nlinarith

/-! ### C29: gamma, lite, Poisson -/

/-- C29: in every bin with template statistics the closed-form β is admissible and minimises the bin's
Poisson ⊗ gamma likelihood over all admissible β; for a positive auxiliary measurement it is the only
minimiser. -/
theorem c29_gamma_lite_poisson_minimises (b : LiteBin P) (hm : ¬ b.masked) (hs2 : ∀ p, 0 ≤ b.sumw2 p)
    (hA : 0 < b.nActive) (hZ : 0 ≤ b.nZero) (hn : 0 ≤ b.nobs) (h0 : 0 ≤ b.beta0) :
    let β' := b.profile .poisson .gamma
    let mean := Spec.liteMean .gamma b.norm b.sumw2
    let nll := Spec.liteNll .poisson .gamma b.norm b.sumw2 b.nobs b.varnobs b.k b.beta0
    Spec.Admissible .poisson .gamma b.nobs b.beta0 (mean β') β' ∧
    (∀ β, Spec.Admissible .poisson .gamma b.nobs b.beta0 (mean β) β → nll β' ≤ nll β) ∧
    (0 < b.beta0 → ∀ β, Spec.Admissible .poisson .gamma b.nobs b.beta0 (mean β) β → nll β = nll β' → β = β') := by
  intro β' mean nll
  have hk := b.k_pos hs2
  have hx : β' = solveQuadEq (b.nActive * (b.nActive + b.k))
      (b.nActive * (b.nZero - b.nobs - b.beta0 * b.k) + b.k * b.nZero) (-b.beta0 * b.k * b.nZero) := by
    simp only [β', LiteBin.profile, hm, if_false, LiteBin.nActiveSafe, hA, if_true]
  obtain ⟨hmu, hpos, hslope⟩ := pg_slope hA hZ hk hn h0 β' hx
  have hmean : ∀ β, mean β = b.nActive * β + b.nZero := mean_mult b (.inl rfl)
  have hdiff : ∀ β, nll β - nll β' =
      (poissonBin b.nobs (b.nActive * β + b.nZero) - poissonBin b.nobs (b.nActive * β' + b.nZero)) +
      (lbeta .gamma False b.k b.beta0 β - lbeta .gamma False b.k b.beta0 β') := by
    intro β
    have h1 := dataTerm_eq .poisson b.nobs b.varnobs (mean β)
    have h2 := dataTerm_eq .poisson b.nobs b.varnobs (mean β')
    have h3 := lbeta_eq .gamma b.k b.beta0 β
    have h4 := lbeta_eq .gamma b.k b.beta0 β'
    simp only [dataTerm, hmean] at h1 h2
    rw [h1, h2, h3, h4]
    simp only [nll, Spec.liteNll]
    rw [show Spec.liteMean .gamma b.norm b.sumw2 β = mean β from rfl,
      show Spec.liteMean .gamma b.norm b.sumw2 β' = mean β' from rfl, hmean, hmean]
    ring
  have hν : b.nobs = 0 ∨ 0 < b.nActive * β' + b.nZero := by
    rcases hmu with h | h; exacts [.inr h, .inl h.1]
  have hγ : b.beta0 = 0 ∨ 0 < β' := by rcases hpos with h | h; exacts [.inr h, .inl h.1]
  refine ⟨⟨fun _ => by rw [hmean]; exact hmu, fun _ => hpos⟩, ?_, ?_⟩
  · intro β ⟨hd, hg⟩
    have hd := hd rfl
    have hg := hg rfl
    rw [hmean] at hd
    have t1 := poisson_tangent (μ := b.nActive * β + b.nZero) hn
      (by rcases hd with h | h; exacts [.inr h, .inl h.1]) hν
    have t2 := gamma_tangent (m := False) (β := β) hk h0 (by rcases hg with h | h; exacts [.inr h, .inl h.1]) hγ
    have t3 := hslope β hg
    have := hdiff β
    have e : (1 - b.nobs / (b.nActive * β' + b.nZero)) * (b.nActive * β + b.nZero - (b.nActive * β' + b.nZero))
        = b.nActive * (1 - b.nobs / (b.nActive * β' + b.nZero)) * (β - β') := by ring
    rw [e] at t1
    nlinarith
  · intro hb β ⟨hd, hg⟩ heq
    by_contra hne
    have hd := hd rfl
    have hg := hg rfl
    rw [hmean] at hd
    have hgp : 0 < β := by rcases hg with h | h; exacts [h, absurd h.1 hb.ne']
    have t1 := poisson_tangent (μ := b.nActive * β + b.nZero) hn
      (by rcases hd with h | h; exacts [.inr h, .inl h.1]) hν
    have t2 := gamma_tangent_strict (m := False) hk hb hgp (hγ.resolve_left hb.ne') hne
    have t3 := hslope β hg
    have := hdiff β
    have e : (1 - b.nobs / (b.nActive * β' + b.nZero)) * (b.nActive * β + b.nZero - (b.nActive * β' + b.nZero))
        = b.nActive * (1 - b.nobs / (b.nActive * β' + b.nZero)) * (β - β') := by ring
    rw [e] at t1
    nlinarith

/-- C29: without zero-variance processes the closed form is the familiar weighted mean. -/
theorem c29_gamma_lite_closed_form (b : LiteBin P) (hm : ¬ b.masked) (hs2 : ∀ p, 0 ≤ b.sumw2 p)
    (hA : 0 < b.nActive) (hZ : b.nZero = 0) (hn : 0 ≤ b.nobs) (h0 : 0 ≤ b.beta0) :
    b.profile .poisson .gamma = (b.nobs + b.k * b.beta0) / (b.nActive + b.k) := by
  have hk := b.k_pos hs2
  simp only [LiteBin.profile, hm, if_false, LiteBin.nActiveSafe, hA, if_true, hZ, solveQuadEq]
  have hnn : 0 ≤ b.nActive * (b.nobs + b.beta0 * b.k) := by positivity
  rw [show (b.nActive * (0 - b.nobs - b.beta0 * b.k) + b.k * 0) ^ 2 -
      4 * (b.nActive * (b.nActive + b.k)) * (-b.beta0 * b.k * 0) = (b.nActive * (b.nobs + b.beta0 * b.k)) ^ 2 by ring,
    Real.sqrt_sq hnn]
  field_simp
  ring

/-- C29 (what does not hold): when the processes with template statistics have no yield at the current
parameter point (`n_active = 0` while the stored templates are not empty, e.g. a signal scaled to zero
next to a background without variance) the code profiles with `n_active_safe = 1`: the β it returns is
not the minimiser; β0 is strictly better. -/
theorem c29_inactive_bin_violated :
    ∃ b : LiteBin (Fin 2), ¬ b.masked ∧ (∀ p, 0 ≤ b.sumw2 p) ∧ b.nActive = 0 ∧ 0 < b.nZero ∧ 0 < b.nobs ∧
      Spec.Admissible .poisson .gamma b.nobs b.beta0 (Spec.liteMean .gamma b.norm b.sumw2 b.beta0) b.beta0 ∧
      b.objective .poisson .gamma b.beta0 < b.objective .poisson .gamma (b.profile .poisson .gamma) := by
  let b : LiteBin (Fin 2) := ⟨![1, 1], ![1, 0], ![0, 1], 3, 3, 1, 0⟩
  have hA : b.nActive = 0 := by simp [LiteBin.nActive, b, Fin.sum_univ_two]
  have hZ : b.nZero = 1 := by simp [LiteBin.nZero, b, Fin.sum_univ_two]
  have hm : ¬ b.masked := by
    simp [LiteBin.masked, betamask, liteVar, liteSumw, b, Fin.sum_univ_two]
  have hk : b.k = 1 := by
    rw [c29_constraint_strength b hm]; simp [Spec.neff, b, Fin.sum_univ_two]
  have hmu : ∀ β, b.applied .gamma β = 1 := by
    intro β; rw [b.applied_mult (.inl rfl) hm, hA, hZ]; simp
  have hp : b.profile .poisson .gamma = 1 / 2 * (2 + √12) / 2 := by
    simp only [LiteBin.profile, hm, if_false, LiteBin.nActiveSafe, hA, hZ, hk, solveQuadEq]
    norm_num [b]
  refine ⟨b, hm, ?_, hA, by rw [hZ]; norm_num, by norm_num [b], ?_, ?_⟩
  · intro p; fin_cases p <;> simp [b]
  · refine ⟨fun _ => .inl ?_, fun _ => .inl (by norm_num [b])⟩
    rw [mean_mult b (.inl rfl), hA, hZ]; norm_num
  · unfold LiteBin.objective
    rw [hmu, hmu]
    refine add_lt_add_right ?_ _
    rw [show b.beta0 = 1 from rfl, hk, hp]
    have h12 : (3 : ℝ) < √12 := by rw [Real.lt_sqrt] <;> norm_num
    have hγ : (1 : ℝ) < 1 / 2 * (2 + √12) / 2 := by linarith
    have := gamma_tangent_strict (m := b.masked) (k := 1) (β0 := 1) (γ := 1) (β := 1 / 2 * (2 + √12) / 2)
      one_pos one_pos (by linarith) one_pos hγ.ne'
    simpa using this

/-! ### C30: Gaussian constraints, lite, Poisson -/

private theorem pm_slope {A Z k n β0 : ℝ} (hA : 0 < A) (hk : 0 < k) (hn : 0 ≤ n)
    (x : ℝ) (hx : x = solveQuadEq (k * A) (A ^ 2 - k * β0 * A + k * Z) (A * (Z - n) - k * β0 * Z)) :
    (0 < A * x + Z ∨ (n = 0 ∧ 0 ≤ A * x + Z)) ∧
    ∀ β, (0 < A * β + Z ∨ (n = 0 ∧ 0 ≤ A * β + Z)) →
      0 ≤ (A * (1 - n / (A * x + Z)) + k * (x - β0)) * (β - x) := by
  have ha : 0 < k * A := by positivity
  have hy0 : k * A * (-Z / A) ^ 2 + (A ^ 2 - k * β0 * A + k * Z) * (-Z / A) + (A * (Z - n) - k * β0 * Z) = -(n * A) := by
    field_simp; ring
  have hy0' : k * A * (-Z / A) ^ 2 + (A ^ 2 - k * β0 * A + k * Z) * (-Z / A) + (A * (Z - n) - k * β0 * Z) ≤ 0 := by
    rw [hy0]; have : 0 ≤ n * A := by positivity
    linarith
  have hroot := solveQuadEq_root ha (disc_nonneg_of_le ha hy0')
  rw [← hx] at hroot
  have key : (A + k * (x - β0)) * (A * x + Z) = n * A := by linarith
  rcases eq_or_lt_of_le hn with h | h
  · subst h
    have hle : -Z / A ≤ x := by rw [hx]; exact le_solveQuadEq ha hy0'
    have hmu : 0 ≤ A * x + Z := by
      rw [div_le_iff₀ hA] at hle; linarith
    refine ⟨.inr ⟨rfl, hmu⟩, ?_⟩
    intro β hβ
    have hβ : 0 ≤ A * β + Z := by rcases hβ with h | h; exacts [h.le, h.2]
    have h2 : β0 - A / k ≤ x := by
      rw [hx]; refine le_solveQuadEq ha (le_of_eq ?_); field_simp; ring
    rcases eq_or_lt_of_le hmu with hz | hz
    · refine mul_nonneg ?_ ?_
      · have : k * (β0 - A / k) ≤ k * x := mul_le_mul_of_nonneg_left h2 hk.le
        have e : k * (β0 - A / k) = k * β0 - A := by field_simp
        simp; linarith
      · by_contra hneg
        push Not at hneg
        nlinarith
    · have : A + k * (x - β0) = 0 := by
        rcases mul_eq_zero.1 (by rw [key]; ring : (A + k * (x - β0)) * (A * x + Z) = 0) with h | h
        · exact h
        · exact absurd h hz.ne'
      simp [this]
  · have hlt : -Z / A < x := by
      rw [hx]; refine lt_solveQuadEq ha ?_
      rw [hy0]; have : 0 < n * A := by positivity
      linarith
    have hmu : 0 < A * x + Z := by rw [div_lt_iff₀ hA] at hlt; linarith
    refine ⟨.inl hmu, ?_⟩
    intro β _
    have : A * (1 - n / (A * x + Z)) + k * (x - β0) = 0 := by field_simp; linarith
    rw [this]; simp

/-- Common shape of C30: for a Gaussian constraint the closed form is the unique minimiser. -/
private theorem gauss_min {A Z k n β0 x : ℝ} (hn : 0 ≤ n) (hk : 0 < k)
    (hmu : 0 < A * x + Z ∨ (n = 0 ∧ 0 ≤ A * x + Z))
    (β : ℝ) (hβ : 0 < A * β + Z ∨ (n = 0 ∧ 0 ≤ A * β + Z))
    (hs : 0 ≤ (A * (1 - n / (A * x + Z)) + k * (x - β0)) * (β - x)) :
    poissonBin n (A * x + Z) + 1 / 2 * (x - β0) ^ 2 * k + 1 / 2 * k * (β - x) ^ 2
      ≤ poissonBin n (A * β + Z) + 1 / 2 * (β - β0) ^ 2 * k := by
  have t1 := poisson_tangent (μ := A * β + Z) (ν := A * x + Z) hn
    (by rcases hβ with h | h; exacts [.inr h, .inl h.1]) (by rcases hmu with h | h; exacts [.inr h, .inl h.1])
  have t2 := gauss_tangent k β0 β x
  have e : (1 - n / (A * x + Z)) * (A * β + Z - (A * x + Z)) = A * (1 - n / (A * x + Z)) * (β - x) := by ring
  rw [e] at t1
  nlinarith

/-- C30: multiplicative Gaussian β, Poisson data: the closed form is admissible and is the unique
minimiser of the bin's likelihood over all admissible β (every yield sign the data allows). -/
theorem c30_normal_mult_lite_poisson_minimises (b : LiteBin P) (hm : ¬ b.masked) (hs2 : ∀ p, 0 ≤ b.sumw2 p)
    (hA : 0 < b.nActive) (hn : 0 ≤ b.nobs) :
    let β' := b.profile .poisson .normMult
    let mean := Spec.liteMean .normMult b.norm b.sumw2
    let nll := Spec.liteNll .poisson .normMult b.norm b.sumw2 b.nobs b.varnobs b.k b.beta0
    Spec.Admissible .poisson .normMult b.nobs b.beta0 (mean β') β' ∧
    (∀ β, Spec.Admissible .poisson .normMult b.nobs b.beta0 (mean β) β →
      nll β' ≤ nll β ∧ (nll β = nll β' → β = β')) := by
  intro β' mean nll
  have hk := b.k_pos hs2
  have hx : β' = solveQuadEq (b.k * b.nActive)
      (b.nActive ^ 2 - b.k * b.beta0 * b.nActive + b.k * b.nZero)
      (b.nActive * (b.nZero - b.nobs) - b.k * b.beta0 * b.nZero) := by
    simp only [β', LiteBin.profile, hm, if_false, LiteBin.nActiveSafe, hA, if_true]
  obtain ⟨hmu, hslope⟩ := pm_slope hA hk hn β' hx
  have hmean : ∀ β, mean β = b.nActive * β + b.nZero := mean_mult b (.inr rfl)
  have hnll : ∀ β, nll β = poissonBin b.nobs (b.nActive * β + b.nZero) + Verif.Spec.poissonNll b.nobs b.nobs
      + 1 / 2 * (β - b.beta0) ^ 2 * b.k := by
    intro β
    simp only [nll, Spec.liteNll]
    rw [show Spec.liteMean .normMult b.norm b.sumw2 β = mean β from rfl, hmean, poissonBin_eq_spec]
    simp only [Spec.dataNll, Spec.constraintNll, Verif.Spec.halfDeviance]; ring
  refine ⟨⟨fun _ => by rw [hmean]; exact hmu, fun h => by cases h⟩, ?_⟩
  intro β ⟨hd, _⟩
  have hd := hd rfl
  rw [hmean] at hd
  have := gauss_min hn hk hmu β hd (hslope β hd)
  rw [hnll, hnll]
  constructor
  · nlinarith [sq_nonneg (β - β')]
  · intro he
    have : 1 / 2 * b.k * (β - β') ^ 2 ≤ 0 := by linarith
    have h2 : (β - β') ^ 2 = 0 := by nlinarith [sq_nonneg (β - β')]
    nlinarith [pow_eq_zero_iff (two_ne_zero) |>.1 h2]

/-- C30: additive Gaussian β, Poisson data. -/
theorem c30_normal_add_lite_poisson_minimises (b : LiteBin P) (hs2 : ∀ p, 0 ≤ b.sumw2 p)
    (hn : 0 ≤ b.nobs) (hv : b.varbeta ≠ 0) :
    let β' := b.profile .poisson .normAdd
    let mean := Spec.liteMean .normAdd b.norm b.sumw2
    let nll := Spec.liteNll .poisson .normAdd b.norm b.sumw2 b.nobs b.varnobs b.k b.beta0
    Spec.Admissible .poisson .normAdd b.nobs b.beta0 (mean β') β' ∧
    (∀ β, Spec.Admissible .poisson .normAdd b.nobs b.beta0 (mean β) β →
      nll β' ≤ nll β ∧ (nll β = nll β' → β = β')) := by
  intro β' mean nll
  have hvp : 0 < b.varbeta := lt_of_le_of_ne (b.varbeta_nonneg hs2) (Ne.symm hv)
  have hs : 0 < √b.varbeta := Real.sqrt_pos.2 hvp
  have hss : √b.varbeta ^ 2 = b.varbeta := Real.sq_sqrt hvp.le
  have hx : β' = solveQuadEq (1 * √b.varbeta)
      (√b.varbeta ^ 2 - 1 * b.beta0 * √b.varbeta + 1 * b.nexp)
      (√b.varbeta * (b.nexp - b.nobs) - 1 * b.beta0 * b.nexp) := by
    simp only [β', LiteBin.profile, hv, if_false]
    rw [hss]; congr 1 <;> ring
  obtain ⟨hmu, hslope⟩ := pm_slope hs one_pos hn β' hx
  have hmean : ∀ β, mean β = √b.varbeta * β + b.nexp := by intro β; rw [add_comm]; exact mean_add b β
  have hnll : ∀ β, nll β = poissonBin b.nobs (√b.varbeta * β + b.nexp) + Verif.Spec.poissonNll b.nobs b.nobs
      + 1 / 2 * (β - b.beta0) ^ 2 * 1 := by
    intro β
    simp only [nll, Spec.liteNll]
    rw [show Spec.liteMean .normAdd b.norm b.sumw2 β = mean β from rfl, hmean, poissonBin_eq_spec]
    simp only [Spec.dataNll, Spec.constraintNll, Verif.Spec.halfDeviance]; ring
  refine ⟨⟨fun _ => by rw [hmean]; exact hmu, fun h => by cases h⟩, ?_⟩
  intro β ⟨hd, _⟩
  have hd := hd rfl
  rw [hmean] at hd
  have := gauss_min hn one_pos hmu β hd (hslope β hd)
  rw [hnll, hnll]
  constructor
  · nlinarith [sq_nonneg (β - β')]
  · intro he
    have h2 : (β - β') ^ 2 = 0 := by nlinarith [sq_nonneg (β - β')]
    nlinarith [pow_eq_zero_iff (two_ne_zero) |>.1 h2]

/-- C30 (what does not hold): with the additive type and no active yield the shift `√var·β` is profiled
but cannot be distributed over the processes: the yield that enters the likelihood ignores β, so the
returned β pays a constraint penalty for nothing. -/
theorem c30_inactive_bin_violated :
    ∃ b : LiteBin (Fin 2), (∀ p, 0 ≤ b.sumw2 p) ∧ b.varbeta ≠ 0 ∧ b.nActive = 0 ∧ 0 < b.nobs ∧ 0 < b.nexp ∧
      b.applied .normAdd (b.profile .poisson .normAdd) ≠
        Spec.liteMean .normAdd b.norm b.sumw2 (b.profile .poisson .normAdd) ∧
      b.objective .poisson .normAdd b.beta0 < b.objective .poisson .normAdd (b.profile .poisson .normAdd) := by
  let b : LiteBin (Fin 2) := ⟨![1, 1], ![1, 0], ![0, 1], 3, 3, 0, 0⟩
  have hA : b.nActive = 0 := by simp [LiteBin.nActive, b, Fin.sum_univ_two]
  have hN : b.nexp = 1 := by simp [LiteBin.nexp, b, Fin.sum_univ_two]
  have hV : b.varbeta = 1 := by simp [LiteBin.varbeta, liteVar, b, Fin.sum_univ_two]
  have hmu : ∀ β, b.applied .normAdd β = 1 := by
    intro β; simp [LiteBin.applied, LiteBin.apply, hA, b, Fin.sum_univ_two]
  have h12 : (3 : ℝ) < √12 := by rw [Real.lt_sqrt] <;> norm_num
  have hp : b.profile .poisson .normAdd = 1 / 2 * (-2 + √12) := by
    simp only [LiteBin.profile, hV, hN, solveQuadEq]
    norm_num [b]
  refine ⟨b, ?_, by rw [hV]; norm_num, hA, by norm_num [b], by rw [hN]; norm_num, ?_, ?_⟩
  · intro p; fin_cases p <;> simp [b]
  · rw [hmu, mean_add, hN, hV, hp]
    intro h
    simp at h
    linarith
  · unfold LiteBin.objective
    rw [hmu, hmu]
    refine add_lt_add_right ?_ _
    rw [show b.beta0 = 0 from rfl, hp]
    simp only [lbeta]
    nlinarith

/-! ### C31: chi-square data term -/

private theorem cg_slope {A Z k n v β0 : ℝ} (hA : 0 < A) (hk : 0 < k) (hv : 0 < v) (h0 : 0 ≤ β0)
    (x : ℝ) (hx : x = solveQuadEq (A ^ 2) (k * v + (Z - n) * A) (-k * v * β0)) :
    (0 < x ∨ (β0 = 0 ∧ 0 ≤ x)) ∧
    ∀ β, (0 < β ∨ (β0 = 0 ∧ 0 ≤ β)) → 0 ≤ (A * ((A * x + Z - n) / v) + k * (1 - β0 / x)) * (β - x) := by
  have ha : 0 < A ^ 2 := by positivity
  have hkv : 0 < k * v := by positivity
  have hy0 : A ^ 2 * 0 ^ 2 + (k * v + (Z - n) * A) * 0 + -k * v * β0 ≤ 0 := by
    have : 0 ≤ k * v * β0 := by positivity
    nlinarith
  have hroot := solveQuadEq_root ha (disc_nonneg_of_le ha hy0)
  have hle : 0 ≤ x := by rw [hx]; exact le_solveQuadEq ha hy0
  rw [← hx] at hroot
  have hxpos : 0 < β0 → 0 < x := by
    intro hb
    rw [hx]; refine lt_solveQuadEq ha ?_
    have : 0 < k * v * β0 := by positivity
    nlinarith
  have hpos : 0 < x ∨ (β0 = 0 ∧ 0 ≤ x) := by
    rcases eq_or_lt_of_le h0 with h | h
    · exact .inr ⟨h.symm, hle⟩
    · exact .inl (hxpos h)
  refine ⟨hpos, ?_⟩
  intro β hβ
  rcases eq_or_lt_of_le hle with hx0 | hx0
  · have hb0 : β0 = 0 := by
      by_contra hne
      exact absurd (hxpos (lt_of_le_of_ne h0 (Ne.symm hne))) (by rw [← hx0]; exact lt_irrefl _)
    have hβ' : 0 ≤ β := by rcases hβ with h | h; exacts [h.le, h.2]
    have hb : 0 ≤ k * v + (Z - n) * A := by
      by_contra hneg
      push Not at hneg
      have : -(k * v + (Z - n) * A) / A ^ 2 ≤ x := by
        rw [hx]; refine le_solveQuadEq ha (le_of_eq ?_)
        rw [hb0]; field_simp; ring
      have h2 : 0 < -(k * v + (Z - n) * A) / A ^ 2 := by apply div_pos _ ha; linarith
      linarith
    refine mul_nonneg ?_ (by rw [← hx0]; linarith)
    rw [← hx0, hb0]
    have : A * ((A * 0 + Z - n) / v) + k * (1 - 0 / 0) = (k * v + (Z - n) * A) / v := by
      simp; field_simp; ring
    rw [this]; exact div_nonneg hb hv.le
  · have : A * ((A * x + Z - n) / v) + k * (1 - β0 / x) = 0 := by
      field_simp; nlinarith
    rw [this]; simp

/-- C31: gamma β with a chi-square data term. -/
theorem c31_gamma_lite_chisq_minimises (b : LiteBin P) (hm : ¬ b.masked) (hs2 : ∀ p, 0 ≤ b.sumw2 p)
    (hA : 0 < b.nActive) (hv : 0 < b.varnobs) (h0 : 0 ≤ b.beta0) :
    let β' := b.profile .chisq .gamma
    let nll := Spec.liteNll .chisq .gamma b.norm b.sumw2 b.nobs b.varnobs b.k b.beta0
    (0 < β' ∨ (b.beta0 = 0 ∧ 0 ≤ β')) ∧
    (∀ β, (0 < β ∨ (b.beta0 = 0 ∧ 0 ≤ β)) → nll β' ≤ nll β ∧ (nll β = nll β' → β = β')) := by
  intro β' nll
  have hk := b.k_pos hs2
  have hx : β' = solveQuadEq (b.nActive ^ 2) (b.k * b.varnobs + (b.nZero - b.nobs) * b.nActive)
      (-b.k * b.varnobs * b.beta0) := by
    simp only [β', LiteBin.profile, hm, if_false, LiteBin.nActiveSafe, hA, if_true]
  obtain ⟨hpos, hslope⟩ := cg_slope hA hk hv h0 β' hx
  have hγ : b.beta0 = 0 ∨ 0 < β' := by rcases hpos with h | h; exacts [.inr h, .inl h.1]
  refine ⟨hpos, ?_⟩
  intro β hβ
  have hmean := mean_mult b (kind := .gamma) (.inl rfl)
  have hdiff : nll β - nll β' =
      (1 / 2 * ((b.nActive * β + b.nZero - b.nobs) ^ 2 / b.varnobs)
        - 1 / 2 * ((b.nActive * β' + b.nZero - b.nobs) ^ 2 / b.varnobs)) +
      (lbeta .gamma False b.k b.beta0 β - lbeta .gamma False b.k b.beta0 β') := by
    rw [lbeta_eq, lbeta_eq]
    simp only [nll, Spec.liteNll, hmean, Spec.dataNll]
    ring
  have t1 := chisq_tangent b.varnobs b.nobs (b.nActive * β + b.nZero) (b.nActive * β' + b.nZero) hv
  have t2 := gamma_tangent (m := False) (β := β) hk h0 (by rcases hβ with h | h; exacts [.inr h, .inl h.1]) hγ
  have t3 := hslope β hβ
  have e : (b.nActive * β' + b.nZero - b.nobs) / b.varnobs * (b.nActive * β + b.nZero - (b.nActive * β' + b.nZero))
      = b.nActive * ((b.nActive * β' + b.nZero - b.nobs) / b.varnobs) * (β - β') := by ring
  have e2 : (b.nActive * β + b.nZero - (b.nActive * β' + b.nZero)) ^ 2 / b.varnobs
      = b.nActive ^ 2 / b.varnobs * (β - β') ^ 2 := by ring
  rw [e, e2] at t1
  have hc : 0 < b.nActive ^ 2 / b.varnobs := by positivity
  have hgap : 1 / 2 * (b.nActive ^ 2 / b.varnobs * (β - β') ^ 2) ≤ nll β - nll β' := by
    rw [hdiff]; nlinarith
  constructor
  · have : 0 ≤ b.nActive ^ 2 / b.varnobs * (β - β') ^ 2 := by positivity
    linarith
  · intro he
    have h1 : b.nActive ^ 2 / b.varnobs * (β - β') ^ 2 ≤ 0 := by linarith
    have h2 : (β - β') ^ 2 = 0 := by
      by_contra hne
      have : 0 < (β - β') ^ 2 := lt_of_le_of_ne (sq_nonneg _) (Ne.symm hne)
      have := mul_pos hc this
      linarith
    nlinarith [pow_eq_zero_iff (two_ne_zero) |>.1 h2]

/-- C31: multiplicative Gaussian β with a chi-square data term (no restriction on β). -/
theorem c31_normal_mult_lite_chisq_minimises (b : LiteBin P) (hm : ¬ b.masked) (hs2 : ∀ p, 0 ≤ b.sumw2 p)
    (hA : 0 < b.nActive) (hv : 0 < b.varnobs) (β : ℝ) :
    let β' := b.profile .chisq .normMult
    let nll := Spec.liteNll .chisq .normMult b.norm b.sumw2 b.nobs b.varnobs b.k b.beta0
    nll β' ≤ nll β ∧ (nll β = nll β' → β = β') := by
  intro β' nll
  have hk := b.k_pos hs2
  have hx : β' = ((b.nobs - b.nZero) * b.nActive / b.varnobs + b.k * b.beta0)
      / (b.k + b.nActive * b.nActive / b.varnobs) := by
    simp only [β', LiteBin.profile, hm, if_false, LiteBin.nActiveSafe, hA, if_true]
  have hden : 0 < b.k + b.nActive * b.nActive / b.varnobs := by positivity
  have hst : (b.nActive * β' + b.nZero - b.nobs) * b.nActive / b.varnobs + b.k * (β' - b.beta0) = 0 := by
    have : β' * (b.k + b.nActive * b.nActive / b.varnobs) = (b.nobs - b.nZero) * b.nActive / b.varnobs + b.k * b.beta0 := by
      rw [hx]; field_simp
    have e : (b.nActive * β' + b.nZero - b.nobs) * b.nActive / b.varnobs + b.k * (β' - b.beta0)
        = β' * (b.k + b.nActive * b.nActive / b.varnobs) - ((b.nobs - b.nZero) * b.nActive / b.varnobs + b.k * b.beta0) := by ring
    rw [e, this]; ring
  have hmean := mean_mult b (kind := .normMult) (.inr rfl)
  have hdiff : nll β - nll β' = 1 / 2 * (b.k + b.nActive * b.nActive / b.varnobs) * (β - β') ^ 2 := by
    have t1 := chisq_tangent b.varnobs b.nobs (b.nActive * β + b.nZero) (b.nActive * β' + b.nZero) hv
    have t2 := gauss_tangent b.k b.beta0 β β'
    have : nll β - nll β' = ((b.nActive * β' + b.nZero - b.nobs) * b.nActive / b.varnobs + b.k * (β' - b.beta0)) * (β - β')
        + 1 / 2 * (b.k + b.nActive * b.nActive / b.varnobs) * (β - β') ^ 2 := by
      simp only [nll, Spec.liteNll, hmean, Spec.dataNll, Spec.constraintNll]
      field_simp; ring
    rw [this, hst]; ring
  constructor
  · have : 0 ≤ 1 / 2 * (b.k + b.nActive * b.nActive / b.varnobs) * (β - β') ^ 2 := by positivity
    linarith
  · intro he
    rw [he, sub_self] at hdiff
    have h2 : (β - β') ^ 2 = 0 := by
      rcases mul_eq_zero.1 hdiff.symm with h | h
      · exact absurd h (by positivity)
      · exact h
    nlinarith [pow_eq_zero_iff (two_ne_zero) |>.1 h2]

/-- C31: additive Gaussian β with a chi-square data term, in every bin (also without variance). -/
theorem c31_normal_add_lite_chisq_minimises (b : LiteBin P) (hs2 : ∀ p, 0 ≤ b.sumw2 p)
    (hv : 0 < b.varnobs) (β : ℝ) :
    let β' := b.profile .chisq .normAdd
    let nll := Spec.liteNll .chisq .normAdd b.norm b.sumw2 b.nobs b.varnobs b.k b.beta0
    nll β' ≤ nll β ∧ (nll β = nll β' → β = β') := by
  intro β' nll
  have hvb := b.varbeta_nonneg hs2
  have hss : √b.varbeta ^ 2 = b.varbeta := Real.sq_sqrt hvb
  have hx : β' = (√b.varbeta * (b.nobs - b.nexp) + b.varnobs * b.beta0) / (b.varnobs + b.varbeta) := by
    simp only [β', LiteBin.profile]
  have hden : 0 < b.varnobs + b.varbeta := by positivity
  have hst : (b.nexp + √b.varbeta * β' - b.nobs) * √b.varbeta + b.varnobs * (β' - b.beta0) = 0 := by
    have h1 : β' * (b.varnobs + b.varbeta) = √b.varbeta * (b.nobs - b.nexp) + b.varnobs * b.beta0 := by
      rw [hx]; field_simp
    have e : (b.nexp + √b.varbeta * β' - b.nobs) * √b.varbeta + b.varnobs * (β' - b.beta0)
        = β' * (b.varnobs + √b.varbeta ^ 2) - (√b.varbeta * (b.nobs - b.nexp) + b.varnobs * b.beta0) := by ring
    rw [e, hss, h1]; ring
  have hdiff : nll β - nll β' = 1 / 2 * ((b.varnobs + b.varbeta) / b.varnobs) * (β - β') ^ 2 := by
    have : nll β - nll β' = ((b.nexp + √b.varbeta * β' - b.nobs) * √b.varbeta + b.varnobs * (β' - b.beta0)) * (β - β') / b.varnobs
        + 1 / 2 * ((b.varnobs + √b.varbeta ^ 2) / b.varnobs) * (β - β') ^ 2 := by
      simp only [nll, Spec.liteNll, mean_add, Spec.dataNll, Spec.constraintNll]
      field_simp; ring
    rw [this, hst, hss]; ring
  constructor
  · have : 0 ≤ 1 / 2 * ((b.varnobs + b.varbeta) / b.varnobs) * (β - β') ^ 2 := by positivity
    linarith
  · intro he
    rw [he, sub_self] at hdiff
    have h2 : (β - β') ^ 2 = 0 := by
      rcases mul_eq_zero.1 hdiff.symm with h | h
      · exact absurd h (by positivity)
      · exact h
    nlinarith [pow_eq_zero_iff (two_ne_zero) |>.1 h2]

/-- A bin with two processes, one of them without template statistics: it satisfies all hypotheses of
C29, C30 and C31. -/
def exampleBin : LiteBin (Fin 2) := ⟨![10, 2], ![5, 0], ![12, 2], 9, 9, 1, 0⟩

example : ¬ exampleBin.masked ∧ (∀ p, 0 ≤ exampleBin.sumw2 p) ∧ 0 < exampleBin.nActive ∧
    0 ≤ exampleBin.nZero ∧ 0 ≤ exampleBin.nobs ∧ 0 < exampleBin.varnobs ∧ 0 < exampleBin.beta0 ∧
    exampleBin.varbeta ≠ 0 := by
  refine ⟨?_, ?_, ?_, ?_, ?_, ?_, ?_, ?_⟩
  · simp [LiteBin.masked, betamask, liteVar, liteSumw, exampleBin, Fin.sum_univ_two]
  · intro p; fin_cases p <;> simp [exampleBin]
  · simp [LiteBin.nActive, exampleBin, Fin.sum_univ_two]
  · simp [LiteBin.nZero, exampleBin, Fin.sum_univ_two]
  all_goals norm_num [exampleBin, LiteBin.varbeta, liteVar, Fin.sum_univ_two]

/-! ### C34 -/

/-- C34 (lite): in a masked bin the multiplicative types return β0 and leave every process yield
unchanged whatever β is; processes without variance are unchanged in every bin. -/
theorem c34_lite_untouched (b : LiteBin P) (kind : Kind) (hk : kind = .gamma ∨ kind = .normMult) (β : ℝ) :
    (b.masked → b.apply kind β = b.norm ∧
      b.profile .poisson kind = b.beta0 ∧ b.profile .chisq kind = b.beta0 ∧
      lbeta kind b.masked b.k b.beta0 b.beta0 = 0) ∧
    (∀ p, b.sumw2 p = 0 → b.apply kind β p = b.norm p) := by
  constructor
  · intro hm
    rcases hk with rfl | rfl
    · exact ⟨by funext p; simp [LiteBin.apply, hm], by simp [LiteBin.profile, hm], by simp [LiteBin.profile, hm],
        by simp [lbeta]⟩
    · exact ⟨by funext p; simp [LiteBin.apply, hm], by simp [LiteBin.profile, hm], by simp [LiteBin.profile, hm],
        by simp [lbeta]⟩
  · intro p hp
    rcases hk with rfl | rfl <;> simp [LiteBin.apply, hp]

/-- C34 (lite, additive): processes without variance are unchanged; a bin without any variance is
unchanged, keeps β0 and costs nothing. -/
theorem c34_lite_untouched_additive (b : LiteBin P) (β : ℝ) :
    (∀ p, b.sumw2 p = 0 → b.apply .normAdd β p = b.norm p) ∧
    (b.varbeta = 0 → b.apply .normAdd β = b.norm ∧ b.profile .poisson .normAdd = b.beta0 ∧
      lbeta .normAdd b.masked b.k b.beta0 b.beta0 = 0 ∧
      (0 < b.varnobs → b.profile .chisq .normAdd = b.beta0)) := by
  constructor
  · intro p hp; simp [LiteBin.apply, hp]
  · intro hv
    refine ⟨by funext p; simp [LiteBin.apply, hv], by simp [LiteBin.profile, hv], by simp [lbeta], ?_⟩
    intro hvar
    simp only [LiteBin.profile, hv]; simp [hvar.ne']

/-- C34: exactly the bins with no summed variance, no summed weight, or an effective count below the
requested minimum are masked. -/
theorem c34_mask_iff (b : LiteBin P) :
    b.masked ↔ (∑ p, b.sumw2 p) = 0 ∨ (∑ p, if b.sumw2 p = 0 then 0 else b.sumw p) = 0 ∨
      (0 < b.minK ∧ Spec.neff b.sumw b.sumw2 < b.minK) := by
  unfold LiteBin.masked betamask Spec.neff liteVar liteSumw
  by_cases h1 : (∑ p, b.sumw2 p) = 0
  · simp [h1]
  · by_cases h2 : (∑ p, if b.sumw2 p = 0 then 0 else b.sumw p) = 0
    · simp [h2]
    · simp [h1, h2]

end

end Verif.BBB
