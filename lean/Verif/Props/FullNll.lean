import Verif.Model.FullNll
import Verif.Props.Likelihood

/-
C20, whole likelihood: what `--fullNll` reports against what is minimised.
-/

namespace Verif.FullNll

open Verif.BBB MeasureTheory

variable {ι κ : Type*} [Fintype ι] [Fintype κ] {N P : ℕ}

/-- Configurations of the bin-by-bin uncertainties for which the full likelihood exists and is right up to a
constant: none, or the gamma type with positive auxiliary observations, or the additive type with one entry per bin
or with two processes. -/
def Spec.supported (bb : Option (Beta N P)) : Prop :=
  ∀ b, bb = some b →
    (b.kind = .gamma ∧ ∀ i p, 0 < b.k i p ∧ 0 < b.beta0 i p) ∨
      (b.kind = .normAdd ∧ (b.mode = .lite ∨ P = 2))

theorem gamma_offset (k beta0 beta beta' : ℝ) (m m' : Prop) :
    lbetaGammaFull k beta0 beta - lbeta .gamma m k beta0 beta =
      lbetaGammaFull k beta0 beta' - lbeta .gamma m' k beta0 beta' := by
  unfold lbetaGammaFull lbeta
  by_cases h : beta0 = 0
  · simp [h]
  · simp only [h, if_false]; ring

theorem additive_offset (s k beta0 beta beta' : ℝ) (m m' : Prop) :
    additiveEntry s k beta0 beta - lbeta .normAdd m k beta0 beta =
      additiveEntry s k beta0 beta' - lbeta .normAdd m' k beta0 beta' := by
  unfold additiveEntry lbeta; ring

theorem sum_offset {f g f' g' : Fin N → Fin P → ℝ} (h : ∀ i p, f i p - g i p = f' i p - g' i p) :
    (∑ i, ∑ p, f i p) - (∑ i, ∑ p, g i p) = (∑ i, ∑ p, f' i p) - ∑ i, ∑ p, g' i p := by
  simp only [← Finset.sum_sub_distrib]
  exact Finset.sum_congr rfl fun i _ => Finset.sum_congr rfl fun p _ => h i p

theorem lbeta_offset (b : Beta N P) (hb : Spec.supported (some b)) (beta beta' : Fin N → Fin P → ℝ) :
    ∃ l l', lbetaFull b beta = .ok l ∧ lbetaFull b beta' = .ok l' ∧
      l - lbetaReduced b beta = l' - lbetaReduced b beta' := by
  obtain ⟨hk, -⟩ | ⟨hk, hm⟩ := hb b rfl
  · refine ⟨_, _, by simp only [lbetaFull, hk]; rfl, by simp only [lbetaFull, hk]; rfl, ?_⟩
    unfold lbetaReduced
    rw [hk]
    exact sum_offset fun i p => gamma_offset _ _ _ _ _ _
  · rcases hm' : b.mode with _ | _
    · refine ⟨_, _, by simp only [lbetaFull, hk, hm']; rfl, by simp only [lbetaFull, hk, hm']; rfl, ?_⟩
      unfold lbetaReduced
      rw [hk]
      exact sum_offset fun i p => additive_offset _ _ _ _ _ _ _
    · have hP : P = 2 := by
        rcases hm with h | h
        · rw [h] at hm'; exact absurd hm' (by simp)
        · exact h
      subst hP
      refine ⟨_, _, by simp only [lbetaFull, hk, hm', if_true]; rfl, by simp only [lbetaFull, hk, hm', if_true]; rfl, ?_⟩
      unfold lbetaReduced
      rw [hk]
      exact sum_offset fun i p => additive_offset _ _ _ _ _ _ _

theorem ln_offset (d : Data ι) (n n' : ι → ℝ) : d.ln true n - d.ln false n = d.ln true n' - d.ln false n' := by
  cases d with
  | poisson nobs => exact c20_poisson_offset nobs n n'
  | chisq nobs v => simp [Data.ln]
  | covariance W nobs => simp [Data.ln]

/-- C20, for the whole likelihood of the supported configurations (`Spec.supported`): the full likelihood exists at
every point, and full minus reduced is the same number at any two points; so one point is better than another for
the one exactly if it is for the other, and by the same amount. -/
theorem c20_total_partial (d : Data ι) (cw x0 : κ → ℝ) (bb : Option (Beta N P)) (hb : Spec.supported bb)
    (s s' : Point ι κ N P) :
    ∃ L L', fullNll d cw x0 bb s = .ok L ∧ fullNll d cw x0 bb s' = .ok L' ∧
      L - L' = reducedNll d cw x0 bb s - reducedNll d cw x0 bb s' := by
  have h1 := ln_offset d s.nexp s'.nexp
  have h2 := c20_constraint_offset cw x0 s.x x0 s'.x
  have key : ∀ (p p' e e' : Option ℝ) (o o' r r' : Option ℝ) (a a' c c' ar ar' cr cr' : ℝ), o.isSome = r.isSome →
      o'.isSome = r'.isSome → o.isSome = o'.isSome → a - ar = a' - ar' → c - cr = c' - cr' →
      (∀ x x' y y', o = some x → o' = some x' → r = some y → r' = some y' → x - y = x' - y') →
      nllTotal a c o p e - nllTotal a' c' o' p' e' = nllTotal ar cr r p e - nllTotal ar' cr' r' p' e' := by
    intro p p' e e' o o' r r' a a' c c' ar ar' cr cr' hs hs' hss ha hc ho
    cases o <;> cases o' <;> cases r <;> cases r' <;> simp at hs hs' hss
    · cases p <;> cases p' <;> cases e <;> cases e' <;> simp only [nllTotal] <;> linarith
    · have := ho _ _ _ _ rfl rfl rfl rfl
      cases p <;> cases p' <;> cases e <;> cases e' <;> simp only [nllTotal] <;> linarith
  cases bb with
  | none =>
    exact ⟨_, _, rfl, rfl, key _ _ _ _ none none none none _ _ _ _ _ _ _ _ rfl rfl rfl h1 h2 (by simp)⟩
  | some b =>
    obtain ⟨l, l', hl, hl', ho⟩ := lbeta_offset b hb s.beta s'.beta
    refine ⟨_, _, by simp only [fullNll, hl]; rfl, by simp only [fullNll, hl']; rfl, ?_⟩
    refine key _ _ _ _ (some l) (some l') _ _ _ _ _ _ _ _ _ _ rfl rfl rfl h1 h2 ?_
    intro x x' y y' hx hx' hy hy'
    simp only [Option.some.injEq, Option.map_some] at hx hx' hy hy'
    rw [← hx, ← hx', ← hy, ← hy']
    exact ho

/-- the hypotheses are met by a gamma and an additive configuration -/
example : Spec.supported (some (⟨.lite, .gamma, fun _ _ => 4, fun _ _ => 1, fun _ _ => False⟩ : Beta 3 1)) ∧
    Spec.supported (some (⟨.full, .normAdd, fun _ _ => 4, fun _ _ => 0, fun _ _ => False⟩ : Beta 3 2)) := by
  constructor
  · rintro b hb
    cases hb
    exact .inl ⟨rfl, fun _ _ => by norm_num⟩
  · rintro b hb
    cases hb
    exact .inr ⟨rfl, .inr rfl⟩

/-- C20: the reported likelihood is the sum of its parts: data, constraints of the nuisance parameters, constraints
of the β, penalty and external terms, each once and with weight one, absent parts counting zero. -/
theorem c20_sum_of_parts (d : Data ι) (cw x0 : κ → ℝ) (bb : Option (Beta N P)) (s : Point ι κ N P) :
    reducedNll d cw x0 bb s = d.ln false s.nexp + (∑ k, cw k * (s.x k - x0 k) ^ 2 / 2) +
      (match bb with | none => 0 | some b => lbetaReduced b s.beta) + s.penalty.getD 0 + s.ext.getD 0 := by
  have : lc false cw x0 s.x = ∑ k, cw k * (s.x k - x0 k) ^ 2 / 2 := by
    unfold lc
    exact Finset.sum_congr rfl fun k _ => by simp; ring
  unfold reducedNll nllTotal
  rw [this]
  cases bb <;> cases s.penalty <;> cases s.ext <;> simp

/-- C20: the data term without constants: for counts the likelihood ratio to a prediction equal to the data (bins without events count their
prediction), otherwise half the squared distance weighted with the variances or with the inverse covariance of the data. -/
theorem c20_data_terms (d : Data ι) (nexp : ι → ℝ) (hpos : ∀ nobs, d = .poisson nobs → ∀ i, 0 ≤ nobs i ∧ 0 < nexp i) :
    d.ln false nexp = match d with
      | .poisson nobs => ∑ i, (nexp i - nobs i + (if nobs i = 0 then 0 else nobs i * Real.log (nobs i / nexp i)))
      | .chisq nobs varnobs => ∑ i, (nobs i - nexp i) ^ 2 / (2 * varnobs i)
      | .covariance W nobs => ∑ i, ∑ j, (nobs i - nexp i) * W i j * (nobs j - nexp j) / 2 := by
  cases d with
  | poisson nobs =>
    show lnPoisson false nobs nexp = _
    simp only [lnPoisson, Bool.false_eq_true, if_false]
    refine Finset.sum_congr rfl fun i _ => ?_
    obtain ⟨h1, h2⟩ := hpos nobs rfl i
    unfold poissonBin lognobs
    by_cases h : nobs i = 0
    · simp [h]
    · rw [if_neg h, if_neg h, if_neg h, Real.log_div h h2.ne']
      ring
  | chisq nobs varnobs =>
    show lnChisq nobs varnobs nexp = _
    unfold lnChisq
    rw [Finset.mul_sum]
    refine Finset.sum_congr rfl fun i _ => ?_
    rw [← neg_sub, neg_sq, mul_comm (2 : ℝ), ← div_div]
    ring
  | covariance W nobs =>
    show lnCov W nobs nexp = _
    unfold lnCov dotProduct Matrix.mulVec dotProduct
    rw [Finset.mul_sum]
    refine Finset.sum_congr rfl fun i _ => ?_
    rw [Finset.mul_sum, Finset.mul_sum]
    refine Finset.sum_congr rfl fun j _ => ?_
    simp only [Pi.sub_apply]
    ring

example : (Data.chisq (fun _ : Fin 2 => (5 : ℝ)) fun i => if i = 0 then 4 else 1).ln false (fun i => if i = 0 then 7 else 6) = 1 := by
  rw [c20_data_terms _ _ (fun _ h => by cases h)]
  norm_num [Fin.sum_univ_two]

/-- C20, gamma type: with its constants the term of one β is minus the log of a normalised density, that of a gamma
variable of shape `k β0` and rate `k` in the variable `log β`: `exp(-term) dβ/β` integrates to one. -/
theorem c20_gamma_normalised (k beta0 : ℝ) (hk : 0 < k) (h0 : 0 < beta0) :
    ∫ beta in Set.Ioi (0 : ℝ), Real.exp (-lbetaGammaFull k beta0 beta) / beta = 1 := by
  have ha : 0 < k * beta0 := mul_pos hk h0
  have hG : 0 < Real.Gamma (k * beta0) := Real.Gamma_pos_of_pos ha
  have e : ∀ beta ∈ Set.Ioi (0 : ℝ), Real.exp (-lbetaGammaFull k beta0 beta) / beta =
      (k ^ (k * beta0) / Real.Gamma (k * beta0)) * (beta ^ (k * beta0 - 1) * Real.exp (-(k * beta))) := by
    intro beta hb
    have hb : 0 < beta := hb
    unfold lbetaGammaFull lgamma
    rw [if_neg h0.ne', abs_of_pos hG, Real.rpow_sub_one hb.ne', Real.rpow_def_of_pos hk, Real.rpow_def_of_pos hb]
    have : -(-k * beta0 * Real.log beta + k * beta + Real.log (Real.Gamma (k * beta0)) + -k * beta0 * Real.log k) =
        Real.log k * (k * beta0) + Real.log beta * (k * beta0) + -(k * beta) +
          -Real.log (Real.Gamma (k * beta0)) := by ring
    rw [this, Real.exp_add, Real.exp_add, Real.exp_add, Real.exp_neg (Real.log _), Real.exp_log hG]
    field_simp
  rw [setIntegral_congr_fun measurableSet_Ioi e, integral_const_mul, Real.integral_rpow_mul_exp_neg_mul_Ioi ha hk,
    one_div, Real.inv_rpow hk.le]
  have : k ^ (k * beta0) ≠ 0 := (Real.rpow_pos_of_pos hk _).ne'
  field_simp

example : ∃ k beta0 : ℝ, 0 < k ∧ 0 < beta0 := ⟨25, 1, by norm_num⟩

/-- C20 does not hold: for the additive type with one entry per bin and process and a single process the vector
`tf.shape(sigma2)` turns the `N × 1` array into an `N × 2` one, and the full likelihood counts every β constraint
twice: it differs from the reduced one by the β constraint itself, which depends on the parameters. -/
theorem c20_single_process_violated (b : Beta N 1) (hm : b.mode = .full) (hk : b.kind = .normAdd)
    (beta beta' : Fin N → Fin 1 → ℝ) :
    ∃ l l', lbetaFull b beta = .ok l ∧ lbetaFull b beta' = .ok l' ∧
      l - l' = 2 * (lbetaReduced b beta - lbetaReduced b beta') := by
  refine ⟨_, _, by simp only [lbetaFull, hk, hm, if_true]; rfl, by simp only [lbetaFull, hk, hm, if_true]; rfl, ?_⟩
  simp only [lbetaReduced, ← Finset.sum_sub_distrib, Finset.mul_sum, hk]
  refine Finset.sum_congr rfl fun i _ => Finset.sum_congr rfl fun p _ => ?_
  simp only [additiveEntry, lbeta]; ring

example : ∃ (b : Beta 2 1) (beta beta' : Fin 2 → Fin 1 → ℝ), b.mode = .full ∧ b.kind = .normAdd ∧
    lbetaReduced b beta - lbetaReduced b beta' ≠ 0 :=
  ⟨⟨.full, .normAdd, fun _ _ => 4, fun _ _ => 0, fun _ _ => False⟩, fun _ _ => 1, fun _ _ => 0, rfl, rfl, by
    simp [lbetaReduced, lbeta]⟩

/-- C20 does not hold: there is no full likelihood (`--fullNll` ends with an exception) for the multiplicative
normal type, which is the automatic choice with one β per bin and process, and for the additive type with one β per
bin and process and three or more processes. -/
theorem c20_missing_violated (d : Data ι) (cw x0 : κ → ℝ) (b : Beta N P) (s : Point ι κ N P)
    (h : b.kind = .normMult ∨ (b.kind = .normAdd ∧ b.mode = .full ∧ 3 ≤ P)) :
    ∃ e, fullNll d cw x0 (some b) s = .error e := by
  rcases h with h | ⟨h, hm, hP⟩
  · exact ⟨.notImpl, by simp only [fullNll, lbetaFull, h]⟩
  · refine ⟨.exception, ?_⟩
    have : lbetaFull b s.beta = .error .exception := by
      simp only [lbetaFull, h, hm]
      rw [if_neg (by omega), if_neg (by omega)]
    simp only [fullNll, this]

example : resolveKind none false .full = .normMult := rfl

/-- C20, additive type with one β per bin: the constant is not that of `N` normal densities (`½ log 2π + log σ`
each): `tf.shape` adds `N` times the constant to each of the `N` entries, so that the reported likelihood is too
large by `N (N - 1)` times the constant. -/
theorem c20_additive_constant_violated (b : Beta N 1) (hm : b.mode = .lite) (hk : b.kind = .normAdd)
    (beta : Fin N → Fin 1 → ℝ) :
    ∃ l, lbetaFull b beta = .ok l ∧
      l = (∑ i, (1 / 2 * (beta i 0 - b.beta0 i 0) ^ 2 + halfLog2PiLit + 1 / 2 * Real.log (1 / b.k i 0))) +
        N * (N - 1) * halfLog2PiLit := by
  refine ⟨_, by simp only [lbetaFull, hk, hm]; rfl, ?_⟩
  simp only [additiveEntry, Finset.univ_unique, Finset.sum_singleton, Finset.sum_add_distrib, Finset.sum_const,
    Finset.card_univ, Finset.card_singleton, Nat.cast_one, Fintype.card_fin, nsmul_eq_mul, Fin.default_eq_zero, Fin.isValue]
  ring

end Verif.FullNll
