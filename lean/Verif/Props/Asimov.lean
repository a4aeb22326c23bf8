import Verif.Lemmas.Asimov
import Verif.Props.BBBFull
import Verif.Props.Regularization
import Verif.Props.LinearFit

/-!
C101 The fit to the Asimov data closes: the likelihood is minimal at the parameters the data were made with, and only where the
prediction and the constrained parameters are the same.
-/

namespace Verif.LinearFit

open Verif.BBB Verif.Yields Verif.ParamModels Verif.FitParams Verif.Regularization Matrix

noncomputable section

/-! ### specification -/

namespace Spec

/-- What the inputs satisfy in every fit: variances and weights are not negative, the inverse covariance is positive definite
(and then β is not of gamma type, bbstat.py:88-96), squared parameters of interest have no prior (fitter.py:336-343), and
the regularizers come from their constructor and have bins; the fitted bins are the first of all bins. -/
structure Valid (F : Fitter) : Prop where
  sumw2 : ∀ s, F.stat = some s → ∀ b p, 0 ≤ s.sumw2 b p
  cov : F.fit = .covariance → F.W.PosDef ∧ ∀ s, F.stat = some s → s.kind ≠ .gamma
  cw : ∀ i, 0 ≤ F.cw i
  poi : F.model.allowNeg = false → ∀ i : Fin F.model.npoi, F.cw (Fin.castAdd F.shape.nsyst (Fin.castAdd F.model.npou i)) = 0
  tau : 0 < F.tau2
  regs : ∀ r ∈ F.regs, ∃ m, svdInit m = .ok r.1 ∧ 0 ∉ r.1.shape
  bins : F.shape.nbins ≤ F.shape.nbinsfull

/-- The iteration of the gamma type in full mode has found the minimum of the bin. -/
def solved (F : Fitter) (s : Stat) (norm : Nat → Nat → ℝ) (b : Nat) : Prop :=
  (∀ p : Fin F.shape.nproc, 0 < s.newton norm b p) ∧
  (F.fit = .poisson → 0 < (F.fullBin s norm b).applied .gamma fun p => s.newton norm b p) ∧
  ∀ β : Fin F.shape.nproc → ℝ, (∀ p, 0 < β p) →
    (F.fullBin s norm b).objective F.fit .gamma (fun p => s.newton norm b p) ≤ (F.fullBin s norm b).objective F.fit .gamma β

/-- At the parameters of the Asimov data: the processes with a statistical uncertainty have a positive sum in every fitted bin
with one β (unless the bin has none), Poisson means are positive with β per process, and the iteration has converged. -/
def filled (F : Fitter) (x : Fin F.n → ℝ) : Prop :=
  ∀ nexp norm, F.yields (!F.regs.isEmpty) (F.params x) (F.theta x) = .ok (nexp, norm) → ∀ s, F.stat = some s → ∀ b < F.shape.nbins,
    (s.mode = .lite → s.kind ≠ .normAdd → 0 < (∑ p : Fin F.shape.nproc, if s.sumw2 b p = 0 then 0 else norm b p) ∨
      (F.fit ≠ .covariance ∧
        ((∑ p : Fin F.shape.nproc, s.sumw2 b p) = 0 ∨ (∑ p : Fin F.shape.nproc, if s.sumw2 b p = 0 then 0 else s.sumw b p) = 0))) ∧
    (s.mode = .full → s.kind ≠ .gamma → F.fit = .poisson → 0 < ∑ p : Fin F.shape.nproc, norm b p) ∧
    (s.mode = .full → s.kind = .gamma → solved F s norm b)

/-- The arguments of all logarithms are positive (elsewhere the code has no number): Poisson means, unless nothing is observed,
and β of gamma type. -/
def domain (F : Fitter) (x : Fin F.n → ℝ) : Prop :=
  ∀ nexp norm, F.yields (!F.regs.isEmpty) (F.params x) (F.theta x) = .ok (nexp, norm) → ∀ nexp' lb,
    F.withBeta nexp norm = some (nexp', lb) →
    (F.fit = .poisson → ∀ b < F.shape.nbins, 0 ≤ nexp' b ∧ (F.nobs b = 0 ∨ 0 < nexp' b)) ∧
    (∀ s, F.stat = some s → s.kind = .gamma → ∀ b < F.shape.nbins,
      (s.mode = .lite → 0 < F.betaLite s norm b) ∧ (s.mode = .full → ∀ p : Fin F.shape.nproc, 0 < s.newton norm b p))

/-- A way to meet `domain` without looking at β: with one β per bin the processes with a statistical uncertainty have a positive
sum in every fitted bin and the others one that is not negative; without β, a Poisson fit has positive yields. -/
def positive (F : Fitter) (x : Fin F.n → ℝ) : Prop :=
  ∀ nexp norm, F.yields (!F.regs.isEmpty) (F.params x) (F.theta x) = .ok (nexp, norm) → ∀ b < F.shape.nbins,
    (F.stat = none → 0 < nexp b) ∧
    (∀ s, F.stat = some s → 0 < (∑ p : Fin F.shape.nproc, if s.sumw2 b p = 0 then 0 else norm b p) ∧
      0 ≤ ∑ p : Fin F.shape.nproc, if s.sumw2 b p = 0 then norm b p else 0)

end Spec

/-! ### the parameters -/

theorem getX_centre (F : Fitter) (hv : Spec.Valid F) (x0 : Fin F.n → ℝ) (off : F.cfg.Offsets)
    (ho : F.doBlinding = true → off = F.cfg.noOffsets) (i : Fin F.n) (hi : F.cw i ≠ 0) : getX F.cfg F.mask off x0 x0 i = x0 i := by
  unfold getX
  refine Fin.addCases (fun j => ?_) (fun j => ?_) i (motive := fun i => F.cw i ≠ 0 →
    Fin.append (Fin.append (getPoi F.cfg F.mask off x0 x0) (getNui F.cfg F.mask x0 x0)) (getTheta F.cfg F.mask off x0 x0) i = x0 i) hi
  · rw [Fin.append_left]
    refine Fin.addCases (fun j => ?_) (fun j => ?_) j (motive := fun j => F.cw (Fin.castAdd _ j) ≠ 0 →
      Fin.append (getPoi F.cfg F.mask off x0 x0) (getNui F.cfg F.mask x0 x0) j = x0 (Fin.castAdd _ j))
    · intro hj
      rw [Fin.append_left]
      have ha : F.model.allowNeg = true := by
        by_contra hn
        exact hj (hv.poi (by simpa using hn) j)
      have hval : ∀ v : ℝ, (if F.model.allowNeg = true then v else v ^ 2) = v := fun v => if_pos ha
      unfold getPoi
      dsimp only
      simp only [hval]
      by_cases hb : F.doBlinding = true
      · rw [if_pos hb, ho hb]; simp [stopAt, Cfg.noOffsets]
      · rw [if_neg hb]; simp [stopAt]
    · intro _
      rw [Fin.append_right]
      simp [getNui, stopAt]
  · intro _
    rw [Fin.append_right]
    unfold getTheta
    dsimp only
    by_cases hb : F.doBlinding = true
    · rw [if_pos hb, ho hb]; simp [stopAt, Cfg.noOffsets]
    · rw [if_neg hb]; simp [stopAt]

/-! ### the assignments -/

theorem asimov_inv {F : Fitter} {x0 : Fin F.n → ℝ} {d : (Nat → ℝ) × List (Svd ℝ × Grid.Tensor ℝ)} (h : F.asimov x0 = .ok d) :
    ∃ nexp0, (F.reset x0).expected true x0 = .ok nexp0 ∧ (F.reset x0).expectAll nexp0 F.regs = .ok d.2 ∧
      (F.reset x0).expected false x0 = .ok d.1 ∧ (F.fit = .chisq → ∀ b < F.shape.nbins, 0 < d.1 b) := by
  classical
  unfold Fitter.asimov at h
  dsimp only at h
  cases h1 : (F.reset x0).expected true x0 with
  | error e => rw [h1] at h; exact nomatch h
  | ok nexp0 =>
    rw [h1] at h
    dsimp only at h
    cases h2 : (F.reset x0).expectAll nexp0 (F.reset x0).regs with
    | error e => rw [h2] at h; exact nomatch h
    | ok regs =>
      rw [h2] at h
      dsimp only at h
      cases h3 : (F.reset x0).expected false x0 with
      | error e => rw [h3] at h; exact nomatch h
      | ok values =>
        rw [h3] at h
        dsimp only at h
        by_cases h4 : (F.reset x0).fit = .chisq ∧ ∃ b < (F.reset x0).shape.nbins, values b ≤ 0
        · rw [if_pos h4] at h; exact nomatch h
        · rw [if_neg h4] at h
          cases h
          refine ⟨nexp0, rfl, h2, rfl, fun hc b hb => ?_⟩
          by_contra hn
          exact h4 ⟨hc, b, hb, not_lt.1 hn⟩

theorem expectAll_spec {F : Fitter} {nexp : Nat → ℝ} : ∀ {rs ts}, F.expectAll nexp rs = .ok ts →
    List.Forall₂ (fun r t => t.1 = r.1 ∧ r.1.expectations ⟨[F.shape.nbinsfull], fun i => nexp (i.getD 0 0)⟩ = .ok t.2) rs ts
  | [], ts, h => by cases h; exact .nil
  | r :: rs, ts, h => by
    unfold Fitter.expectAll at h
    cases h1 : r.1.expectations ⟨[F.shape.nbinsfull], fun i => nexp (i.getD 0 0)⟩ with
    | error e => rw [h1] at h; exact nomatch h
    | ok t =>
      rw [h1] at h
      dsimp only at h
      cases h2 : F.expectAll nexp rs with
      | error e => rw [h2] at h; exact nomatch h
      | ok ts' =>
        rw [h2] at h
        cases h
        exact .cons ⟨rfl, h1⟩ (expectAll_spec h2)

theorem isEmpty_of_forall₂ {α β : Type*} {R : α → β → Prop} {l : List α} {m : List β} (h : List.Forall₂ R l m) :
    m.isEmpty = l.isEmpty := by
  cases h <;> rfl

/-- the regularizers see their own expectation: no penalty -/
theorem penalties_zero (G : Fitter) (nexp : Nat → ℝ) {rs ts : List (Svd ℝ × Grid.Tensor ℝ)}
    (hr : ∀ r ∈ rs, ∃ m, svdInit m = .ok r.1 ∧ 0 ∉ r.1.shape)
    (h : List.Forall₂ (fun r t => t.1 = r.1 ∧ r.1.expectations ⟨[G.shape.nbinsfull], fun i => nexp (i.getD 0 0)⟩ = .ok t.2) rs ts) :
    G.penalties nexp ts = .ok (List.replicate ts.length 0) := by
  classical
  induction h with
  | nil => rfl
  | @cons r t rs ts h1 hts ih =>
    obtain ⟨h1, h2⟩ := h1
    obtain ⟨m, hm, h0⟩ := hr r (List.mem_cons_self ..)
    have hp : ∀ inst : DecidableEq ℝ, @Svd.penalty ℝ _ inst t.1 t.2 ⟨[G.shape.nbinsfull], fun i => nexp (i.getD 0 0)⟩ = .ok 0 := by
      intro inst
      obtain rfl : inst = fun a b => LinearOrder.toDecidableEq a b := Subsingleton.elim _ _
      rw [h1]
      refine c55_multiple m r.1 hm _ _ t.2 h2 1 ?_ (.inl rfl) h0
      have hmap : r.1.mapping = m := (svd_dims hm).1
      unfold Svd.expectations at h2
      rw [hmap] at h2
      cases hf : m.flat ⟨[G.shape.nbinsfull], fun i => nexp (i.getD 0 0)⟩ with
      | error e => rw [hf] at h2; exact nomatch h2
      | ok l =>
        rw [hf] at h2
        have := (Grid.flat_ofFlat h2).2
        rw [this]
        simp
    unfold Fitter.penalties
    rw [ih fun r' h' => hr r' (List.mem_cons_of_mem _ h'), hp]
    rfl

/-! ### profiling -/

/-- what `Spec.filled` says about one point -/
def fill (G : Fitter) (norm : Nat → Nat → ℝ) (s : Stat) (b : Nat) : Prop :=
  (s.mode = .lite → s.kind ≠ .normAdd → 0 < (∑ p : Fin G.shape.nproc, if s.sumw2 b p = 0 then 0 else norm b p) ∨
      (G.fit ≠ .covariance ∧
        ((∑ p : Fin G.shape.nproc, s.sumw2 b p) = 0 ∨ (∑ p : Fin G.shape.nproc, if s.sumw2 b p = 0 then 0 else s.sumw b p) = 0))) ∧
    (s.mode = .full → s.kind ≠ .gamma → G.fit = .poisson → 0 < ∑ p : Fin G.shape.nproc, norm b p) ∧
    (s.mode = .full → s.kind = .gamma → Spec.solved G s norm b)

/-- the properties of the prepared fitter that matter -/
structure Ready (G : Fitter) : Prop where
  beta0 : ∀ s, G.stat = some s → ∀ b p, s.beta0 b p = defaultBeta0 s.kind
  sumw2 : ∀ s, G.stat = some s → ∀ b p, 0 ≤ s.sumw2 b p
  cov : G.fit = .covariance → G.W.PosDef ∧ ∀ s, G.stat = some s → s.kind ≠ .gamma
  var : G.fit = .chisq → ∀ b < G.shape.nbins, 0 < G.varnobs b
  pois : G.fit = .poisson → ∀ b < G.shape.nbins, 0 ≤ G.nobs b

theorem betaLite_fixed (G : Fitter) (h : Ready G) (s : Stat) (hs : G.stat = some s) (hmode : s.mode = .lite) (norm : Nat → Nat → ℝ)
    (hobs : ∀ b < G.shape.nbins, G.nobs b = (G.liteBin s norm b).nexp) (hf : ∀ b < G.shape.nbins, fill G norm s b) (b : Nat) :
    G.betaLite s norm b = defaultBeta0 s.kind := by
  unfold Fitter.betaLite
  by_cases hb : b < G.shape.nbins
  · rw [dif_pos hb]
    have hact : ∀ b < G.shape.nbins, s.kind ≠ .normAdd → 0 < (G.liteBin s norm b).nActive ∨
        (G.fit ≠ .covariance ∧ (G.liteBin s norm b).masked) := by
      intro b hb hk
      rcases (hf b hb).1 hmode hk with h1 | ⟨h1, h2⟩
      · exact .inl h1
      · exact .inr ⟨h1, .inl h2⟩
    have hgen : ∀ f, G.fit = f → f ≠ .covariance → (G.liteBin s norm b).profile f s.kind = defaultBeta0 s.kind := by
      intro f hfit hc
      rw [← h.beta0 s hs b 0]
      refine lite_fixed (G.liteBin s norm b) f s.kind (h.beta0 s hs b 0) (fun p => h.sumw2 s hs b p) (hobs b hb)
        (fun e => h.pois (hfit.trans e) b hb) (fun e => h.var (hfit.trans e) b hb) fun hk hm => ?_
      rcases hact b hb hk with h1 | h1
      · exact h1
      · exact absurd h1.2 hm
    cases hfit : G.fit with
    | poisson => cases hk : s.kind <;> rw [← hk] <;> exact hgen _ hfit (by decide)
    | chisq => cases hk : s.kind <;> rw [← hk] <;> exact hgen _ hfit (by decide)
    | covariance =>
      cases hk : s.kind with
      | gamma => exact (h.beta0 s hs b 0).trans (by rw [hk])
      | normAdd =>
        have : (G.covLite s norm).profileAdd = 0 := covLite_add_fixed _ (funext fun i => hobs i i.2)
          (funext fun i => (h.beta0 s hs i 0).trans (by rw [hk]; rfl))
        dsimp only
        rw [this]; rfl
      | normMult =>
        have hA : ∀ b < G.shape.nbins, 0 < (G.liteBin s norm b).nActive := fun b hb => by
          rcases hact b hb (by rw [hk]; decide) with h1 | h1
          · exact h1
          · exact absurd hfit h1.1
        have h1 : ∀ i, (G.covLite s norm).beta0 i = 1 := fun i => (h.beta0 s hs i 0).trans (by rw [hk]; rfl)
        have : (G.covLite s norm).profileMult = (G.covLite s norm).beta0 := by
          refine covLite_mult_fixed _ (h.cov hfit).1.posSemidef (fun i => (G.liteBin s norm i).k_pos fun p => h.sumw2 s hs i p) ?_
            (funext h1)
          funext i
          show G.nobs i - (G.liteBin s norm i).nZero = (G.liteBin s norm i).nActiveSafe
          rw [hobs i i.2, lite_nexp, LiteBin.nActiveSafe, if_pos (hA i i.2)]
          ring
        dsimp only
        rw [this, h1]; rfl
  · rw [dif_neg hb]
    exact h.beta0 s hs b 0

/-- the iteration, if it has found the minimum, has found the centre -/
theorem newton_fixed (G : Fitter) (h : Ready G) (s : Stat) (hs : G.stat = some s) (hk : s.kind = .gamma) (norm : Nat → Nat → ℝ)
    (b : Nat) (hb : b < G.shape.nbins) (hobs : G.nobs b = (G.fullBin s norm b).nexp) (hsol : Spec.solved G s norm b) :
    (fun p : Fin G.shape.nproc => s.newton norm b p) = fun _ => 1 := by
  obtain ⟨h1, h2, h3⟩ := hsol
  have hb0 : ∀ p, (G.fullBin s norm b).beta0 p = defaultBeta0 .gamma := fun p => (h.beta0 s hs b p).trans (by rw [hk])
  have hkp : ∀ p, 0 < (G.fullBin s norm b).k p := fun p => (G.fullBin s norm b).k_pos (fun p => h.sumw2 s hs b p) p
  have happ : (G.fullBin s norm b).applied .gamma (fun _ => 1) = G.nobs b :=
    (full_applied_default (G.fullBin s norm b) .gamma).trans hobs.symm
  have hdata : dataTerm G.fit (G.nobs b) (G.varnobs b) (G.nobs b) = 0 := by
    cases hfit : G.fit
    · have h0 := h.pois hfit b hb
      show poissonBin _ _ = 0
      unfold poissonBin lognobs
      by_cases hz : G.nobs b = 0
      · simp [hz]
      · simp [hz]
    · simp [dataTerm]
    · rfl
  have hone : (G.fullBin s norm b).objective G.fit .gamma (fun _ => 1) = 0 := by
    unfold FullBin.objective
    rw [happ]
    have : dataTerm G.fit (G.fullBin s norm b).nobs (G.fullBin s norm b).varnobs (G.nobs b) = 0 := hdata
    rw [this, zero_add]
    refine Finset.sum_eq_zero fun p _ => ?_
    rw [hb0]
    exact lbeta_default .gamma _ _
  have hle := h3 (fun _ => 1) fun _ => one_pos
  rw [hone] at hle
  unfold FullBin.objective at hle
  have hnn : ∀ p ∈ Finset.univ, 0 ≤ lbeta .gamma ((G.fullBin s norm b).masked p) ((G.fullBin s norm b).k p)
      ((G.fullBin s norm b).beta0 p) (s.newton norm b p) := fun p _ => by
    rw [hb0]; exact lbeta_nonneg .gamma _ _ _ (hkp p) fun _ => h1 p
  have hd : 0 ≤ dataTerm G.fit (G.fullBin s norm b).nobs (G.fullBin s norm b).varnobs
      ((G.fullBin s norm b).applied .gamma fun p => s.newton norm b p) := by
    cases hfit : G.fit
    · exact c19_nonneg _ _ (h.pois hfit b hb) (h2 hfit).le (.inr (h2 hfit))
    · have := h.var hfit b hb
      have h5 : 0 < (G.fullBin s norm b).varnobs := this
      unfold dataTerm
      positivity
    · exact le_rfl
  have hz := (Finset.sum_eq_zero_iff_of_nonneg hnn).1 (le_antisymm (by linarith) (Finset.sum_nonneg hnn))
  funext p
  have := hz p (Finset.mem_univ p)
  rw [hb0] at this
  rcases lbeta_zero .gamma _ _ _ (hkp p) (fun _ => h1 p) this with h | h
  · exact h
  · exact nomatch h.1

theorem betaFull_fixed (G : Fitter) (h : Ready G) (s : Stat) (hs : G.stat = some s) (hmode : s.mode = .full) (norm : Nat → Nat → ℝ)
    (hobs : ∀ b < G.shape.nbins, G.nobs b = (G.fullBin s norm b).nexp) (hf : ∀ b < G.shape.nbins, fill G norm s b) (b : Nat) :
    G.betaFull s norm b = some fun _ => defaultBeta0 s.kind := by
  unfold Fitter.betaFull
  by_cases hb : b < G.shape.nbins
  · rw [dif_pos hb]
    have hb0 : (G.fullBin s norm b).beta0 = fun _ => defaultBeta0 s.kind := funext fun p => h.beta0 s hs b p
    have hgen : ∀ f, G.fit = f → f ≠ .covariance → s.kind ≠ .gamma →
        (G.fullBin s norm b).profile f s.kind = some fun _ => defaultBeta0 s.kind := by
      intro f hfit hc hk
      rw [← hb0]
      refine full_fixed (G.fullBin s norm b) f s.kind hk hc hb0 (fun p => h.sumw2 s hs b p) (hobs b hb)
        (fun e => ?_) (fun e => h.var (hfit.trans e) b hb)
      have := (hf b hb).2.1 hmode hk (hfit.trans e)
      show 0 < G.nobs b
      rw [hobs b hb]
      exact this
    have hnewt : s.kind = .gamma → (some fun p : Fin G.shape.nproc => s.newton norm b p) = some fun _ => defaultBeta0 .gamma := fun hk => by
      rw [newton_fixed G h s hs hk norm b hb (hobs b hb) ((hf b hb).2.2 hmode hk)]; rfl
    cases hfit : G.fit with
    | poisson =>
      cases hk : s.kind with
      | gamma => exact hnewt hk
      | normMult => have := hgen _ hfit (by decide) (by rw [hk]; decide); rw [hk] at this; exact this
      | normAdd => have := hgen _ hfit (by decide) (by rw [hk]; decide); rw [hk] at this; exact this
    | chisq =>
      cases hk : s.kind with
      | gamma => exact hnewt hk
      | normMult => have := hgen _ hfit (by decide) (by rw [hk]; decide); rw [hk] at this; exact this
      | normAdd => have := hgen _ hfit (by decide) (by rw [hk]; decide); rw [hk] at this; exact this
    | covariance =>
      cases hk : s.kind with
      | gamma => exact absurd hk ((h.cov hfit).2 s hs)
      | normAdd =>
        have h1 : (G.covFull s norm).beta0 = fun _ _ => 0 := funext fun i => funext fun p => (h.beta0 s hs i p).trans (by rw [hk]; rfl)
        have : (G.covFull s norm).profileAdd = (G.covFull s norm).beta0 := covFull_add_fixed _ (funext fun i => hobs i i.2) h1
        dsimp only
        rw [this, h1]; rfl
      | normMult =>
        have h1 : (G.covFull s norm).beta0 = fun _ _ => 1 := funext fun i => funext fun p => (h.beta0 s hs i p).trans (by rw [hk]; rfl)
        have : (G.covFull s norm).profileMult = (G.covFull s norm).beta0 :=
          covFull_mult_fixed _ (h.cov hfit).1.posSemidef (fun i p => (G.fullBin s norm i).k_pos (fun p => h.sumw2 s hs i p) p)
            (funext fun i => hobs i i.2) h1
        dsimp only
        rw [this, h1]; rfl
  · rw [dif_neg hb]
    congr 1
    funext p
    exact h.beta0 s hs b p

theorem unprofiled_lite (G : Fitter) (h : Ready G) (s : Stat) (hs : G.stat = some s) (hm : s.mode = .lite) (nexp : Nat → ℝ)
    (norm : Nat → Nat → ℝ) (b : Nat) : G.unprofiled nexp norm b = (G.liteBin s norm b).nexp := by
  unfold Fitter.unprofiled
  rw [hs]
  dsimp only
  rw [hm]
  dsimp only
  rw [h.beta0 s hs, lite_applied_default]

theorem unprofiled_full (G : Fitter) (h : Ready G) (s : Stat) (hs : G.stat = some s) (hm : s.mode = .full) (nexp : Nat → ℝ)
    (norm : Nat → Nat → ℝ) (b : Nat) : G.unprofiled nexp norm b = (G.fullBin s norm b).nexp := by
  unfold Fitter.unprofiled
  rw [hs]
  dsimp only
  rw [hm]
  dsimp only
  rw [show (fun p : Fin G.shape.nproc => s.beta0 b p) = fun _ => defaultBeta0 s.kind from funext fun p => h.beta0 s hs b p,
    full_applied_default]

/-- data equal to the expectation: profiling changes nothing and costs nothing -/
theorem withBeta_fixed (G : Fitter) (h : Ready G) (nexp : Nat → ℝ) (norm : Nat → Nat → ℝ)
    (hobs : ∀ b < G.shape.nbins, G.nobs b = G.unprofiled nexp norm b)
    (hf : ∀ s, G.stat = some s → ∀ b < G.shape.nbins, fill G norm s b) :
    ∃ lb, G.withBeta nexp norm = some (G.unprofiled nexp norm, lb) ∧ lb.getD 0 = 0 := by
  classical
  cases hs : G.stat with
  | none =>
    refine ⟨none, ?_, rfl⟩
    unfold Fitter.withBeta Fitter.unprofiled
    rw [hs]
  | some s =>
    cases hm : s.mode with
    | lite =>
      have hu := unprofiled_lite G h s hs hm nexp norm
      have hβ := betaLite_fixed G h s hs hm norm (fun b hb => (hobs b hb).trans (hu b)) (hf s hs)
      refine ⟨some (∑ b ∈ Finset.range G.shape.nbinsfull,
          lbeta s.kind (G.liteBin s norm b).masked (G.liteBin s norm b).k (s.beta0 b 0) (G.betaLite s norm b)), ?_, ?_⟩
      · unfold Fitter.withBeta
        rw [hs]
        dsimp only
        rw [hm]
        dsimp only
        congr 2
        funext b
        rw [hβ, lite_applied_default, hu]
      · refine Finset.sum_eq_zero fun b _ => ?_
        rw [hβ, h.beta0 s hs]
        exact lbeta_default _ _ _
    | full =>
      have hu := unprofiled_full G h s hs hm nexp norm
      have hβ := betaFull_fixed G h s hs hm norm (fun b hb => (hobs b hb).trans (hu b)) (hf s hs)
      refine ⟨some (∑ b ∈ Finset.range G.shape.nbinsfull, ∑ p : Fin G.shape.nproc,
            lbeta s.kind ((G.fullBin s norm b).masked p) ((G.fullBin s norm b).k p) (s.beta0 b p)
              ((G.betaFull s norm b).getD (fun _ => 0) p)), ?_, ?_⟩
      · unfold Fitter.withBeta
        rw [hs]
        dsimp only
        rw [hm]
        dsimp only
        rw [if_pos fun b _ => by rw [hβ]; rfl]
        congr 2
        funext b
        rw [hβ, hu]
        exact full_applied_default _ _
      · refine Finset.sum_eq_zero fun b _ => Finset.sum_eq_zero fun p _ => ?_
        rw [hβ, h.beta0 s hs]
        exact lbeta_default _ _ _

theorem ln_self (G : Fitter) (nexp : Nat → ℝ) (hobs : ∀ b < G.shape.nbins, G.nobs b = nexp b) : G.ln nexp = 0 := by
  have e : (fun b : Fin G.shape.nbins => nexp b) = fun b : Fin G.shape.nbins => G.nobs b := funext fun b => (hobs b b.2).symm
  unfold Fitter.ln
  cases G.fit with
  | chisq => dsimp only; rw [e]; simp [lnChisq]
  | covariance => dsimp only; rw [e]; simp [lnCov]
  | poisson =>
    dsimp only
    rw [e]
    simp only [lnPoisson, Bool.false_eq_true, if_false]
    refine Finset.sum_eq_zero fun b _ => ?_
    unfold poissonBin lognobs
    by_cases hz : G.nobs b = 0
    · simp [hz]
    · simp [hz]

/-! ### the loss -/

theorem nllTotal_eq (a b : ℝ) (c d e : Option ℝ) : nllTotal a b c d e = a + b + c.getD 0 + d.getD 0 + e.getD 0 := by
  cases c <;> cases d <;> cases e <;> simp [nllTotal]

theorem loss_inv {G : Fitter} {x : Fin G.n → ℝ} {v : ℝ} (h : G.loss x = .ok (some v)) :
    ∃ nexp norm nexp' lb ps, G.yields (!G.regs.isEmpty) (G.params x) (G.theta x) = .ok (nexp, norm) ∧
      G.withBeta nexp norm = some (nexp', lb) ∧ G.penalties nexp' G.regs = .ok ps ∧
      v = G.ln nexp' + lc false G.cw G.x0 (getX G.cfg G.mask G.off x x) + lb.getD 0 + (penaltyTerm G.tau2 ps).getD 0 +
        (Ext.computeExternal G.ext (List.ofFn x)).getD 0 := by
  unfold Fitter.loss at h
  cases h1 : G.yields (!G.regs.isEmpty) (G.params x) (G.theta x) with
  | error e => rw [h1] at h; exact nomatch h
  | ok y =>
    obtain ⟨nexp, norm⟩ := y
    rw [h1] at h
    dsimp only at h
    cases h2 : G.withBeta nexp norm with
    | none => rw [h2] at h; exact nomatch (Except.ok.inj h)
    | some w =>
      obtain ⟨nexp', lb⟩ := w
      rw [h2] at h
      dsimp only at h
      cases h3 : G.penalties nexp' G.regs with
      | error e => rw [h3] at h; exact nomatch h
      | ok ps =>
        rw [h3] at h
        refine ⟨nexp, norm, nexp', lb, ps, rfl, h2, h3, ?_⟩
        rw [← nllTotal_eq]
        exact (Option.some.inj (Except.ok.inj h)).symm

theorem loss_of {G : Fitter} {x : Fin G.n → ℝ} {nexp norm nexp' lb ps}
    (h1 : G.yields (!G.regs.isEmpty) (G.params x) (G.theta x) = .ok (nexp, norm))
    (h2 : G.withBeta nexp norm = some (nexp', lb)) (h3 : G.penalties nexp' G.regs = .ok ps) :
    G.loss x = .ok (some (G.ln nexp' + lc false G.cw G.x0 (getX G.cfg G.mask G.off x x) + lb.getD 0 + (penaltyTerm G.tau2 ps).getD 0 +
        (Ext.computeExternal G.ext (List.ofFn x)).getD 0)) := by
  unfold Fitter.loss
  rw [h1]
  dsimp only
  rw [h2]
  dsimp only
  rw [h3]
  dsimp only
  rw [nllTotal_eq]

theorem penaltyTerm_zero (w : ℝ) (n : Nat) : (penaltyTerm w (List.replicate n (0 : ℝ))).getD 0 = 0 := by
  unfold penaltyTerm
  split_ifs
  · rfl
  · simp

theorem penaltyTerm_nonneg (w : ℝ) (hw : 0 < w) (ps : List ℝ) (h : ∀ p ∈ ps, 0 ≤ p) : 0 ≤ (penaltyTerm w ps).getD 0 := by
  cases hp : penaltyTerm w ps with
  | none => exact le_rfl
  | some t => exact (c55_term w hw ps h t hp).1

theorem penalties_nonneg (G : Fitter) (nexp : Nat → ℝ) {rs : List (Svd ℝ × Grid.Tensor ℝ)} {ps : List ℝ}
    (hr : ∀ r ∈ rs, ∃ m, svdInit m = .ok r.1) (h : G.penalties nexp rs = .ok ps) : ∀ p ∈ ps, 0 ≤ p := by
  induction rs generalizing ps with
  | nil => cases h; exact fun p hp => nomatch hp
  | cons r rs ih =>
    unfold Fitter.penalties at h
    cases h1 : @Svd.penalty ℝ _ (Classical.decEq ℝ) r.1 r.2 ⟨[G.shape.nbinsfull], fun i => nexp (i.getD 0 0)⟩ with
    | error e =>
      have h1' : ∀ inst : DecidableEq ℝ, @Svd.penalty ℝ _ inst r.1 r.2 ⟨[G.shape.nbinsfull], fun i => nexp (i.getD 0 0)⟩ = .error e :=
        fun inst => by rw [← h1]; congr; exact Subsingleton.elim _ _
      rw [h1'] at h; exact nomatch h
    | ok v =>
      have h1' : ∀ inst : DecidableEq ℝ, @Svd.penalty ℝ _ inst r.1 r.2 ⟨[G.shape.nbinsfull], fun i => nexp (i.getD 0 0)⟩ = .ok v :=
        fun inst => by rw [← h1]; congr; exact Subsingleton.elim _ _
      rw [h1'] at h
      dsimp only at h
      cases h2 : G.penalties nexp rs with
      | error e => rw [h2] at h; exact nomatch h
      | ok vs =>
        rw [h2] at h
        cases h
        obtain ⟨m, hm⟩ := hr r (List.mem_cons_self ..)
        intro p hp
        rcases List.mem_cons.1 hp with rfl | hp
        · exact c55_nonneg m r.1 hm _ _ _ (h1' _)
        · exact ih (fun r' h' => hr r' (List.mem_cons_of_mem _ h')) h2 p hp

theorem ready (F : Fitter) (hv : Spec.Valid F) (x0 : Fin F.n → ℝ) (d) (h : F.asimov x0 = .ok d)
    (hp : F.fit = .poisson → ∀ b < F.shape.nbins, 0 ≤ d.1 b) : Ready (F.prepared x0 d) := by
  obtain ⟨nexp0, -, -, -, hc⟩ := asimov_inv h
  have hst : ∀ s, (F.prepared x0 d).stat = some s → ∃ s', F.stat = some s' ∧ s = { s' with beta0 := fun _ _ => defaultBeta0 s'.kind } := by
    intro s hs
    have hs : F.stat.map (fun s => { s with beta0 := fun _ _ => defaultBeta0 s.kind }) = some s := hs
    obtain ⟨s', h1, h2⟩ := Option.map_eq_some_iff.1 hs
    exact ⟨s', h1, h2.symm⟩
  refine ⟨?_, ?_, ?_, ?_, hp⟩
  · intro s hs b p
    obtain ⟨s', -, rfl⟩ := hst s hs
    rfl
  · intro s hs b p
    obtain ⟨s', h1, rfl⟩ := hst s hs
    exact hv.sumw2 s' h1 b p
  · intro hf
    refine ⟨(hv.cov hf).1, fun s hs => ?_⟩
    obtain ⟨s', h1, rfl⟩ := hst s hs
    exact (hv.cov hf).2 s' h1
  · intro hf b hb
    have hf' : F.fit = .chisq := hf
    show 0 < (if F.fit = .chisq then d.1 else F.varnobs) b
    rw [if_pos hf']
    exact hc hf' b hb

theorem unprofiled_prepared (F : Fitter) (x0 : Fin F.n → ℝ) (d) (nexp : Nat → ℝ) (norm : Nat → Nat → ℝ) :
    (F.prepared x0 d).unprofiled nexp norm = (F.reset x0).unprofiled nexp norm := by
  cases hs : (F.prepared x0 d).stat with
  | none =>
    have hs' : (F.reset x0).stat = none := hs
    unfold Fitter.unprofiled; rw [hs, hs']
  | some s =>
    have hs' : (F.reset x0).stat = some s := hs
    unfold Fitter.unprofiled; rw [hs, hs']
    cases s.mode <;> rfl

/-! ### property theorems -/

/-- C101: at the parameters the Asimov data were made with, every term of the likelihood is zero (external terms keep their
value). -/
theorem c101_zero_partial (F : Fitter) (hv : Spec.Valid F) (x0 : Fin F.n → ℝ) (d) (h : F.asimov x0 = .ok d)
    (hp : F.fit = .poisson → ∀ b < F.shape.nbins, 0 ≤ d.1 b) (hf : Spec.filled (F.prepared x0 d) x0)
    (hrows : F.regs = [] ∨ ∀ u v, (F.reset x0).expected true x0 = .ok u → (F.reset x0).expected false x0 = .ok v →
      ∀ b < F.shape.nbins, u b = v b) :
    (F.prepared x0 d).loss x0 = .ok (some ((Ext.computeExternal F.ext (List.ofFn x0)).getD 0)) := by
  have hready := ready F hv x0 d h hp
  obtain ⟨nexp0, h1, h2, h3, h4⟩ := asimov_inv h
  have hall := expectAll_spec h2
  have hemp : d.2.isEmpty = F.regs.isEmpty := isEmpty_of_forall₂ hall
  -- the yields that the loss computes
  have hyield : ∃ nexp norm, (F.reset x0).yields (!d.2.isEmpty) ((F.reset x0).params x0) ((F.reset x0).theta x0) = .ok (nexp, norm) ∧
      (∀ b < F.shape.nbins, d.1 b = (F.reset x0).unprofiled nexp norm b) ∧
      (F.regs = [] ∨ (F.reset x0).unprofiled nexp norm = nexp0) := by
    rw [hemp]
    have hex : ∀ full u, (F.reset x0).expected full x0 = .ok u → ∃ nexp norm,
        (F.reset x0).yields full ((F.reset x0).params x0) ((F.reset x0).theta x0) = .ok (nexp, norm) ∧
        (F.reset x0).unprofiled nexp norm = u := by
      intro full u hu
      unfold Fitter.expected at hu
      cases hy : (F.reset x0).yields full ((F.reset x0).params x0) ((F.reset x0).theta x0) with
      | error e => rw [hy] at hu; exact nomatch hu
      | ok y =>
        rw [hy] at hu
        exact ⟨y.1, y.2, rfl, Except.ok.inj hu⟩
    cases hr : F.regs with
    | nil =>
      obtain ⟨nexp, norm, h5, h6⟩ := hex false d.1 h3
      exact ⟨nexp, norm, h5, fun b _ => by rw [h6], .inl rfl⟩
    | cons r rs =>
      obtain ⟨nexp, norm, h5, h6⟩ := hex true nexp0 h1
      refine ⟨nexp, norm, h5, fun b hb => ?_, .inr h6⟩
      rw [h6]
      rcases hrows with h7 | h7
      · rw [h7] at hr; exact nomatch hr
      · exact (h7 _ _ h1 h3 b hb).symm
  obtain ⟨nexp, norm, hy, hobs, hn0⟩ := hyield
  have hy' : (F.prepared x0 d).yields (!(F.prepared x0 d).regs.isEmpty) ((F.prepared x0 d).params x0) ((F.prepared x0 d).theta x0) =
      .ok (nexp, norm) := hy
  have hun := unprofiled_prepared F x0 d nexp norm
  have hobs' : ∀ b < (F.prepared x0 d).shape.nbins, (F.prepared x0 d).nobs b = (F.prepared x0 d).unprofiled nexp norm b := by
    intro b hb
    rw [hun]
    exact hobs b hb
  obtain ⟨lb, hwb, hlb⟩ := withBeta_fixed (F.prepared x0 d) hready nexp norm hobs' (hf nexp norm hy')
  have hpen : (F.prepared x0 d).penalties ((F.prepared x0 d).unprofiled nexp norm) (F.prepared x0 d).regs =
      .ok (List.replicate d.2.length 0) := by
    rcases hn0 with hr | hn0
    · rw [hr] at hall
      have : d.2 = [] := List.eq_nil_of_length_eq_zero (by have h0 := hall.length_eq; rw [← h0]; rfl)
      show (F.prepared x0 d).penalties _ d.2 = _
      rw [this]
      rfl
    · rw [hun, hn0]
      exact penalties_zero (F.prepared x0 d) nexp0 hv.regs hall
  rw [loss_of hy' hwb hpen, ln_self _ _ hobs', hlb, penaltyTerm_zero]
  have hlc : lc false (F.prepared x0 d).cw (F.prepared x0 d).x0 (getX (F.prepared x0 d).cfg (F.prepared x0 d).mask (F.prepared x0 d).off x0 x0) = 0 := by
    refine (c21_zero_iff _ _ _ hv.cw).2 fun i hi => ?_
    refine getX_centre F hv x0 _ (fun hb => ?_) i hi.ne'
    exact if_pos hb
  rw [hlc]
  simp only [add_zero, zero_add]
  rfl

/-! ### away from the parameters of the data -/

theorem lite_applied_of_cost {P : Type} [Fintype P] (c : LiteBin P) (kind : Kind) (β : ℝ) (h : β = defaultBeta0 kind ∨ (kind = .normMult ∧ c.masked)) :
    c.applied kind β = c.nexp := by
  rcases h with rfl | ⟨rfl, hm⟩
  · exact lite_applied_default c kind
  · exact c.applied_masked (.inr rfl) hm β

theorem full_applied_of_cost {P : Type} [Fintype P] (c : FullBin P) (kind : Kind) (β : P → ℝ)
    (h : ∀ p, β p = defaultBeta0 kind ∨ (kind = .normMult ∧ c.masked p)) : c.applied kind β = c.nexp := by
  classical
  unfold FullBin.applied FullBin.nexp
  refine Finset.sum_congr rfl fun p _ => ?_
  cases kind
  · rcases h p with h | h
    · simp [FullBin.apply, h, defaultBeta0]
    · exact nomatch h.1
  · rcases h p with h | h
    · simp [FullBin.apply, h, defaultBeta0]
    · simp [FullBin.apply, h.2]
  · rcases h p with h | h
    · simp [FullBin.apply, h, defaultBeta0]
    · exact nomatch h.1

/-- moving β costs, unless the yields stay as they are -/
theorem withBeta_cost (G : Fitter) (h : Ready G) (hbins : G.shape.nbins ≤ G.shape.nbinsfull) (nexp : Nat → ℝ)
    (norm : Nat → Nat → ℝ) (nexp' : Nat → ℝ) (lb : Option ℝ) (hw : G.withBeta nexp norm = some (nexp', lb))
    (hd : ∀ s, G.stat = some s → s.kind = .gamma → ∀ b < G.shape.nbins,
      (s.mode = .lite → 0 < G.betaLite s norm b) ∧ (s.mode = .full → ∀ p : Fin G.shape.nproc, 0 < s.newton norm b p)) :
    0 ≤ lb.getD 0 ∧ (lb.getD 0 = 0 → ∀ b < G.shape.nbins, nexp' b = G.unprofiled nexp norm b) := by
  classical
  unfold Fitter.withBeta at hw
  cases hs : G.stat with
  | none =>
    rw [hs] at hw
    obtain ⟨rfl, rfl⟩ := Prod.mk.inj (Option.some.inj hw)
    refine ⟨le_rfl, fun _ b _ => ?_⟩
    unfold Fitter.unprofiled
    rw [hs]
  | some s =>
    rw [hs] at hw
    dsimp only at hw
    cases hm : s.mode with
    | lite =>
      rw [hm] at hw
      obtain ⟨rfl, rfl⟩ := Prod.mk.inj (Option.some.inj hw)
      have hk : ∀ b, 0 < (G.liteBin s norm b).k := fun b => (G.liteBin s norm b).k_pos fun p => h.sumw2 s hs b p
      have hpos : ∀ b, s.kind = .gamma → 0 < G.betaLite s norm b := by
        intro b hg
        by_cases hb : b < G.shape.nbins
        · exact (hd s hs hg b hb).1 hm
        · unfold Fitter.betaLite
          rw [dif_neg hb, h.beta0 s hs, hg]
          exact one_pos
      have hnn : ∀ b ∈ Finset.range G.shape.nbinsfull, 0 ≤
          lbeta s.kind (G.liteBin s norm b).masked (G.liteBin s norm b).k (s.beta0 b 0) (G.betaLite s norm b) := fun b _ => by
        rw [h.beta0 s hs]; exact lbeta_nonneg _ _ _ _ (hk b) (hpos b)
      refine ⟨Finset.sum_nonneg hnn, fun h0 b hb => ?_⟩
      have h1 := (Finset.sum_eq_zero_iff_of_nonneg hnn).1 h0 b (Finset.mem_range.2 (hb.trans_le hbins))
      rw [h.beta0 s hs] at h1
      rw [unprofiled_lite G h s hs hm]
      exact lite_applied_of_cost _ _ _ (lbeta_zero _ _ _ _ (hk b) (hpos b) h1)
    | full =>
      rw [hm] at hw
      dsimp only at hw
      by_cases hc : ∀ b < G.shape.nbinsfull, (G.betaFull s norm b).isSome
      · rw [if_pos hc] at hw
        obtain ⟨rfl, rfl⟩ := Prod.mk.inj (Option.some.inj hw)
        have hk : ∀ b p, 0 < (G.fullBin s norm b).k p := fun b p => (G.fullBin s norm b).k_pos (fun p => h.sumw2 s hs b p) p
        have hpos : ∀ b < G.shape.nbinsfull, ∀ p, s.kind = .gamma → 0 < (G.betaFull s norm b).getD (fun _ => 0) p := by
          intro b hb' p hg
          by_cases hb : b < G.shape.nbins
          · have h1 := (hd s hs hg b hb).2 hm p
            have h2 : G.betaFull s norm b = some fun p : Fin G.shape.nproc => s.newton norm b p := by
              unfold Fitter.betaFull
              rw [dif_pos hb, hg]
              cases hfit : G.fit with
              | poisson => rfl
              | chisq => rfl
              | covariance => exact absurd hg ((h.cov hfit).2 s hs)
            rw [h2]
            exact h1
          · have h2 : G.betaFull s norm b = some fun p : Fin G.shape.nproc => s.beta0 b p := by
              unfold Fitter.betaFull
              rw [dif_neg hb]
            rw [h2]
            show 0 < s.beta0 b p
            rw [h.beta0 s hs, hg]
            exact one_pos
        have hnn1 : ∀ b ∈ Finset.range G.shape.nbinsfull, ∀ p ∈ (Finset.univ : Finset (Fin G.shape.nproc)), 0 ≤
            lbeta s.kind ((G.fullBin s norm b).masked p) ((G.fullBin s norm b).k p) (s.beta0 b p)
              ((G.betaFull s norm b).getD (fun _ => 0) p) := fun b hb p _ => by
          rw [h.beta0 s hs]; exact lbeta_nonneg _ _ _ _ (hk b p) (hpos b (Finset.mem_range.1 hb) p)
        have hnn := fun b hb => Finset.sum_nonneg (hnn1 b hb)
        refine ⟨Finset.sum_nonneg hnn, fun h0 b hb => ?_⟩
        have hb' := Finset.mem_range.2 (hb.trans_le hbins)
        have h1 := (Finset.sum_eq_zero_iff_of_nonneg (hnn1 b hb')).1 ((Finset.sum_eq_zero_iff_of_nonneg hnn).1 h0 b hb')
        rw [unprofiled_full G h s hs hm]
        refine full_applied_of_cost _ _ _ fun p => ?_
        have h2 := h1 p (Finset.mem_univ p)
        rw [h.beta0 s hs] at h2
        exact lbeta_zero _ _ _ _ (hk b p) (hpos b (hb.trans_le hbins) p) h2
      · rw [if_neg hc] at hw; exact nomatch hw

theorem ln_cost (G : Fitter) (h : Ready G) (nexp : Nat → ℝ)
    (hd : G.fit = .poisson → ∀ b < G.shape.nbins, 0 ≤ nexp b ∧ (G.nobs b = 0 ∨ 0 < nexp b)) :
    0 ≤ G.ln nexp ∧ (G.ln nexp = 0 → ∀ b < G.shape.nbins, nexp b = G.nobs b) := by
  unfold Fitter.ln
  cases hfit : G.fit with
  | chisq =>
    dsimp only
    have hv := h.var hfit
    have hnn : ∀ b ∈ (Finset.univ : Finset (Fin G.shape.nbins)), 0 ≤ (nexp b - G.nobs b) ^ 2 / G.varnobs b := fun b _ =>
      div_nonneg (sq_nonneg _) (hv b b.2).le
    refine ⟨mul_nonneg (by norm_num) (Finset.sum_nonneg hnn), fun h0 b hb => ?_⟩
    have h1 := (Finset.sum_eq_zero_iff_of_nonneg hnn).1 ((mul_eq_zero.1 h0).resolve_left (by norm_num)) ⟨b, hb⟩ (Finset.mem_univ _)
    have h2 := (div_eq_zero_iff.1 h1).resolve_right (hv b hb).ne'
    have h3 : nexp b - G.nobs b = 0 := pow_eq_zero_iff (two_ne_zero) |>.1 h2
    linarith
  | covariance =>
    dsimp only
    have hW := (h.cov hfit).1
    refine ⟨(c22_cov_nonneg G.W hW.posSemidef _ _).1, fun h0 b hb => ?_⟩
    by_contra hne
    have hr : ((fun b : Fin G.shape.nbins => G.nobs b) - fun b : Fin G.shape.nbins => nexp b) ≠ 0 := fun h1 =>
      hne (by have := congrFun h1 ⟨b, hb⟩; simp at this; linarith)
    have h2 := hW.dotProduct_mulVec_pos hr
    simp only [star_trivial] at h2
    unfold lnCov at h0
    linarith
  | poisson =>
    dsimp only
    have hd := hd hfit
    have h1 := c19_total_zero_iff (fun b : Fin G.shape.nbins => G.nobs b) (fun b : Fin G.shape.nbins => nexp b)
      (fun b => h.pois hfit b b.2) (fun b => (hd b b.2).1) fun b => (hd b b.2).2
    exact ⟨h1.1, fun h0 b hb => congrFun (h1.2.1 h0) ⟨b, hb⟩⟩

theorem five_terms {a b c d e v : ℝ} (ha : 0 ≤ a) (hb : 0 ≤ b) (hc : 0 ≤ c) (hd : 0 ≤ d) (h : v = a + b + c + d + e) :
    e ≤ v ∧ (v = e → a = 0 ∧ b = 0 ∧ c = 0) :=
  ⟨by linarith, fun h1 => ⟨by linarith, by linarith, by linarith⟩⟩

/-- C101: nowhere is the likelihood smaller than its external terms, and where it is as small, all constrained parameters have
the values of the Asimov data and the expectation is the Asimov data. -/
theorem c101_minimum (F : Fitter) (hv : Spec.Valid F) (x0 : Fin F.n → ℝ) (d) (h : F.asimov x0 = .ok d)
    (hp : F.fit = .poisson → ∀ b < F.shape.nbins, 0 ≤ d.1 b) (x : Fin F.n → ℝ) (hx : Spec.domain (F.prepared x0 d) x)
    (v : ℝ) (hl : (F.prepared x0 d).loss x = .ok (some v)) :
    (Ext.computeExternal F.ext (List.ofFn x)).getD 0 ≤ v ∧
    (v = (Ext.computeExternal F.ext (List.ofFn x)).getD 0 → (∀ i, F.cw i ≠ 0 → x i = x0 i) ∧
      ∃ u, (F.reset x0).expected (!F.regs.isEmpty) x = .ok u ∧ ∀ b < F.shape.nbins, u b = d.1 b) := by
  have hready := ready F hv x0 d h hp
  obtain ⟨nexp0, h1, h2, h3, h4⟩ := asimov_inv h
  have hall := expectAll_spec h2
  have hemp : d.2.isEmpty = F.regs.isEmpty := isEmpty_of_forall₂ hall
  obtain ⟨nexp, norm, nexp', lb, ps, hy, hw, hps, hsum⟩ := loss_inv hl
  obtain ⟨hd1, hd2⟩ := hx nexp norm hy nexp' lb hw
  have hb := withBeta_cost (F.prepared x0 d) hready hv.bins nexp norm nexp' lb hw hd2
  have hn := ln_cost (F.prepared x0 d) hready nexp' hd1
  have hc : 0 ≤ lc false (F.prepared x0 d).cw (F.prepared x0 d).x0 (getX (F.prepared x0 d).cfg (F.prepared x0 d).mask (F.prepared x0 d).off x x) :=
    (c21_constraint_terms _ _ _ hv.cw).2
  have hr : ∀ r ∈ (F.prepared x0 d).regs, ∃ m, svdInit m = .ok r.1 := by
    intro r hr
    have hr : r ∈ d.2 := hr
    obtain ⟨i, hi, rfl⟩ := List.mem_iff_getElem.1 hr
    have hi' : i < F.regs.length := by rw [hall.length_eq]; exact hi
    have := (List.forall₂_iff_get.1 hall).2 i hi' hi
    obtain ⟨m, hm, -⟩ := hv.regs _ (List.getElem_mem hi')
    exact ⟨m, hm.trans (by rw [show (d.2[i]).1 = (F.regs[i]).1 from this.1])⟩
  have hpen := penaltyTerm_nonneg (F.prepared x0 d).tau2 hv.tau ps (penalties_nonneg (F.prepared x0 d) nexp' hr hps)
  have hfact : (Ext.computeExternal F.ext (List.ofFn x)).getD 0 ≤ v ∧ (v = (Ext.computeExternal F.ext (List.ofFn x)).getD 0 → _) :=
    five_terms hn.1 hc hb.1 hpen hsum
  refine ⟨hfact.1, fun he => ?_⟩
  obtain ⟨he1, he2, he3⟩ := hfact.2 he
  have hb0 := hb.2 he3
  have hn0 := hn.2 he1
  have hc0 := (c21_zero_iff _ _ _ hv.cw).1 he2
  refine ⟨fun i hi => ?_, (F.reset x0).unprofiled nexp norm, ?_, fun b hb => ?_⟩
  · rw [← getX_centre F hv x (F.prepared x0 d).off (fun hbl => if_pos hbl) i hi]
    exact hc0 i (lt_of_le_of_ne (hv.cw i) (Ne.symm hi))
  · have hy' : (F.reset x0).yields (!d.2.isEmpty) ((F.reset x0).params x) ((F.reset x0).theta x) = .ok (nexp, norm) := hy
    rw [hemp] at hy'
    unfold Fitter.expected
    rw [hy']
  · have hun : (F.prepared x0 d).unprofiled nexp norm = (F.reset x0).unprofiled nexp norm := unprofiled_prepared F x0 d nexp norm
    rw [← hun, ← hb0 b hb]
    exact hn0 b hb

/-- C101: without external terms the likelihood of the Asimov data is zero at their parameters, and negative nowhere. -/
theorem c101_closure_partial (F : Fitter) (hv : Spec.Valid F) (hext : F.ext = []) (x0 : Fin F.n → ℝ) (d) (h : F.asimov x0 = .ok d)
    (hp : F.fit = .poisson → ∀ b < F.shape.nbins, 0 ≤ d.1 b) (hf : Spec.filled (F.prepared x0 d) x0)
    (hrows : F.regs = [] ∨ ∀ u v, (F.reset x0).expected true x0 = .ok u → (F.reset x0).expected false x0 = .ok v →
      ∀ b < F.shape.nbins, u b = v b) :
    (F.prepared x0 d).loss x0 = .ok (some 0) ∧
    ∀ x, Spec.domain (F.prepared x0 d) x → ∀ v, (F.prepared x0 d).loss x = .ok (some v) → 0 ≤ v := by
  have he : ∀ l : List ℝ, (Ext.computeExternal F.ext l).getD 0 = 0 := fun l => by rw [hext]; rfl
  refine ⟨?_, fun x hx v hl => ?_⟩
  · rw [c101_zero_partial F hv x0 d h hp hf hrows, he]
  · have := (c101_minimum F hv x0 d h hp x hx v hl).1
    rwa [he] at this

theorem domain_of_positive (G : Fitter) (hready : Ready G) (hm' : ∀ s, G.stat = some s → s.mode = .lite) (x : Fin G.n → ℝ)
    (hx : Spec.positive G x) : Spec.domain G x := by
  classical
  intro nexp norm hy nexp' lb hw
  have hpos := hx nexp norm hy
  unfold Fitter.withBeta at hw
  cases hs : G.stat with
  | none =>
    rw [hs] at hw
    obtain ⟨rfl, rfl⟩ := Prod.mk.inj (Option.some.inj hw)
    refine ⟨fun _ b hb => ?_, fun s hs' => nomatch hs'⟩
    have := (hpos b hb).1 hs
    exact ⟨this.le, .inr this⟩
  | some s =>
    have hmode := hm' s hs
    rw [hs] at hw
    dsimp only at hw
    rw [hmode] at hw
    obtain ⟨rfl, rfl⟩ := Prod.mk.inj (Option.some.inj hw)
    -- one bin
    have hA : ∀ b < G.shape.nbins, 0 < (G.liteBin s norm b).nActive := fun b hb => ((hpos b hb).2 s hs).1
    have hZ : ∀ b < G.shape.nbins, 0 ≤ (G.liteBin s norm b).nZero := fun b hb => ((hpos b hb).2 s hs).2
    have hs2 : ∀ b p, 0 ≤ (G.liteBin s norm b).sumw2 p := fun b p => hready.sumw2 s hs b p
    have hb0 : ∀ b, (G.liteBin s norm b).beta0 = defaultBeta0 s.kind := fun b => hready.beta0 s hs b 0
    have hnexp : ∀ b < G.shape.nbins, 0 < (G.liteBin s norm b).nexp := fun b hb => by
      rw [lite_nexp]; linarith [hA b hb, hZ b hb]
    refine ⟨fun hfit b hb => ?_, fun s' hs' hg b hb => ?_⟩
    · have hβ : G.betaLite s norm b = (G.liteBin s norm b).profile .poisson s.kind := by
        unfold Fitter.betaLite
        rw [dif_pos hb, hfit]
      have hn : 0 ≤ (G.liteBin s norm b).nobs := hready.pois hfit b hb
      have hfin : ∀ μ : ℝ, (0 < μ ∨ ((G.liteBin s norm b).nobs = 0 ∧ 0 ≤ μ)) → 0 ≤ μ ∧ (G.nobs b = 0 ∨ 0 < μ) := by
        rintro μ (h1 | ⟨h1, h2⟩)
        · exact ⟨h1.le, .inr h1⟩
        · exact ⟨h2, .inl h1⟩
      dsimp only
      rw [hβ]
      refine hfin _ ?_
      cases hk : s.kind with
      | gamma =>
        by_cases hmk : (G.liteBin s norm b).masked
        · rw [LiteBin.applied_masked _ (.inl rfl) hmk]; exact .inl (hnexp b hb)
        · have h1 := (c29_gamma_lite_poisson_minimises (G.liteBin s norm b) hmk (hs2 b) (hA b hb) (hZ b hb) hn
            (by rw [hb0, hk]; exact zero_le_one)).1.1 rfl
          rw [mean_mult _ (.inl rfl)] at h1
          rw [LiteBin.applied_mult _ (.inl rfl) hmk]
          exact h1
      | normMult =>
        by_cases hmk : (G.liteBin s norm b).masked
        · rw [LiteBin.applied_masked _ (.inr rfl) hmk]; exact .inl (hnexp b hb)
        · have h1 := (c30_normal_mult_lite_poisson_minimises (G.liteBin s norm b) hmk (hs2 b) (hA b hb) hn).1.1 rfl
          rw [mean_mult _ (.inr rfl)] at h1
          rw [LiteBin.applied_mult _ (.inr rfl) hmk]
          exact h1
      | normAdd =>
        rw [LiteBin.applied_add _ (hA b hb)]
        by_cases hvb : (G.liteBin s norm b).varbeta = 0
        · rw [hvb, Real.sqrt_zero, zero_mul, add_zero]; exact .inl (hnexp b hb)
        · exact (c30_normal_add_lite_poisson_minimises (G.liteBin s norm b) (hs2 b) hn hvb).1.1 rfl
    · cases hs'
      refine ⟨fun _ => ?_, fun hfull => by rw [hmode] at hfull; exact nomatch hfull⟩
      have hβ0 : (G.liteBin s norm b).beta0 = 1 := by rw [hb0, hg]; rfl
      unfold Fitter.betaLite
      rw [dif_pos hb, hg]
      cases hfit : G.fit with
      | poisson =>
        dsimp only
        by_cases hmk : (G.liteBin s norm b).masked
        · simp only [LiteBin.profile, hmk, if_true]; rw [hβ0]; exact one_pos
        · have h1 := (c29_gamma_lite_poisson_minimises (G.liteBin s norm b) hmk (hs2 b) (hA b hb) (hZ b hb) (hready.pois hfit b hb)
            (by rw [hβ0]; exact zero_le_one)).1.2 rfl
          exact h1.resolve_right fun h2 => by rw [hβ0] at h2; exact one_ne_zero h2.1
      | chisq =>
        dsimp only
        by_cases hmk : (G.liteBin s norm b).masked
        · simp only [LiteBin.profile, hmk, if_true]; rw [hβ0]; exact one_pos
        · have h1 := (c31_gamma_lite_chisq_minimises (G.liteBin s norm b) hmk (hs2 b) (hA b hb) (hready.var hfit b hb)
            (by rw [hβ0]; exact zero_le_one)).1
          exact h1.resolve_right fun h2 => by rw [hβ0] at h2; exact one_ne_zero h2.1
      | covariance => exact absurd hg ((hready.cov hfit).2 s hs)

/-- C101: without β, and with one β per bin, positive yields are in the domain. -/
theorem c101_domain (F : Fitter) (hv : Spec.Valid F) (x0 : Fin F.n → ℝ) (d) (h : F.asimov x0 = .ok d)
    (hp : F.fit = .poisson → ∀ b < F.shape.nbins, 0 ≤ d.1 b) (hm : ∀ s, F.stat = some s → s.mode = .lite) (x : Fin F.n → ℝ)
    (hx : Spec.positive (F.prepared x0 d) x) : Spec.domain (F.prepared x0 d) x := by
  refine domain_of_positive _ (ready F hv x0 d h hp) (fun s hs => ?_) x hx
  have hs : F.stat.map (fun s => { s with beta0 := fun _ _ => defaultBeta0 s.kind }) = some s := hs
  obtain ⟨s', h1, rfl⟩ := Option.map_eq_some_iff.1 hs
  exact hm s' h1

namespace Ex

/-- one bin, one process scaled by a signal strength, bin-by-bin uncertainty of gamma type with one parameter per bin -/
def sigBin : Fitter :=
  { oneBin with
    fit := .poisson
    stat := some ⟨.lite, .gamma, fun _ _ => 1, fun _ _ => 1, fun _ _ => 1, 0, fun _ _ _ => 0⟩ }

theorem sig_valid : Spec.Valid sigBin where
  sumw2 := fun s hs b p => by cases hs; exact zero_le_one
  cov := fun h => nomatch h
  cw := fun _ => le_rfl
  poi := fun h => nomatch h
  tau := one_pos
  regs := fun r hr => nomatch hr
  bins := le_rfl

theorem sig_params (x0 : ℝ) (d) (m : ℝ) : (sigBin.prepared (pt x0) d).params (pt m) = [m] := oneBin_params m

theorem sig_yields (full : Bool) (m : ℝ) (θ : Nat → ℝ) : ∃ nexp norm, oneBin.yields full [m] θ = .ok (nexp, norm) ∧ norm 0 0 = m := by
  cases full
  all_goals
    refine ⟨_, _, rfl, ?_⟩
    simp [Dense.yield, oneBin, Dense.scaled, PModel.nparams, SatTest.muModel, Dense.logsnorm, Shape.ncol, Yields.Rates.at]

theorem sig_expected (full : Bool) (x0 m : ℝ) : ∃ u, (sigBin.reset (pt x0)).expected full (pt m) = .ok u ∧ u 0 = m := by
  obtain ⟨nexp, norm, h1, h2⟩ := sig_yields full m ((sigBin.reset (pt x0)).theta (pt m))
  have h1' : (sigBin.reset (pt x0)).yields full ((sigBin.reset (pt x0)).params (pt m)) ((sigBin.reset (pt x0)).theta (pt m)) =
      .ok (nexp, norm) := by
    rw [show (sigBin.reset (pt x0)).params (pt m) = [m] from oneBin_params m]
    exact h1
  refine ⟨(sigBin.reset (pt x0)).unprofiled nexp norm, ?_, ?_⟩
  · unfold Fitter.expected
    rw [h1']
  · have := lite_applied_default ((sigBin.reset (pt x0)).liteBin ⟨.lite, .gamma, fun _ _ => 1, fun _ _ => 1, fun _ _ => 1, 0, fun _ _ _ => 0⟩ norm 0) .gamma
    refine Eq.trans ?_ (this.trans ?_)
    · rfl
    · show ∑ p : Fin 1, norm 0 p = m
      simp [h2]

theorem sig_asimov (x0 : ℝ) : ∃ d, sigBin.asimov (pt x0) = .ok d ∧ d.1 0 = x0 ∧ d.2 = [] := by
  classical
  obtain ⟨u, h1, -⟩ := sig_expected true x0 x0
  obtain ⟨v, h2, h3⟩ := sig_expected false x0 x0
  refine ⟨(v, []), ?_, h3, rfl⟩
  unfold Fitter.asimov
  dsimp only
  rw [h1]
  dsimp only
  rw [show (sigBin.reset (pt x0)).regs = [] from rfl]
  unfold Fitter.expectAll
  dsimp only
  rw [h2]
  dsimp only
  rw [if_neg fun h => nomatch h.1]

/-- the likelihood of the data of signal strength zero at signal strength `m` -/
theorem sig_loss (d) (hd0 : d.1 0 = 0) (hd2 : d.2 = []) (m : ℝ) (hm : 0 ≤ m) :
    (sigBin.prepared (pt 0) d).loss (pt m) = .ok (some (if m = 0 then Real.log 2 - 1 / 2 else Real.log (1 + m))) := by
  obtain ⟨nexp, norm, h1, h2⟩ := sig_yields false m ((sigBin.prepared (pt 0) d).theta (pt m))
  have hy : (sigBin.prepared (pt 0) d).yields (!(sigBin.prepared (pt 0) d).regs.isEmpty) ((sigBin.prepared (pt 0) d).params (pt m))
      ((sigBin.prepared (pt 0) d).theta (pt m)) = .ok (nexp, norm) := by
    rw [sig_params, show (sigBin.prepared (pt 0) d).regs = [] from hd2]
    exact h1
  set st : Stat := ⟨.lite, .gamma, fun _ _ => 1, fun _ _ => 1, fun _ _ => 1, 0, fun _ _ _ => 0⟩ with hs
  have hn : ∀ p : Fin 1, norm 0 p = m := fun p => by rw [show (p : Nat) = 0 by omega, h2]
  set c := (sigBin.prepared (pt 0) d).liteBin st norm 0 with hc
  have hmk : ¬ c.masked := by
    show ¬ betamask 0 (liteSumw (fun _ : Fin 1 => (1 : ℝ)) fun _ => 1) (liteVar fun _ : Fin 1 => (1 : ℝ))
    simp [betamask, liteSumw, liteVar]
  have hA : c.nActive = m := by
    show (∑ p : Fin 1, if (1 : ℝ) = 0 then 0 else norm 0 p) = m
    simp [h2]
  have hZ : c.nZero = 0 := by
    show (∑ p : Fin 1, if (1 : ℝ) = 0 then norm 0 p else 0) = 0
    simp
  have hk : c.k = 1 := by
    rw [c29_constraint_strength c hmk]
    show (∑ _p : Fin 1, if (1 : ℝ) = 0 then 0 else (1 : ℝ)) ^ 2 / ∑ _p : Fin 1, (1 : ℝ) = 1
    simp
  have hnobs : c.nobs = 0 := hd0
  have hb0 : c.beta0 = 1 := rfl
  have hβ : (sigBin.prepared (pt 0) d).betaLite st norm 0 = if m = 0 then 1 / 2 else 1 / (1 + m) := by
    have : (sigBin.prepared (pt 0) d).betaLite st norm 0 = c.profile .poisson .gamma := rfl
    rw [this]
    simp only [LiteBin.profile, hmk, if_false, LiteBin.nActiveSafe, hA, hZ, hk, hnobs, hb0]
    rcases eq_or_lt_of_le hm with h0 | h0
    · subst h0
      simp only [gt_iff_lt, lt_irrefl, if_false, if_true]
      refine solveQuadEq_of_roots (s := 0) (by norm_num) (by norm_num) (by norm_num) (by norm_num)
    · simp only [gt_iff_lt, h0, h0.ne', if_true, if_false]
      refine solveQuadEq_of_roots (s := 0) (by positivity) ?_ (by ring) (by positivity)
      field_simp
      ring
  have hw : (sigBin.prepared (pt 0) d).withBeta nexp norm = some (fun b => ((sigBin.prepared (pt 0) d).liteBin st norm b).applied .gamma
      ((sigBin.prepared (pt 0) d).betaLite st norm b), some (∑ b ∈ Finset.range 1,
        lbeta .gamma ((sigBin.prepared (pt 0) d).liteBin st norm b).masked ((sigBin.prepared (pt 0) d).liteBin st norm b).k 1
          ((sigBin.prepared (pt 0) d).betaLite st norm b))) := rfl
  rw [loss_of hy hw (ps := []) (by rw [show (sigBin.prepared (pt 0) d).regs = [] from hd2]; rfl)]
  have hcw : (sigBin.prepared (pt 0) d).cw = fun _ => 0 := rfl
  have hlc : ∀ z, lc false (sigBin.prepared (pt 0) d).cw (sigBin.prepared (pt 0) d).x0 z = 0 := fun z => by rw [hcw]; simp [lc]
  rw [hlc]
  have hln : (sigBin.prepared (pt 0) d).ln (fun b => ((sigBin.prepared (pt 0) d).liteBin st norm b).applied .gamma
      ((sigBin.prepared (pt 0) d).betaLite st norm b)) = m * (if m = 0 then 1 / 2 else 1 / (1 + m)) := by
    show lnPoisson false (fun b : Fin 1 => d.1 b) (fun b : Fin 1 => ((sigBin.prepared (pt 0) d).liteBin st norm b).applied .gamma
      ((sigBin.prepared (pt 0) d).betaLite st norm b)) = _
    simp only [lnPoisson, Bool.false_eq_true, if_false, Finset.univ_unique, Fin.default_eq_zero, Finset.sum_singleton, Fin.val_zero,
      Fin.isValue]
    rw [hβ, ← hc, LiteBin.applied_mult _ (.inl rfl) hmk, hA, hZ, hd0]
    simp [poissonBin, lognobs]
  rw [hln]
  simp only [Option.getD_some, Finset.sum_range_one, ← hc, hk, hβ]
  congr 2
  by_cases h0 : m = 0
  · subst h0
    simp [lbeta, penaltyTerm, sigBin, oneBin, Fitter.prepared, Fitter.reset, Ext.computeExternal]
    ring
  · simp [lbeta, penaltyTerm, sigBin, oneBin, Fitter.prepared, Fitter.reset, Ext.computeExternal, h0]
    have : 1 + m ≠ 0 := by positivity
    field_simp
    ring

end Ex

/-- C101 fails in a bin in which only processes without yield have a statistical uncertainty, as with `--expectSignal 0` in a bin
with nothing but signal: the replacement of the vanishing sum by one moves β away from its centre, and the likelihood at the
parameters of the Asimov data is larger than at other signal strengths. -/
theorem c101_lite_violated : ∃ (F : Fitter) (x0 x : Fin F.n → ℝ) (d : (Nat → ℝ) × List (Svd ℝ × Grid.Tensor ℝ)) (v v0 : ℝ),
    Spec.Valid F ∧ F.ext = [] ∧ F.asimov x0 = .ok d ∧ (∀ b, 0 ≤ d.1 b ∨ F.shape.nbins ≤ b) ∧
    (F.prepared x0 d).loss x0 = .ok (some v0) ∧ (F.prepared x0 d).loss x = .ok (some v) ∧ 0 < v ∧ v < v0 := by
  obtain ⟨d, h1, h2, h3⟩ := Ex.sig_asimov 0
  refine ⟨Ex.sigBin, Ex.pt 0, Ex.pt (1 / 20), d, _, _, Ex.sig_valid, rfl, h1, fun b => ?_, Ex.sig_loss d h2 h3 0 le_rfl,
    Ex.sig_loss d h2 h3 (1 / 20) (by norm_num), ?_, ?_⟩
  · rcases Nat.eq_zero_or_pos b with rfl | hb
    · exact .inl h2.ge
    · exact .inr hb
  · rw [if_neg (by norm_num)]
    exact Real.log_pos (by norm_num)
  · rw [if_neg (by norm_num), if_pos rfl]
    have h4 := Real.log_lt_sub_one_of_pos (x := 1 + 1 / 20) (by norm_num) (by norm_num)
    have h5 : Real.log 2 = Real.log (4 / 3) + Real.log (3 / 2) := by
      rw [← Real.log_mul (by norm_num) (by norm_num)]; norm_num
    have h6 := Real.one_sub_inv_le_log_of_pos (x := 4 / 3) (by norm_num)
    have h7 := Real.one_sub_inv_le_log_of_pos (x := 3 / 2) (by norm_num)
    norm_num at h6 h7 h4
    linarith

/-- the hypotheses of the closure are met with an expected signal, and every positive signal strength is in the domain -/
example : ∃ d, Ex.sigBin.asimov (Ex.pt 1) = .ok d ∧ (∀ b < Ex.sigBin.shape.nbins, 0 ≤ d.1 b) ∧
    Spec.filled (Ex.sigBin.prepared (Ex.pt 1) d) (Ex.pt 1) ∧ (Ex.sigBin.prepared (Ex.pt 1) d).loss (Ex.pt 1) = .ok (some 0) ∧
    ∀ m, 0 < m → Spec.domain (Ex.sigBin.prepared (Ex.pt 1) d) (Ex.pt m) := by
  obtain ⟨d, h1, h2, h3⟩ := Ex.sig_asimov 1
  have hpos : ∀ b < Ex.sigBin.shape.nbins, 0 ≤ d.1 b := fun b hb => by
    rw [show b = 0 from Nat.lt_one_iff.1 hb, h2]; exact zero_le_one
  have hy : ∀ m : ℝ, ∀ nexp norm, (Ex.sigBin.prepared (Ex.pt 1) d).yields (!(Ex.sigBin.prepared (Ex.pt 1) d).regs.isEmpty)
      ((Ex.sigBin.prepared (Ex.pt 1) d).params (Ex.pt m)) ((Ex.sigBin.prepared (Ex.pt 1) d).theta (Ex.pt m)) = .ok (nexp, norm) →
      norm 0 0 = m := by
    intro m nexp norm h
    obtain ⟨nexp', norm', h4, h5⟩ := Ex.sig_yields false m ((Ex.sigBin.prepared (Ex.pt 1) d).theta (Ex.pt m))
    rw [Ex.sig_params, show (Ex.sigBin.prepared (Ex.pt 1) d).regs = [] from h3] at h
    have h : Ex.oneBin.yields false [m] ((Ex.sigBin.prepared (Ex.pt 1) d).theta (Ex.pt m)) = .ok (nexp, norm) := h
    rw [h4] at h
    cases h
    exact h5
  have hA : ∀ m : ℝ, ∀ nexp norm, (Ex.sigBin.prepared (Ex.pt 1) d).yields (!(Ex.sigBin.prepared (Ex.pt 1) d).regs.isEmpty)
      ((Ex.sigBin.prepared (Ex.pt 1) d).params (Ex.pt m)) ((Ex.sigBin.prepared (Ex.pt 1) d).theta (Ex.pt m)) = .ok (nexp, norm) →
      (∑ p : Fin 1, if (1 : ℝ) = 0 then 0 else norm 0 p) = m := fun m nexp norm h => by simp [hy m nexp norm h]
  have hf : Spec.filled (Ex.sigBin.prepared (Ex.pt 1) d) (Ex.pt 1) := by
    intro nexp norm h s hs b hb
    obtain rfl : b = 0 := Nat.lt_one_iff.1 hb
    cases hs
    refine ⟨fun _ _ => .inl ?_, fun h => (nomatch h), fun h => (nomatch h)⟩
    have := hA 1 nexp norm h
    exact lt_of_lt_of_eq one_pos this.symm
  refine ⟨d, h1, hpos, hf, (c101_closure_partial _ Ex.sig_valid rfl _ d h1 (fun _ => hpos) hf (.inl rfl)).1, fun m hm => ?_⟩
  refine c101_domain _ Ex.sig_valid _ d h1 (fun _ => hpos) (fun s hs => by cases hs; rfl) _ fun nexp norm h b hb => ?_
  obtain rfl : b = 0 := Nat.lt_one_iff.1 hb
  refine ⟨fun h => (nomatch h), fun s hs => ?_⟩
  cases hs
  refine ⟨lt_of_lt_of_eq hm (hA m nexp norm h).symm, ?_⟩
  have : (∑ p : Fin 1, if (1 : ℝ) = 0 then norm 0 p else 0) = 0 := by simp
  exact this.ge

end

end Verif.LinearFit
