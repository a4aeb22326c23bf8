import Verif.Props.Yields
import Verif.Props.Asimov
import Verif.Lemmas.Reorder

/-!
C102 What is not fitted, how the templates are stored and in which order the processes come does not change the likelihood.
-/

namespace Verif.LinearFit

open Verif.BBB Verif.Yields Verif.ParamModels Verif.FitParams Verif.Regularization Matrix

noncomputable section

/-! ### specification -/

namespace Spec

/-- The same fit with another number of bins in total, other templates and other rates; the fitted bins, the data and the
parameters stay. -/
def remade (F : Fitter) (N : Nat) (compute : List ℝ → Bool → Res (ParamModels.Rates ℝ)) (body : Body) (rinit : Yields.Rates) (stat : Option Stat) :
    Fitter where
  model := { F.model with compute := compute }
  shape := { F.shape with nbinsfull := N }
  body := body
  rinit := rinit
  fit := F.fit
  nobs := F.nobs
  varnobs := F.varnobs
  W := F.W
  stat := stat
  doBlinding := F.doBlinding
  off := F.off
  mask := F.mask
  cw := F.cw
  x0 := F.x0
  regs := F.regs
  tau2 := F.tau2
  ext := F.ext
  force := F.force

/-- two results agree in `nb` bins and `np` processes, or are the same exception -/
def sameYields (nb np : Nat) (a b : Res ((Nat → ℝ) × (Nat → Nat → ℝ))) : Prop :=
  (∃ e, a = .error e ∧ b = .error e) ∨
  ∃ u v, a = .ok u ∧ b = .ok v ∧ ∀ i < nb, u.1 i = v.1 i ∧ ∀ p < np, u.2 i p = v.2 i p

/-- the statistical treatment agrees in `nb` bins; the iteration reads nothing else -/
def sameStat (nb np : Nat) : Option Stat → Option Stat → Prop
  | none, none => True
  | some s, some t => s.mode = t.mode ∧ s.kind = t.kind ∧ s.minK = t.minK ∧
    (∀ b < nb, (∀ p < np, s.sumw b p = t.sumw b p ∧ s.sumw2 b p = t.sumw2 b p) ∧ ∀ p, s.beta0 b p = t.beta0 b p) ∧
    ∀ y z : Nat → Nat → ℝ, (∀ b < nb, ∀ p < np, y b p = z b p) → ∀ b < nb, ∀ p < np, s.newton y b p = t.newton z b p
  | _, _ => False

/-- templates agree in `nb` bins -/
def sameDense (nb np : Nat) (d e : Dense) : Prop :=
  ∀ b < nb, ∀ p < np, d.norm b p = e.norm b p ∧ ∀ k c, d.logk b p k c = e.logk b p k c

/-- the statistical treatment of processes that come in the order `σ` -/
def reorderStat (σ : Equiv.Perm Nat) (s : Stat) : Stat where
  mode := s.mode
  kind := s.kind
  sumw := fun b p => s.sumw b (σ p)
  sumw2 := fun b p => s.sumw2 b (σ p)
  beta0 := fun b p => match s.mode with
    | .lite => s.beta0 b p
    | .full => s.beta0 b (σ p)
  minK := s.minK
  newton := fun y b p => s.newton (fun b p => y b (σ.symm p)) b (σ p)

/-- the same templates with the processes in the order `σ`: place `p` holds process `σ p` -/
def reorderBody (σ : Equiv.Perm Nat) : Body → Body
  | .dense d => .dense ⟨fun b p => d.norm b (σ p), fun b p => d.logk b (σ p)⟩
  | .sparse t => .sparse ⟨t.norm.map fun e => (e.1, σ.symm e.2.1, e.2.2), t.logk⟩

/-- the same fit with the processes in the order `σ`; rates of one column stay -/
def reorder (σ : Equiv.Perm Nat) (F : Fitter) : Fitter where
  model := { F.model with
    compute := fun param full => match F.model.compute param full with
      | .error e => .error e
      | .ok r => .ok ⟨r.rows, r.cols, fun b p => if r.cols = 1 then r.val b p else r.val b (σ p)⟩ }
  shape := F.shape
  body := reorderBody σ F.body
  rinit := ⟨F.rinit.rows, fun b p => F.rinit.val b (σ p)⟩
  fit := F.fit
  nobs := F.nobs
  varnobs := F.varnobs
  W := F.W
  stat := F.stat.map (reorderStat σ)
  doBlinding := F.doBlinding
  off := F.off
  mask := F.mask
  cw := F.cw
  x0 := F.x0
  regs := F.regs
  tau2 := F.tau2
  ext := F.ext
  force := F.force

end Spec

/-! ### the same fitted bins -/

theorem lbeta_centre (kind : Kind) (m : Prop) (k β0 : ℝ) : lbeta kind m k β0 β0 = 0 := by
  classical
  cases kind
  · simp only [lbeta]
    split_ifs <;> simp
  · simp [lbeta]
  · simp [lbeta]

section same
variable {F : Fitter} {N : Nat} {compute : List ℝ → Bool → Res (ParamModels.Rates ℝ)} {body : Body} {rinit : Yields.Rates}
  {s t : Stat} {y z : Nat → Nat → ℝ}

theorem liteBin_same (hs : Spec.sameStat F.shape.nbins F.shape.nproc (some s) (some t))
    (hy : ∀ b < F.shape.nbins, ∀ p < F.shape.nproc, y b p = z b p) {b : Nat} (hb : b < F.shape.nbins) (st : Option Stat) :
    (Spec.remade F N compute body rinit st).liteBin t z b = F.liteBin s y b := by
  obtain ⟨-, -, h3, h4, -⟩ := hs
  obtain ⟨h5, h6⟩ := h4 b hb
  unfold Fitter.liteBin
  have e1 : (fun p : Fin F.shape.nproc => t.sumw b p) = fun p : Fin F.shape.nproc => s.sumw b p := funext fun p => ((h5 p p.2).1).symm
  have e2 : (fun p : Fin F.shape.nproc => t.sumw2 b p) = fun p : Fin F.shape.nproc => s.sumw2 b p := funext fun p => ((h5 p p.2).2).symm
  have e3 : (fun p : Fin F.shape.nproc => z b p) = fun p : Fin F.shape.nproc => y b p := funext fun p => (hy b hb p p.2).symm
  show LiteBin.mk (fun p : Fin F.shape.nproc => t.sumw b p) (fun p : Fin F.shape.nproc => t.sumw2 b p) (fun p : Fin F.shape.nproc => z b p) _ _ _ _ = _
  rw [e1, e2, e3, ← h6 0, ← h3]
  rfl

theorem fullBin_same (hs : Spec.sameStat F.shape.nbins F.shape.nproc (some s) (some t))
    (hy : ∀ b < F.shape.nbins, ∀ p < F.shape.nproc, y b p = z b p) {b : Nat} (hb : b < F.shape.nbins) (st : Option Stat) :
    (Spec.remade F N compute body rinit st).fullBin t z b = F.fullBin s y b := by
  obtain ⟨-, -, h3, h4, -⟩ := hs
  obtain ⟨h5, h6⟩ := h4 b hb
  unfold Fitter.fullBin
  have e1 : (fun p : Fin F.shape.nproc => t.sumw b p) = fun p : Fin F.shape.nproc => s.sumw b p := funext fun p => ((h5 p p.2).1).symm
  have e2 : (fun p : Fin F.shape.nproc => t.sumw2 b p) = fun p : Fin F.shape.nproc => s.sumw2 b p := funext fun p => ((h5 p p.2).2).symm
  have e3 : (fun p : Fin F.shape.nproc => z b p) = fun p : Fin F.shape.nproc => y b p := funext fun p => (hy b hb p p.2).symm
  have e4 : (fun p : Fin F.shape.nproc => t.beta0 b p) = fun p : Fin F.shape.nproc => s.beta0 b p := funext fun p => (h6 p).symm
  show FullBin.mk (fun p : Fin F.shape.nproc => t.sumw b p) (fun p : Fin F.shape.nproc => t.sumw2 b p) (fun p : Fin F.shape.nproc => z b p) _ _
    (fun p : Fin F.shape.nproc => t.beta0 b p) _ = _
  rw [e1, e2, e3, e4, ← h3]
  rfl

theorem covLite_same (hs : Spec.sameStat F.shape.nbins F.shape.nproc (some s) (some t))
    (hy : ∀ b < F.shape.nbins, ∀ p < F.shape.nproc, y b p = z b p) (st : Option Stat) :
    (Spec.remade F N compute body rinit st).covLite t z = F.covLite s y := by
  have h : ∀ b : Fin F.shape.nbins, (Spec.remade F N compute body rinit st).liteBin t z b = F.liteBin s y b := fun b =>
    liteBin_same hs hy b.2 st
  have h6 : (fun b : Fin F.shape.nbins => t.beta0 b 0) = fun b : Fin F.shape.nbins => s.beta0 b 0 := funext fun b => ((hs.2.2.2.1 b b.2).2 0).symm
  unfold Fitter.covLite
  show CovLite.mk F.W _ (fun b : Fin F.shape.nbins => ((Spec.remade F N compute body rinit st).liteBin t z b).nActiveSafe)
    (fun b : Fin F.shape.nbins => ((Spec.remade F N compute body rinit st).liteBin t z b).nZero)
    (fun b : Fin F.shape.nbins => ((Spec.remade F N compute body rinit st).liteBin t z b).nexp)
    (fun b : Fin F.shape.nbins => ((Spec.remade F N compute body rinit st).liteBin t z b).k)
    (fun b : Fin F.shape.nbins => ((Spec.remade F N compute body rinit st).liteBin t z b).varbeta)
    (fun b : Fin F.shape.nbins => t.beta0 b 0)
    (fun b : Fin F.shape.nbins => ((Spec.remade F N compute body rinit st).liteBin t z b).masked) = _
  simp only [h, h6]
  rfl

theorem covFull_same (hs : Spec.sameStat F.shape.nbins F.shape.nproc (some s) (some t))
    (hy : ∀ b < F.shape.nbins, ∀ p < F.shape.nproc, y b p = z b p) (st : Option Stat) :
    (Spec.remade F N compute body rinit st).covFull t z = F.covFull s y := by
  have h : ∀ b : Fin F.shape.nbins, (Spec.remade F N compute body rinit st).fullBin t z b = F.fullBin s y b := fun b =>
    fullBin_same hs hy b.2 st
  have h6 : (fun (b : Fin F.shape.nbins) (p : Fin F.shape.nproc) => t.beta0 b p) = fun (b : Fin F.shape.nbins) (p : Fin F.shape.nproc) => s.beta0 b p :=
    funext fun b => funext fun p => ((hs.2.2.2.1 b b.2).2 p).symm
  have h7 : (fun (b : Fin F.shape.nbins) (p : Fin F.shape.nproc) => t.sumw2 b p) = fun (b : Fin F.shape.nbins) (p : Fin F.shape.nproc) => s.sumw2 b p :=
    funext fun b => funext fun p => (((hs.2.2.2.1 b b.2).1 p p.2).2).symm
  have h8 : (fun (b : Fin F.shape.nbins) (p : Fin F.shape.nproc) => z b p) = fun (b : Fin F.shape.nbins) (p : Fin F.shape.nproc) => y b p :=
    funext fun b => funext fun p => (hy b b.2 p p.2).symm
  unfold Fitter.covFull
  show CovFull.mk F.W _ (fun (b : Fin F.shape.nbins) (p : Fin F.shape.nproc) => z b p)
    (fun (b : Fin F.shape.nbins) (p : Fin F.shape.nproc) => ((Spec.remade F N compute body rinit st).fullBin t z b).k p)
    (fun (b : Fin F.shape.nbins) (p : Fin F.shape.nproc) => t.sumw2 b p)
    (fun (b : Fin F.shape.nbins) (p : Fin F.shape.nproc) => t.beta0 b p)
    (fun (b : Fin F.shape.nbins) (p : Fin F.shape.nproc) => ((Spec.remade F N compute body rinit st).fullBin t z b).masked p) = _
  simp only [h, h6, h7, h8]
  rfl

theorem betaLite_same (hs : Spec.sameStat F.shape.nbins F.shape.nproc (some s) (some t))
    (hy : ∀ b < F.shape.nbins, ∀ p < F.shape.nproc, y b p = z b p) {b : Nat} (hb : b < F.shape.nbins) (st : Option Stat) :
    (Spec.remade F N compute body rinit st).betaLite t z b = F.betaLite s y b := by
  have hk := hs.2.1
  have h0 := (hs.2.2.2.1 b hb).2 0
  unfold Fitter.betaLite
  rw [dif_pos hb, dif_pos (show b < (Spec.remade F N compute body rinit st).shape.nbins from hb), covLite_same hs hy, liteBin_same hs hy hb,
    ← hk, ← h0]
  rfl

theorem betaFull_same (hs : Spec.sameStat F.shape.nbins F.shape.nproc (some s) (some t))
    (hy : ∀ b < F.shape.nbins, ∀ p < F.shape.nproc, y b p = z b p) {b : Nat} (hb : b < F.shape.nbins) (st : Option Stat) :
    (Spec.remade F N compute body rinit st).betaFull t z b = F.betaFull s y b := by
  have hk := hs.2.1
  have hn : (fun p : Fin F.shape.nproc => t.newton z b p) = fun p : Fin F.shape.nproc => s.newton y b p :=
    funext fun p => (hs.2.2.2.2 y z hy b hb p p.2).symm
  unfold Fitter.betaFull
  rw [dif_pos hb, dif_pos (show b < (Spec.remade F N compute body rinit st).shape.nbins from hb), covFull_same hs hy, fullBin_same hs hy hb, ← hk]
  show (match F.fit, s.kind with
    | .covariance, .normAdd => some ((F.covFull s y).profileAdd ⟨b, hb⟩)
    | .covariance, .normMult => some ((F.covFull s y).profileMult ⟨b, hb⟩)
    | .covariance, .gamma => none
    | _, .gamma => some fun p : Fin F.shape.nproc => t.newton z b p
    | f, k => (F.fullBin s y b).profile f k) = _
  rw [hn]
  rfl

theorem betaLite_out (G : Fitter) (s : Stat) (y : Nat → Nat → ℝ) (b : Nat) (hb : G.shape.nbins ≤ b) :
    G.betaLite s y b = s.beta0 b 0 := by
  unfold Fitter.betaLite
  rw [dif_neg (not_lt.2 hb)]

theorem betaFull_out (G : Fitter) (s : Stat) (y : Nat → Nat → ℝ) (b : Nat) (hb : G.shape.nbins ≤ b) :
    G.betaFull s y b = some fun p : Fin G.shape.nproc => s.beta0 b p := by
  unfold Fitter.betaFull
  rw [dif_neg (not_lt.2 hb)]

theorem sum_fitted (nb N : Nat) (h : nb ≤ N) (f : Nat → ℝ) (h0 : ∀ b, nb ≤ b → f b = 0) :
    ∑ b ∈ Finset.range N, f b = ∑ b ∈ Finset.range nb, f b := by
  refine (Finset.sum_subset (Finset.range_mono h) fun b _ hb => h0 b ?_).symm
  exact not_lt.1 fun h => hb (Finset.mem_range.2 h)

theorem withBeta_same {st st' : Option Stat} (hF : F.stat = st) (hs : Spec.sameStat F.shape.nbins F.shape.nproc st st')
    (hN : F.shape.nbins ≤ N) (hN' : F.shape.nbins ≤ F.shape.nbinsfull) {m n : Nat → ℝ} (hm : ∀ b < F.shape.nbins, m b = n b)
    (hy : ∀ b < F.shape.nbins, ∀ p < F.shape.nproc, y b p = z b p) :
    (F.withBeta m y = none ∧ (Spec.remade F N compute body rinit st').withBeta n z = none) ∨
    ∃ u v lb lb', F.withBeta m y = some (u, lb) ∧ (Spec.remade F N compute body rinit st').withBeta n z = some (v, lb') ∧
      (∀ b < F.shape.nbins, u b = v b) ∧ lb.getD 0 = lb'.getD 0 := by
  classical
  unfold Fitter.withBeta
  rw [hF, show (Spec.remade F N compute body rinit st').stat = st' from rfl]
  cases st with
  | none => cases st' with
    | none => exact .inr ⟨m, n, none, none, rfl, rfl, hm, rfl⟩
    | some t => exact hs.elim
  | some s => cases st' with
    | none => exact hs.elim
    | some t =>
      have hmode := hs.1
      have hk := hs.2.1
      dsimp only
      rw [← hmode]
      cases hmo : s.mode with
      | lite =>
        dsimp only
        refine .inr ⟨_, _, _, _, rfl, rfl, fun b hb => ?_, ?_⟩
        · rw [liteBin_same hs hy hb, betaLite_same hs hy hb, ← hk]; rfl
        · simp only [Option.getD_some]
          rw [sum_fitted F.shape.nbins F.shape.nbinsfull hN', sum_fitted F.shape.nbins _ (show F.shape.nbins ≤ (Spec.remade F N compute body rinit (some t)).shape.nbinsfull from hN)]
          · refine Finset.sum_congr rfl fun b hb => ?_
            have hb := Finset.mem_range.1 hb
            rw [liteBin_same hs hy hb, betaLite_same hs hy hb, ← hk, (hs.2.2.2.1 b hb).2 0]
            rfl
          · intro b hb
            rw [betaLite_out (Spec.remade F N compute body rinit (some t)) t z b hb]; exact lbeta_centre _ _ _ _
          · intro b hb
            rw [betaLite_out F s y b hb]; exact lbeta_centre _ _ _ _
      | full =>
        dsimp only
        have hout : ∀ b, F.shape.nbins ≤ b → F.betaFull s y b = some fun p : Fin F.shape.nproc => s.beta0 b p := fun b hb =>
          betaFull_out F s y b hb
        have hout' : ∀ b, F.shape.nbins ≤ b → (Spec.remade F N compute body rinit (some t)).betaFull t z b =
            some fun p : Fin F.shape.nproc => t.beta0 b p := fun b hb =>
          betaFull_out (Spec.remade F N compute body rinit (some t)) t z b hb
        by_cases hall : ∀ b < F.shape.nbins, (F.betaFull s y b).isSome
        · have h1 : ∀ b < F.shape.nbinsfull, (F.betaFull s y b).isSome := fun b _ => by
            by_cases hb : b < F.shape.nbins
            · exact hall b hb
            · rw [hout b (not_lt.1 hb)]; rfl
          have h2 : ∀ b < (Spec.remade F N compute body rinit (some t)).shape.nbinsfull,
              ((Spec.remade F N compute body rinit (some t)).betaFull t z b).isSome := fun b _ => by
            by_cases hb : b < F.shape.nbins
            · rw [betaFull_same hs hy hb]; exact hall b hb
            · rw [hout' b (not_lt.1 hb)]; rfl
          rw [if_pos h1, if_pos h2]
          refine .inr ⟨_, _, _, _, rfl, rfl, fun b hb => ?_, ?_⟩
          · rw [fullBin_same hs hy hb, betaFull_same hs hy hb, ← hk]; rfl
          · simp only [Option.getD_some]
            rw [sum_fitted F.shape.nbins F.shape.nbinsfull hN', sum_fitted F.shape.nbins _ (show F.shape.nbins ≤ (Spec.remade F N compute body rinit (some t)).shape.nbinsfull from hN)]
            · refine Finset.sum_congr rfl fun b hb => ?_
              have hb := Finset.mem_range.1 hb
              rw [fullBin_same hs hy hb, betaFull_same hs hy hb, ← hk]
              refine Finset.sum_congr rfl fun p _ => ?_
              rw [(hs.2.2.2.1 b hb).2 p]
              rfl
            · intro b hb
              rw [hout' b hb]
              exact Finset.sum_eq_zero fun p _ => lbeta_centre _ _ _ _
            · intro b hb
              rw [hout b hb]
              exact Finset.sum_eq_zero fun p _ => lbeta_centre _ _ _ _
        · left
          obtain ⟨b, hb, hno⟩ : ∃ b, b < F.shape.nbins ∧ ¬ (F.betaFull s y b).isSome := by
            by_contra hc
            exact hall fun b hb => by_contra fun hn => hc ⟨b, hb, hn⟩
          refine ⟨if_neg fun h => hno (h b (hb.trans_le hN')), if_neg fun h => hno ?_⟩
          have := h b (hb.trans_le hN)
          rwa [betaFull_same hs hy hb] at this

theorem ln_same (st : Option Stat) {u v : Nat → ℝ} (h : ∀ b < F.shape.nbins, u b = v b) :
    (Spec.remade F N compute body rinit st).ln v = F.ln u := by
  have e : (fun b : Fin F.shape.nbins => v b) = fun b : Fin F.shape.nbins => u b := funext fun b => (h b b.2).symm
  unfold Fitter.ln
  show (match F.fit with
    | .chisq => lnChisq (fun b : Fin F.shape.nbins => F.nobs b) (fun b => F.varnobs b) fun b : Fin F.shape.nbins => v b
    | .covariance => lnCov F.W (fun b => F.nobs b) fun b : Fin F.shape.nbins => v b
    | .poisson => lnPoisson false (fun b : Fin F.shape.nbins => F.nobs b) fun b : Fin F.shape.nbins => v b) = _
  rw [e]
  cases F.fit <;> rfl

/-- without regularizers, the likelihood depends on the yields of the fitted bins only -/
theorem loss_same (hr : F.regs = []) {st' : Option Stat} (hs : Spec.sameStat F.shape.nbins F.shape.nproc F.stat st')
    (hN : F.shape.nbins ≤ N) (hN' : F.shape.nbins ≤ F.shape.nbinsfull) (x : Fin F.n → ℝ)
    (hy : Spec.sameYields F.shape.nbins F.shape.nproc (F.yields false (F.params x) (F.theta x))
      ((Spec.remade F N compute body rinit st').yields false (F.params x) (F.theta x))) :
    (Spec.remade F N compute body rinit st').loss x = F.loss x := by
  unfold Fitter.loss
  rw [show (Spec.remade F N compute body rinit st').regs = [] from hr, hr,
    show (Spec.remade F N compute body rinit st').params x = F.params x from rfl,
    show (Spec.remade F N compute body rinit st').theta x = F.theta x from rfl]
  simp only [List.isEmpty_nil, Bool.not_true]
  rcases hy with ⟨e, h1, h2⟩ | ⟨⟨m, y⟩, ⟨n, z⟩, h1, h2, h3⟩
  · rw [h1, h2]
  · rw [h1, h2]
    dsimp only
    rcases withBeta_same (N := N) (compute := compute) (body := body) (rinit := rinit) rfl hs hN hN'
      (fun b hb => (h3 b hb).1) (fun b hb => (h3 b hb).2) with ⟨h4, h5⟩ | ⟨u, v, lb, lb', h4, h5, h6, h7⟩
    · rw [h4, h5]
    · rw [h4, h5]
      simp only [Fitter.penalties]
      rw [ln_same _ h6]
      rw [nllTotal_eq, nllTotal_eq, h7]
      rfl

end same

/-! ### bins that are not fitted -/

theorem rowsOut_false (s : Shape) : s.rowsOut false = s.nbins := by
  unfold Shape.rowsOut
  split_ifs with h
  · simpa using h
  · rfl

theorem scaled_same {nb np : Nat} {d e : Dense} (h : Spec.sameDense nb np d e) (s s' : Shape) (hl : s.logNormal = s'.logNormal)
    (nparams : Nat) (r r' : Yields.Rates) (hr : ∀ b < nb, ∀ p < np, r.at b p = r'.at b p) :
    Spec.sameDense nb np (d.scaled s nparams r) (e.scaled s' nparams r') := by
  intro b hb p hp
  obtain ⟨h1, h2⟩ := h b hb p hp
  unfold Dense.scaled
  rw [← hl]
  split_ifs
  · exact ⟨h1, h2⟩
  · exact ⟨h1, fun k c => by simp only [h2 k c, hr b hb p hp]⟩

theorem dense_same {nb np : Nat} {d e : Dense} (h : Spec.sameDense nb np d e) (s : Shape) (N : Nat) (r : Yields.Rates) (θ : Nat → ℝ)
    {b p : Nat} (hb : b < nb) (hp : p < np) : d.yield s r θ b p = e.yield { s with nbinsfull := N } r θ b p := by
  obtain ⟨h1, h2⟩ := h b hb p hp
  have : d.logsnorm s θ b p = e.logsnorm { s with nbinsfull := N } θ b p := by
    refine Finset.sum_congr rfl fun c _ => ?_
    congr 1
    unfold Dense.mlogk
    split_ifs <;> exact h2 _ _
  unfold Dense.yield
  rw [h1, this]

/-- C102: the likelihood does not depend on how many bins are not fitted nor on what they hold: dense templates, statistical
treatments and default rates that agree in the fitted bins give the same value of the loss, or the same exception, at every
point, for every data term and every bin-by-bin treatment (no regularizers, which read all bins). -/
theorem c102_masked (F : Fitter) (d e : Dense) (hd : F.body = .dense d) (he : Spec.sameDense F.shape.nbins F.shape.nproc d e)
    (hr : F.regs = []) (hb : F.shape.nbins ≤ F.shape.nbinsfull) (N : Nat) (hN : F.shape.nbins ≤ N)
    (compute : List ℝ → Bool → Res (ParamModels.Rates ℝ)) (hc : ∀ param, compute param false = F.model.compute param false)
    (rinit : Yields.Rates) (hi : ∀ b < F.shape.nbins, ∀ p < F.shape.nproc, F.rinit.at b p = rinit.at b p)
    (st : Option Stat) (hs : Spec.sameStat F.shape.nbins F.shape.nproc F.stat st) (x : Fin F.n → ℝ) :
    (Spec.remade F N compute (.dense e) rinit st).loss x = F.loss x := by
  refine loss_same hr hs hN hb x ?_
  unfold Fitter.yields
  rw [show (Spec.remade F N compute (.dense e) rinit st).model.compute = compute from rfl, hc, hd,
    show (Spec.remade F N compute (.dense e) rinit st).body = .dense e from rfl]
  cases F.model.compute (F.params x) false with
  | error e => exact .inl ⟨e, rfl, rfl⟩
  | ok r =>
    dsimp only
    by_cases h1 : r.cols = 1 ∨ r.cols = F.shape.nproc
    · rw [if_pos h1, if_pos (show r.cols = 1 ∨ r.cols = (Spec.remade F N compute (.dense e) rinit st).shape.nproc from h1)]
      unfold Dense.compute
      rw [rowsOut_false, rowsOut_false]
      dsimp only
      by_cases h2 : r.rows = 1 ∨ r.rows = F.shape.nbins
      · rw [if_pos h2, if_pos (show r.rows = 1 ∨ r.rows = (Spec.remade F N compute (.dense e) rinit st).shape.nbins from h2)]
        have := scaled_same he F.shape (Spec.remade F N compute (.dense e) rinit st).shape rfl F.model.nparams F.rinit rinit hi
        refine .inr ⟨_, _, rfl, rfl, fun b hb => ⟨?_, fun p hp => ?_⟩⟩
        · exact Finset.sum_congr rfl fun p hp => dense_same this _ N _ _ hb (Finset.mem_range.1 hp)
        · exact dense_same this _ N _ _ hb hp
      · rw [if_neg h2, if_neg (show ¬ (r.rows = 1 ∨ r.rows = (Spec.remade F N compute (.dense e) rinit st).shape.nbins) from h2)]
        exact .inl ⟨_, rfl, rfl⟩
    · rw [if_neg h1, if_neg (show ¬ (r.cols = 1 ∨ r.cols = (Spec.remade F N compute (.dense e) rinit st).shape.nproc) from h1)]
      exact .inl ⟨_, rfl, rfl⟩

/-! ### storage -/

/-- C102: sparse templates of the same content give the same likelihood as the dense ones, at every point, if no bin is left
out or the rates are the same in all bins.  (The iteration of the full gamma type is a parameter of the model; `hn` says that it
reads the yields of the fitted bins only.) -/
theorem c102_storage_partial (F : Fitter) (d : Dense) (hd : F.body = .dense d) (t : Sparse) (ht : Yields.Spec.SameContent F.shape t d)
    (hr : F.regs = []) (hb : F.shape.nbins ≤ F.shape.nbinsfull) (hn : Spec.sameStat F.shape.nbins F.shape.nproc F.stat F.stat)
    (hc : F.shape.nbinsfull = F.shape.nbins ∨ ∀ param r, F.model.compute param false = .ok r → r.rows = 1) (x : Fin F.n → ℝ) :
    (Spec.remade F F.shape.nbinsfull F.model.compute (.sparse t) F.rinit F.stat).loss x = F.loss x := by
  refine loss_same hr hn hb hb x ?_
  unfold Fitter.yields
  rw [show (Spec.remade F F.shape.nbinsfull F.model.compute (.sparse t) F.rinit F.stat).model.compute = F.model.compute from rfl, hd,
    show (Spec.remade F F.shape.nbinsfull F.model.compute (.sparse t) F.rinit F.stat).body = .sparse t from rfl]
  cases hcomp : F.model.compute (F.params x) false with
  | error e => exact .inl ⟨e, rfl, rfl⟩
  | ok r =>
    dsimp only
    by_cases h1 : r.cols = 1 ∨ r.cols = F.shape.nproc
    · rw [if_pos h1, if_pos (show r.cols = 1 ∨ r.cols = (Spec.remade F F.shape.nbinsfull F.model.compute (.sparse t) F.rinit F.stat).shape.nproc from h1)]
      have hsc := c10_scaled F.shape t d ht F.model.nparams F.rinit
      by_cases h2 : r.rows = 1 ∨ (r.rows = F.shape.nbinsfull ∧ F.shape.nbinsfull = F.shape.nbins)
      · obtain ⟨n, n', y, y', h3, h4, h5⟩ := c10_yields_partial F.shape _ _ hsc false
          ⟨r.rows, fun b p => r.val b (if r.cols = 1 then 0 else p)⟩ (h2.imp id fun h => ⟨h.1, .inr h.2⟩) (F.theta x)
        rw [rowsOut_false] at h5
        exact .inr ⟨_, _, h3, h4, h5⟩
      · have h3 : F.shape.nbinsfull = F.shape.nbins := hc.resolve_right fun h => h2 (.inl (h _ _ hcomp))
        have h4 : ¬ (r.rows = 1 ∨ r.rows = F.shape.nbinsfull) := fun h => h2 (h.imp id fun h => ⟨h, h3⟩)
        refine .inl ⟨.value, ?_, ?_⟩
        · unfold Dense.compute
          rw [if_neg]
          rw [rowsOut_false, ← h3]
          exact h4
        · unfold Sparse.compute
          rw [if_neg]
          exact h4
    · rw [if_neg h1, if_neg (show ¬ (r.cols = 1 ∨ r.cols = (Spec.remade F F.shape.nbinsfull F.model.compute (.sparse t) F.rinit F.stat).shape.nproc) from h1)]
      exact .inl ⟨_, rfl, rfl⟩

namespace Ex

/-- two fitted bins and a masked one, one process, rates with one row per bin asked for -/
def binwise : Fitter where
  model := { onesModel 1 with compute := fun _ full => .ok ⟨if full then 3 else 2, 1, fun _ _ => 1⟩ }
  shape := ⟨2, 3, 1, 0, true, true⟩
  body := .dense ⟨fun _ _ => 1, fun _ _ _ _ => 0⟩
  rinit := ⟨1, fun _ _ => 1⟩
  fit := .chisq
  nobs := fun _ => 1
  varnobs := fun _ => 1
  W := 1
  stat := none
  doBlinding := false
  off := ⟨fun _ => 1, fun _ => 0⟩
  mask := fun _ => false
  cw := fun _ => 0
  x0 := fun _ => 0
  regs := []
  tau2 := 1
  ext := []
  force := false

/-- the entries that are not zero; one cell beyond the three bins is not there -/
def binwiseSparse : Sparse := ⟨[(0, 0, 1), (1, 0, 1), (2, 0, 1)], []⟩

/-- the same fit with dense templates that are zero beyond the bins -/
def binwiseDense : Dense := ⟨fun b p => if b < 3 ∧ p = 0 then 1 else 0, fun _ _ _ _ => 0⟩

theorem binwise_same : Yields.Spec.SameContent binwise.shape binwiseSparse binwiseDense := by
  refine ⟨by simp [binwiseSparse], by simp [binwiseSparse, binwise], ?_, ?_, ?_, by simp [binwiseSparse]⟩
  · intro b p v h
    simp only [binwiseSparse, List.mem_cons, Prod.mk.injEq, List.not_mem_nil, or_false] at h
    rcases h with ⟨rfl, rfl, rfl⟩ | ⟨rfl, rfl, rfl⟩ | ⟨rfl, rfl, rfl⟩ <;> simp [binwiseDense]
  · intro b p h
    refine ⟨?_, fun c _ => by simp [Dense.mlogk, binwiseDense]⟩
    have h1 := h 1
    simp only [binwiseSparse, List.mem_cons, Prod.mk.injEq, List.not_mem_nil, or_false, not_or, and_true] at h1
    simp only [binwiseDense]
    refine if_neg fun hb => ?_
    obtain ⟨hb, rfl⟩ := hb
    interval_cases b
    · exact h1.1 ⟨rfl, rfl⟩
    · exact h1.2.1 ⟨rfl, rfl⟩
    · exact h1.2.2 ⟨rfl, rfl⟩
  · intro i b p v _ c hc
    simp [Shape.ncol, binwise] at hc

end Ex

/-- C102 is violated for sparse templates, masked bins and rates that differ from bin to bin: the dense fit has a likelihood, the
sparse one raises (fitter.py:1742-1747 multiplies the full tensor by the rates of the fitted bins). -/
theorem c102_sparse_violated : ∃ (F : Fitter) (d : Dense) (t : Sparse) (x : Fin F.n → ℝ), F.body = .dense d ∧
    Yields.Spec.SameContent F.shape t d ∧ F.regs = [] ∧ F.shape.nbins ≤ F.shape.nbinsfull ∧ (∃ v, F.loss x = .ok (some v)) ∧
    (Spec.remade F F.shape.nbinsfull F.model.compute (.sparse t) F.rinit F.stat).loss x = .error .value := by
  refine ⟨{ Ex.binwise with body := .dense Ex.binwiseDense }, Ex.binwiseDense, Ex.binwiseSparse, fun _ => 0, rfl, Ex.binwise_same, rfl,
    by decide, ?_, rfl⟩
  exact ⟨_, rfl⟩

/-! ### order of the processes -/

section reorder
variable (σ : Equiv.Perm Nat)

theorem sum_order {n : Nat} (hσ : ∀ p, σ p < n ↔ p < n) (f : Nat → ℝ) :
    ∑ p ∈ Finset.range n, f (σ p) = ∑ p ∈ Finset.range n, f p :=
  Finset.sum_equiv σ (fun p => by rw [Finset.mem_range, Finset.mem_range, hσ]) fun p _ => rfl

/-- the order within the processes -/
def order {n : Nat} (hσ : ∀ p, σ p < n ↔ p < n) : Fin n ≃ Fin n where
  toFun := fun p => ⟨σ p, (hσ p).2 p.2⟩
  invFun := fun p => ⟨σ.symm p, (hσ _).1 (by rw [Equiv.apply_symm_apply]; exact p.2)⟩
  left_inv := fun p => by simp
  right_inv := fun p => by simp

theorem rates_order (r : Yields.Rates) (b p : Nat) : (⟨r.rows, fun b p => r.val b (σ p)⟩ : Yields.Rates).at b p = r.at b (σ p) := by
  unfold Yields.Rates.at
  split_ifs <;> rfl

theorem dense_order (s : Shape) (hσ : ∀ p, σ p < s.nproc ↔ p < s.nproc) (d : Dense) (full : Bool) (r r' : Yields.Rates)
    (hr : r'.rows = r.rows) (hr' : ∀ b p, r'.at b p = r.at b (σ p)) (θ : Nat → ℝ) :
    (⟨fun b p => d.norm b (σ p), fun b p => d.logk b (σ p)⟩ : Dense).compute s full r' θ =
      match d.compute s full r θ with
      | .error e => .error e
      | .ok (n, y) => .ok (n, fun b p => y b (σ p)) := by
  have hy : (⟨fun b p => d.norm b (σ p), fun b p => d.logk b (σ p)⟩ : Dense).yield s r' θ = fun b p => d.yield s r θ b (σ p) := by
    funext b p
    unfold Dense.yield
    rw [hr']
    rfl
  unfold Dense.compute
  rw [hr, hy]
  by_cases h : r.rows = 1 ∨ r.rows = s.rowsOut full
  · rw [if_pos h, if_pos h]
    dsimp only
    congr 2
    funext b
    exact sum_order σ hσ fun p => d.yield s r θ b p
  · rw [if_neg h, if_neg h]

theorem sparse_order (s : Shape) (t : Sparse) (full : Bool) (r r' : Yields.Rates)
    (hr : r'.rows = r.rows) (hr' : ∀ b p, r'.at b p = r.at b (σ p)) (θ : Nat → ℝ) :
    (⟨t.norm.map fun e => (e.1, σ.symm e.2.1, e.2.2), t.logk⟩ : Sparse).compute s full r' θ =
      match t.compute s full r θ with
      | .error e => .error e
      | .ok (n, y) => .ok (n, fun b p => y b (σ p)) := by
  have hv : (⟨t.norm.map fun e => (e.1, σ.symm e.2.1, e.2.2), t.logk⟩ : Sparse).values s r' θ =
      (t.values s r θ).map fun e => (e.1, σ.symm e.2.1, e.2.2) := by
    unfold Sparse.values
    dsimp only
    rw [List.zipIdx_map, List.map_map, List.map_map]
    refine List.map_congr_left fun e _ => ?_
    obtain ⟨⟨b, p, v⟩, i⟩ := e
    simp only [Function.comp_apply, Prod.map, hr', Equiv.apply_symm_apply]
    rfl
  have hf : ∀ l : List (Nat × Nat × ℝ), ((l.map fun e => (e.1, σ.symm e.2.1, e.2.2)).filter fun e => decide (e.1 < s.nbins)) =
      (l.filter fun e => decide (e.1 < s.nbins)).map fun e => (e.1, σ.symm e.2.1, e.2.2) := fun l => by
    rw [List.filter_map]; rfl
  have h1 : ∀ (l : List (Nat × Nat × ℝ)) (b : Nat), (((l.map fun e => (e.1, σ.symm e.2.1, e.2.2)).filter fun e => e.1 == b).map (·.2.2)).sum =
      ((l.filter fun e => e.1 == b).map (·.2.2)).sum := fun l b => by
    rw [List.filter_map, List.map_map]; rfl
  have h2 : ∀ (l : List (Nat × Nat × ℝ)) (b p : Nat),
      (((l.map fun e => (e.1, σ.symm e.2.1, e.2.2)).filter fun e => e.1 == b && e.2.1 == p).map (·.2.2)).sum =
      ((l.filter fun e => e.1 == b && e.2.1 == σ p).map (·.2.2)).sum := fun l b p => by
    rw [List.filter_map, List.map_map]
    refine congrArg List.sum (congrArg (List.map _) (List.filter_congr fun e _ => ?_))
    have : (σ.symm e.2.1 == p) = (e.2.1 == σ p) := by
      rw [Bool.eq_iff_iff, beq_iff_eq, beq_iff_eq, Equiv.symm_apply_eq]
    simp only [Function.comp_apply, this]
  unfold Sparse.compute
  rw [hr]
  by_cases h : r.rows = 1 ∨ r.rows = s.nbinsfull
  · rw [if_pos h, if_pos h]
    dsimp only
    rw [hv]
    split_ifs
    · simp only [hf, h1, h2]
    · simp only [h1, h2]
  · rw [if_neg h, if_neg h]

theorem scaled_order (s : Shape) (np : Nat) (r : Yields.Rates) (d : Dense) :
    (⟨fun b p => d.norm b (σ p), fun b p => d.logk b (σ p)⟩ : Dense).scaled s np ⟨r.rows, fun b p => r.val b (σ p)⟩ =
      ⟨fun b p => (d.scaled s np r).norm b (σ p), fun b p => (d.scaled s np r).logk b (σ p)⟩ := by
  unfold Dense.scaled
  split_ifs
  · rfl
  · simp only [rates_order]

theorem scaled_order_sparse (s : Shape) (np : Nat) (r : Yields.Rates) (t : Sparse) :
    (⟨t.norm.map fun e => (e.1, σ.symm e.2.1, e.2.2), t.logk⟩ : Sparse).scaled s np ⟨r.rows, fun b p => r.val b (σ p)⟩ =
      ⟨(t.scaled s np r).norm.map fun e => (e.1, σ.symm e.2.1, e.2.2), (t.scaled s np r).logk⟩ := by
  unfold Sparse.scaled
  split_ifs
  · rfl
  · dsimp only
    congr 1
    refine List.map_congr_left fun e _ => ?_
    rw [List.getElem?_map]
    cases t.norm[e.1]? with
    | none => rfl
    | some n => simp only [Option.map_some, rates_order, Equiv.apply_symm_apply]

theorem yields_order (F : Fitter) (hσ : ∀ p, σ p < F.shape.nproc ↔ p < F.shape.nproc) (full : Bool) (param : List ℝ) (θ : Nat → ℝ) :
    (Spec.reorder σ F).yields full param θ = match F.yields full param θ with
      | .error e => .error e
      | .ok (n, y) => .ok (n, fun b p => y b (σ p)) := by
  unfold Fitter.yields
  rw [show (Spec.reorder σ F).model.compute param full = (match F.model.compute param full with
      | .error e => .error e
      | .ok r => .ok ⟨r.rows, r.cols, fun b p => if r.cols = 1 then r.val b p else r.val b (σ p)⟩) from rfl,
    show (Spec.reorder σ F).body = Spec.reorderBody σ F.body from rfl]
  cases F.model.compute param full with
  | error e => rfl
  | ok r =>
    dsimp only
    by_cases h1 : r.cols = 1 ∨ r.cols = F.shape.nproc
    · rw [if_pos h1, if_pos (show r.cols = 1 ∨ r.cols = (Spec.reorder σ F).shape.nproc from h1)]
      let r' : Yields.Rates := ⟨r.rows, fun b p => (fun b p => if r.cols = 1 then r.val b p else r.val b (σ p)) b
        (if r.cols = 1 then 0 else p)⟩
      have hat : ∀ b p, r'.at b p =
          (⟨r.rows, fun b p => r.val b (if r.cols = 1 then 0 else p)⟩ : Yields.Rates).at b (σ p) := fun b p => by
        unfold Yields.Rates.at
        simp only [r']
        split_ifs <;> rfl
      cases F.body with
      | dense d =>
        exact (congrArg (fun d : Dense => d.compute F.shape full r' θ) (scaled_order σ F.shape F.model.nparams F.rinit d)).trans
          (dense_order σ F.shape hσ _ full ⟨r.rows, fun b p => r.val b (if r.cols = 1 then 0 else p)⟩ r' rfl hat θ)
      | sparse t =>
        exact (congrArg (fun d : Sparse => d.compute F.shape full r' θ) (scaled_order_sparse σ F.shape F.model.nparams F.rinit t)).trans
          (sparse_order σ F.shape _ full ⟨r.rows, fun b p => r.val b (if r.cols = 1 then 0 else p)⟩ r' rfl hat θ)
    · rw [if_neg h1, if_neg (show ¬ (r.cols = 1 ∨ r.cols = (Spec.reorder σ F).shape.nproc) from h1)]

section lite
variable {σ} {F : Fitter} (hσ : ∀ p, σ p < F.shape.nproc ↔ p < F.shape.nproc) {s : Stat} (hm : s.mode = .lite) (y : Nat → Nat → ℝ)
include hσ hm

theorem liteBin_order (b : Nat) : (Spec.reorder σ F).liteBin (Spec.reorderStat σ s) (fun b p => y b (σ p)) b =
    (F.liteBin s y b).perm (order σ hσ) := by
  have h0 : (Spec.reorderStat σ s).beta0 b 0 = s.beta0 b 0 := by simp only [Spec.reorderStat, hm]
  unfold Fitter.liteBin LiteBin.perm
  rw [h0]
  rfl

theorem lite_of (b : Nat) {α : Type} (g : LiteBin (Fin F.shape.nproc) → α) (hg : ∀ τ c, g (c.perm τ) = g c) :
    g ((Spec.reorder σ F).liteBin (Spec.reorderStat σ s) (fun b p => y b (σ p)) b) = g (F.liteBin s y b) :=
  (congrArg g (liteBin_order hσ hm y b)).trans (hg _ _)

theorem covLite_order : (Spec.reorder σ F).covLite (Spec.reorderStat σ s) (fun b p => y b (σ p)) = F.covLite s y := by
  have e : ∀ {α : Type} (g : LiteBin (Fin F.shape.nproc) → α), (∀ τ c, g (c.perm τ) = g c) →
      (fun b : Fin F.shape.nbins => g ((Spec.reorder σ F).liteBin (Spec.reorderStat σ s) (fun b p => y b (σ p)) b)) =
      fun b : Fin F.shape.nbins => g (F.liteBin s y b) := fun g hg => funext fun b => lite_of hσ hm y b g hg
  have h0 : (fun b : Fin F.shape.nbins => (Spec.reorderStat σ s).beta0 b 0) = fun b : Fin F.shape.nbins => s.beta0 b 0 := by
    simp only [Spec.reorderStat, hm]
  have e1 := e LiteBin.nActiveSafe fun τ c => c.perm_nActiveSafe τ
  have e2 := e LiteBin.nZero fun τ c => c.perm_nZero τ
  have e3 := e LiteBin.nexp fun τ c => c.perm_nexp τ
  have e4 := e LiteBin.k fun τ c => c.perm_k τ
  have e5 := e LiteBin.varbeta fun τ c => c.perm_varbeta τ
  have e6 := e LiteBin.masked fun τ c => c.perm_masked τ
  have gen : ∀ {a a' z z' n n' k k' v v' b b' : Fin F.shape.nbins → ℝ} {m m' : Fin F.shape.nbins → Prop}, a = a' → z = z' → n = n' →
      k = k' → v = v' → b = b' → m = m' → CovLite.mk F.W (fun b => F.nobs b) a z n k v b m = CovLite.mk F.W (fun b => F.nobs b) a' z' n' k' v' b' m' := by
    intro _ _ _ _ _ _ _ _ _ _ _ _ _ _ h1 h2 h3 h4 h5 h6 h7
    rw [h1, h2, h3, h4, h5, h6, h7]
  exact gen e1 e2 e3 e4 e5 h0 e6

theorem betaLite_order (b : Nat) : (Spec.reorder σ F).betaLite (Spec.reorderStat σ s) (fun b p => y b (σ p)) b = F.betaLite s y b := by
  have h0 : (Spec.reorderStat σ s).beta0 b 0 = s.beta0 b 0 := by simp only [Spec.reorderStat, hm]
  by_cases h : b < F.shape.nbins
  · have key : ∀ (f : Fit) (κ : Kind) (c' c : LiteBin (Fin F.shape.nproc)) (C' C : CovLite (Fin F.shape.nbins)) (β' β : ℝ), C' = C → β' = β →
        (∀ f κ, c'.profile f κ = c.profile f κ) →
        (match f, κ with
        | .covariance, .normAdd => C'.profileAdd ⟨b, h⟩
        | .covariance, .normMult => C'.profileMult ⟨b, h⟩
        | .covariance, .gamma => β'
        | f, k => c'.profile f k) = (match f, κ with
        | .covariance, .normAdd => C.profileAdd ⟨b, h⟩
        | .covariance, .normMult => C.profileMult ⟨b, h⟩
        | .covariance, .gamma => β
        | f, k => c.profile f k) := by
      intro f κ c' c C' C β' β h1 h2 h3
      subst h1 h2
      cases f <;> cases κ <;> first | rfl | exact h3 _ _
    have := key F.fit s.kind _ _ _ _ _ _ (covLite_order hσ hm y) h0 fun f κ =>
      lite_of hσ hm y b (fun c => c.profile f κ) fun τ c => c.perm_profile τ f κ
    unfold Fitter.betaLite
    rw [dif_pos h, dif_pos (show b < (Spec.reorder σ F).shape.nbins from h)]
    exact this
  · rw [betaLite_out F s y b (not_lt.1 h), betaLite_out (Spec.reorder σ F) _ _ b (not_lt.1 h), h0]

end lite

section full
variable {σ} {F : Fitter} (hσ : ∀ p, σ p < F.shape.nproc ↔ p < F.shape.nproc) {s : Stat} (hm : s.mode = .full) (y : Nat → Nat → ℝ)
include hσ hm

theorem fullBin_order (b : Nat) : (Spec.reorder σ F).fullBin (Spec.reorderStat σ s) (fun b p => y b (σ p)) b =
    (F.fullBin s y b).perm (order σ hσ) := by
  have h0 : (fun p : Fin F.shape.nproc => (Spec.reorderStat σ s).beta0 b p) = fun p : Fin F.shape.nproc => s.beta0 b (σ p) := by
    simp only [Spec.reorderStat, hm]
  exact congrArg (fun β => FullBin.mk (fun p : Fin F.shape.nproc => s.sumw b (σ p)) (fun p : Fin F.shape.nproc => s.sumw2 b (σ p))
    (fun p : Fin F.shape.nproc => y b (σ p)) (F.nobs b) (F.varnobs b) β s.minK) h0

theorem covFull_order : (Spec.reorder σ F).covFull (Spec.reorderStat σ s) (fun b p => y b (σ p)) = (F.covFull s y).perm (order σ hσ) := by
  have h0 : (fun (b : Fin F.shape.nbins) (p : Fin F.shape.nproc) => (Spec.reorderStat σ s).beta0 b p) =
      fun (b : Fin F.shape.nbins) (p : Fin F.shape.nproc) => s.beta0 b (σ p) := by
    simp only [Spec.reorderStat, hm]
  have h1 : (fun (b : Fin F.shape.nbins) => ((Spec.reorder σ F).fullBin (Spec.reorderStat σ s) (fun b p => y b (σ p)) b).k) =
      fun (b : Fin F.shape.nbins) => ((F.fullBin s y b).perm (order σ hσ)).k :=
    funext fun b => congrArg FullBin.k (fullBin_order hσ hm y b)
  have h2 : (fun (b : Fin F.shape.nbins) => ((Spec.reorder σ F).fullBin (Spec.reorderStat σ s) (fun b p => y b (σ p)) b).masked) =
      fun (b : Fin F.shape.nbins) => ((F.fullBin s y b).perm (order σ hσ)).masked :=
    funext fun b => congrArg FullBin.masked (fullBin_order hσ hm y b)
  have gen : ∀ {n k k' v b b' : Fin F.shape.nbins → Fin F.shape.nproc → ℝ} {m m' : Fin F.shape.nbins → Fin F.shape.nproc → Prop},
      k = k' → b = b' → m = m' → CovFull.mk F.W (fun b => F.nobs b) n k v b m = CovFull.mk F.W (fun b => F.nobs b) n k' v b' m' := by
    intro _ _ _ _ _ _ _ _ h1 h2 h3
    rw [h1, h2, h3]
  exact gen h1 h0 h2

theorem betaFull_order (b : Nat) : (Spec.reorder σ F).betaFull (Spec.reorderStat σ s) (fun b p => y b (σ p)) b =
    (F.betaFull s y b).map fun β (p : Fin F.shape.nproc) => β (order σ hσ p) := by
  by_cases h : b < F.shape.nbins
  · have hn : (fun p : Fin F.shape.nproc => (Spec.reorderStat σ s).newton (fun b p => y b (σ p)) b p) =
        fun p : Fin F.shape.nproc => s.newton y b (σ p) := by
      funext p
      show s.newton (fun b p => y b (σ (σ.symm p))) b (σ p) = _
      simp only [Equiv.apply_symm_apply]
    have key : ∀ (f : Fit) (κ : Kind) (c' : FullBin (Fin F.shape.nproc)) (C' : CovFull (Fin F.shape.nbins) (Fin F.shape.nproc))
        (ν' : Fin F.shape.nproc → ℝ), c' = (F.fullBin s y b).perm (order σ hσ) → C' = (F.covFull s y).perm (order σ hσ) →
        (ν' = fun p : Fin F.shape.nproc => s.newton y b (σ p)) →
        (match f, κ with
        | .covariance, .normAdd => some (C'.profileAdd ⟨b, h⟩)
        | .covariance, .normMult => some (C'.profileMult ⟨b, h⟩)
        | .covariance, .gamma => none
        | _, .gamma => some ν'
        | f, k => c'.profile f k) = Option.map (fun β (p : Fin F.shape.nproc) => β (order σ hσ p)) (match f, κ with
        | .covariance, .normAdd => some ((F.covFull s y).profileAdd ⟨b, h⟩)
        | .covariance, .normMult => some ((F.covFull s y).profileMult ⟨b, h⟩)
        | .covariance, .gamma => none
        | _, .gamma => some fun p : Fin F.shape.nproc => s.newton y b p
        | f, k => (F.fullBin s y b).profile f k) := by
      intro f κ c' C' ν' h1 h2 h3
      subst h1 h2 h3
      cases f <;> cases κ
      · rfl
      · exact FullBin.perm_profile _ _ _ _
      · exact FullBin.perm_profile _ _ _ _
      · rfl
      · exact FullBin.perm_profile _ _ _ _
      · exact FullBin.perm_profile _ _ _ _
      · rfl
      · exact congrArg some (congrFun (CovFull.perm_profileMult (order σ hσ) (F.covFull s y)) ⟨b, h⟩)
      · exact congrArg some (congrFun (CovFull.perm_profileAdd (order σ hσ) (F.covFull s y)) ⟨b, h⟩)
    have := key F.fit s.kind _ _ _ (fullBin_order hσ hm y b) (covFull_order hσ hm y) hn
    unfold Fitter.betaFull
    rw [dif_pos h, dif_pos (show b < (Spec.reorder σ F).shape.nbins from h)]
    exact this
  · rw [betaFull_out F s y b (not_lt.1 h), betaFull_out (Spec.reorder σ F) _ _ b (not_lt.1 h)]
    have h0 : (fun p : Fin F.shape.nproc => (Spec.reorderStat σ s).beta0 b p) = fun p : Fin F.shape.nproc => s.beta0 b (σ p) := by
      simp only [Spec.reorderStat, hm]
    exact congrArg some h0

end full

theorem withBeta_order (F : Fitter) (hσ : ∀ p, σ p < F.shape.nproc ↔ p < F.shape.nproc) (m : Nat → ℝ) (y : Nat → Nat → ℝ) :
    (Spec.reorder σ F).withBeta m (fun b p => y b (σ p)) = F.withBeta m y := by
  classical
  unfold Fitter.withBeta
  rw [show (Spec.reorder σ F).stat = F.stat.map (Spec.reorderStat σ) from rfl]
  cases F.stat with
  | none => rfl
  | some s =>
    simp only [Option.map_some]
    rw [show (Spec.reorderStat σ s).mode = s.mode from rfl]
    cases hm : s.mode with
    | lite =>
      dsimp only
      refine congrArg some (Prod.ext (funext fun b => ?_) (congrArg some (Finset.sum_congr rfl fun b _ => ?_)))
      · dsimp only
        rw [betaLite_order hσ hm]
        exact lite_of hσ hm y b (fun c => c.applied s.kind (F.betaLite s y b)) fun τ c => c.perm_applied τ _ _
      · rw [betaLite_order hσ hm, show (Spec.reorderStat σ s).beta0 b 0 = s.beta0 b 0 by simp only [Spec.reorderStat, hm]]
        exact lite_of hσ hm y b (fun c => lbeta s.kind c.masked c.k (s.beta0 b 0) (F.betaLite s y b)) fun τ c => by
          rw [c.perm_masked τ, c.perm_k τ]
    | full =>
      dsimp only
      have hβ := betaFull_order hσ hm y
      have hsome : ∀ b, ((Spec.reorder σ F).betaFull (Spec.reorderStat σ s) (fun b p => y b (σ p)) b).isSome ↔ (F.betaFull s y b).isSome := fun b => by
        rw [hβ b]
        exact Eq.to_iff (congrArg (· = true) Option.isSome_map)
      by_cases h : ∀ b < F.shape.nbinsfull, (F.betaFull s y b).isSome
      · have h' : ∀ b < (Spec.reorder σ F).shape.nbinsfull, ((Spec.reorder σ F).betaFull (Spec.reorderStat σ s) (fun b p => y b (σ p)) b).isSome :=
          fun b hb => (hsome b).2 (h b hb)
        rw [if_pos h, if_pos h']
        have hd : ∀ b, ((Spec.reorder σ F).betaFull (Spec.reorderStat σ s) (fun b p => y b (σ p)) b).getD (fun _ => 0) =
            fun p : Fin F.shape.nproc => ((F.betaFull s y b).getD fun _ => 0) (order σ hσ p) := fun b => by
          rw [hβ b]
          cases F.betaFull s y b <;> rfl
        refine congrArg some (Prod.ext (funext fun b => ?_) (congrArg some (Finset.sum_congr rfl fun b _ => ?_)))
        · dsimp only
          rw [hd b, fullBin_order hσ hm]
          exact FullBin.perm_applied (order σ hσ) (F.fullBin s y b) s.kind _
        · rw [hd b, fullBin_order hσ hm]
          refine Eq.trans ?_ (Equiv.sum_comp (order σ hσ) fun p : Fin F.shape.nproc => lbeta s.kind ((F.fullBin s y b).masked p)
            ((F.fullBin s y b).k p) (s.beta0 b p) ((F.betaFull s y b).getD (fun _ => 0) p))
          refine Finset.sum_congr rfl fun p _ => ?_
          rw [show (Spec.reorderStat σ s).beta0 b p = s.beta0 b (σ p) by simp only [Spec.reorderStat, hm]]
          rfl
      · rw [if_neg h, if_neg fun h' => h fun b hb => (hsome b).1 (h' b hb)]

/-- C102: the order of the processes does not change the likelihood. -/
theorem c102_processes (F : Fitter) (hσ : ∀ p, σ p < F.shape.nproc ↔ p < F.shape.nproc) (x : Fin F.n → ℝ) :
    (Spec.reorder σ F).loss x = F.loss x := by
  unfold Fitter.loss
  rw [show (Spec.reorder σ F).regs = F.regs from rfl, show (Spec.reorder σ F).params x = F.params x from rfl,
    show (Spec.reorder σ F).theta x = F.theta x from rfl, yields_order σ F hσ]
  cases F.yields (!F.regs.isEmpty) (F.params x) (F.theta x) with
  | error e => rfl
  | ok v =>
    obtain ⟨m, y⟩ := v
    dsimp only
    rw [withBeta_order σ F hσ]
    cases F.withBeta m y with
    | none => rfl
    | some v =>
      obtain ⟨u, lb⟩ := v
      dsimp only
      have hp : ∀ rs, (Spec.reorder σ F).penalties u rs = F.penalties u rs := fun rs => by
        induction rs with
        | nil => rfl
        | cons r rs ih =>
          unfold Fitter.penalties
          rw [ih]
          rfl
      rw [hp]
      rfl

end reorder

/-- the masked bin may hold anything, and there may be ten of them: the likelihood of the two fitted bins is the same -/
example (x) : (Spec.remade Ex.binwise 12 Ex.binwise.model.compute (.dense ⟨fun b _ => if b < 2 then 1 else 7, fun _ _ _ _ => 0⟩) ⟨1, fun _ _ => 1⟩
    none).loss x = Ex.binwise.loss x :=
  c102_masked Ex.binwise _ ⟨fun b _ => if b < 2 then 1 else 7, fun _ _ _ _ => 0⟩ rfl (fun b hb p _ => ⟨(if_pos hb).symm, fun _ _ => rfl⟩) rfl (by decide) 12 (by decide) _ (fun _ => rfl) _
    (fun _ _ _ _ => rfl) none trivial x

/-- the same fit with rates of one row meets the hypotheses of the storage theorem, masked bin included -/
example (x) : (Spec.remade { Ex.binwise with body := .dense Ex.binwiseDense, model := onesModel 1 } 3 (onesModel 1).compute
    (.sparse Ex.binwiseSparse) ⟨1, fun _ _ => 1⟩ none).loss x =
    Fitter.loss { Ex.binwise with body := .dense Ex.binwiseDense, model := onesModel 1 } x :=
  c102_storage_partial { Ex.binwise with body := .dense Ex.binwiseDense, model := onesModel 1 } _ rfl _ Ex.binwise_same rfl (by decide) trivial
    (.inr fun param r h => by cases h; rfl) x

/-- two processes of different size and statistics, each with its own β, the first scaled by a signal strength -/
def Ex.twoProc : Fitter where
  model := SatTest.muModel 2 ["s"] [1] true
  shape := ⟨2, 3, 2, 0, true, true⟩
  body := .dense ⟨fun b p => b + 10 * p + 1, fun _ _ _ _ => 0⟩
  rinit := ⟨1, fun _ _ => 1⟩
  fit := .chisq
  nobs := fun _ => 5
  varnobs := fun _ => 5
  W := 1
  stat := some ⟨.full, .normMult, fun b p => b + 10 * p + 1, fun _ p => p + 1, fun _ _ => 1, 0, fun _ _ _ => 0⟩
  doBlinding := false
  off := ⟨fun _ => 1, fun _ => 0⟩
  mask := fun _ => false
  cw := fun _ => 0
  x0 := fun _ => 0
  regs := []
  tau2 := 1
  ext := []
  force := false

/-- they may be swapped -/
example (x) : (Spec.reorder (Equiv.swap 0 1) Ex.twoProc).loss x = Ex.twoProc.loss x :=
  c102_processes (Equiv.swap 0 1) Ex.twoProc (fun p => by
    show Equiv.swap 0 1 p < 2 ↔ p < 2
    rcases p with _ | _ | p
    · simp
    · simp
    · rw [Equiv.swap_apply_of_ne_of_ne (by omega) (by omega)]) x

end

end Verif.LinearFit
