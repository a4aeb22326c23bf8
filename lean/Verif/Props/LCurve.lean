import Verif.Model.LCurve
import Verif.Lemmas.Cov
import Mathlib.Analysis.Calculus.Deriv.Basic
import Mathlib.Analysis.Calculus.Deriv.Comp
import Mathlib.Analysis.Calculus.Deriv.Mul
import Mathlib.Analysis.Calculus.Deriv.Prod
import Mathlib.Analysis.SpecialFunctions.Log.Deriv
import Mathlib.Analysis.SpecialFunctions.ExpDeriv
import Mathlib.Topology.Algebra.Module.FiniteDimension
import Mathlib.Analysis.Calculus.LocalExtr.Basic
import Mathlib.Analysis.Calculus.FDeriv.Pow

/-
C75: curvature of the L-curve, its scan and its optimisation (rabbit/regularization/lcurve.py).

Specification: the L-curve is the curve of the logarithms of the likelihood and of the penalty at the minimum of the loss,
as a function of `tau`; its curvature is that of a plane curve, with derivatives along the curve.
-/

namespace Verif.LCurve

open Verif.Cov Matrix Filter Topology

variable {n : ℕ}

/-- the linear form of a gradient -/
noncomputable def Spec.form (g : Vec n) : Vec n →L[ℝ] ℝ := LinearMap.toContinuousLinearMap (dotProductBilin ℝ ℝ g)

/-- the linear map of a Hessian -/
noncomputable def Spec.lin (H : Mat n) : Vec n →L[ℝ] Vec n := LinearMap.toContinuousLinearMap H.mulVecLin

/-- `G` is the gradient of `f` everywhere, `H` its Hessian at `x` -/
def Spec.Smooth (f : Vec n → ℝ) (G : Vec n → Vec n) (H : Mat n) (x : Vec n) : Prop :=
  (∀ y, HasFDerivAt f (Spec.form (G y)) y) ∧ HasFDerivAt G (Spec.lin H) x

/-- curvature of the plane curve `(X, Y)` -/
noncomputable def Spec.curvature (X Y : ℝ → ℝ) (τ : ℝ) : ℝ :=
  (deriv (deriv Y) τ * deriv X τ - deriv (deriv X) τ * deriv Y τ) / (deriv X τ ^ 2 + deriv Y τ ^ 2) ^ (3 / 2 : ℝ)

/-- a curve of parameters with velocity `v` and acceleration `a` at `τ` -/
def Spec.Curve (x : ℝ → Vec n) (v : ℝ → Vec n) (a : Vec n) (τ : ℝ) : Prop :=
  (∀ᶠ s in 𝓝 τ, HasDerivAt x (v s) s) ∧ HasDerivAt v a τ

theorem dot_deriv {u w : ℝ → Vec n} {u' w' : Vec n} {τ : ℝ} (hu : HasDerivAt u u' τ) (hw : HasDerivAt w w' τ) :
    HasDerivAt (fun s => u s ⬝ᵥ w s) (u' ⬝ᵥ w τ + u τ ⬝ᵥ w') τ := by
  have h1 := fun i => (hasDerivAt_pi.1 hu) i
  have h2 := fun i => (hasDerivAt_pi.1 hw) i
  have := HasDerivAt.fun_sum fun i (_ : i ∈ Finset.univ) => (h1 i).mul (h2 i)
  refine this.congr_deriv ?_
  simp only [dotProduct, Finset.sum_add_distrib]

/-- first and second derivative of the logarithm of a function along a curve -/
theorem log_along {f : Vec n → ℝ} {G : Vec n → Vec n} {H : Mat n} {x v : ℝ → Vec n} {a : Vec n} {τ : ℝ}
    (hf : Spec.Smooth f G H (x τ)) (hc : Spec.Curve x v a τ) (hpos : 0 < f (x τ)) :
    deriv (fun s => Real.log (f (x s))) τ = G (x τ) ⬝ᵥ v τ / f (x τ) ∧
    deriv (deriv fun s => Real.log (f (x s))) τ =
      (H.mulVec (v τ) ⬝ᵥ v τ + G (x τ) ⬝ᵥ a) / f (x τ) - (G (x τ) ⬝ᵥ v τ) ^ 2 / f (x τ) ^ 2 := by
  have hfx : ∀ᶠ s in 𝓝 τ, HasDerivAt (fun s => f (x s)) (G (x s) ⬝ᵥ v s) s :=
    hc.1.mono fun s hs => (hf.1 (x s)).comp_hasDerivAt s hs
  have hx := hc.1.self_of_nhds
  have hf0 := hfx.self_of_nhds
  have hp : ∀ᶠ s in 𝓝 τ, 0 < f (x s) := hf0.continuousAt.eventually (eventually_gt_nhds hpos)
  have hd : ∀ᶠ s in 𝓝 τ, deriv (fun s => Real.log (f (x s))) s = G (x s) ⬝ᵥ v s / f (x s) :=
    (hfx.and hp).mono fun s hs => (hs.1.log hs.2.ne').deriv
  refine ⟨hd.self_of_nhds, ?_⟩
  have hG : HasDerivAt (fun s => G (x s)) (H.mulVec (v τ)) τ := hf.2.comp_hasDerivAt τ hx
  have hq := (dot_deriv hG hc.2).div hf0 hpos.ne'
  rw [Filter.EventuallyEq.deriv_eq hd]
  rw [show (fun s => G (x s) ⬝ᵥ v s / f (x s)) = (fun s => G (x s) ⬝ᵥ v s) / fun s => f (x s) from rfl, hq.deriv]
  field_simp

/-- the curvature that the code computes, in matrix notation -/
theorem curvature_eq {t : Tapes n} {lb : ℝ} (hp : t.hessL.PosDef) (hlb : t.lbeta = some lb) (hf : 0 < t.ln + t.lc + lb) (hpen : 0 < t.pen) :
      let f := t.ln + t.lc + lb
      let g := -(t.hessL⁻¹.mulVec t.mixL)
      let k := -(t.hessL⁻¹.mulVec t.mixLtau) - t.hessL⁻¹.mulVec (t.hessLtau.mulVec g)
      let X := t.gradF ⬝ᵥ g / f
      let Y := t.gradP ⬝ᵥ g / t.pen
      curvature t = if X ^ 2 + Y ^ 2 = 0 then .error .value else
        .ok ((((t.hessP.mulVec g ⬝ᵥ g + t.gradP ⬝ᵥ k) / t.pen - (t.gradP ⬝ᵥ g) ^ 2 / t.pen ^ 2) * X -
        ((t.hessF.mulVec g ⬝ᵥ g + t.gradF ⬝ᵥ k) / f - (t.gradF ⬝ᵥ g) ^ 2 / f ^ 2) * Y) / (X ^ 2 + Y ^ 2) ^ (3 / 2 : ℝ)) := by
  have hlog : ∀ (v : ℝ) (g w : Vec n), gradLog v g ⬝ᵥ w = g ⬝ᵥ w / v := by
    intro v g w
    simp only [gradLog, dotProduct, Finset.sum_div]
    exact Finset.sum_congr rfl fun i _ => by ring
  have hhess : ∀ (v : ℝ) (g : Vec n) (H : Mat n) (w : Vec n), w ⬝ᵥ (hessLog v g H).mulVec w = H.mulVec w ⬝ᵥ w / v - (g ⬝ᵥ w) ^ 2 / v ^ 2 := by
    intro v g H w
    have : (hessLog v g H).mulVec w = fun i => H.mulVec w i / v - g i * (g ⬝ᵥ w) / v ^ 2 := by
      funext i
      simp only [hessLog, mulVec, dotProduct, Matrix.of_apply, sub_mul, Finset.sum_sub_distrib, Finset.mul_sum, Finset.sum_div]
      congr 1 <;> exact Finset.sum_congr rfl fun j _ => by ring
    rw [this]
    have h2 : (g ⬝ᵥ w) ^ 2 / v ^ 2 = ∑ i, w i * (g i * (g ⬝ᵥ w) / v ^ 2) := by
      rw [sq, show g ⬝ᵥ w * (g ⬝ᵥ w) / v ^ 2 = (∑ i, g i * w i) * ((g ⬝ᵥ w) / v ^ 2) by rw [mul_div_assoc]; rfl, Finset.sum_mul]
      exact Finset.sum_congr rfl fun i _ => by ring
    rw [h2]
    simp only [dotProduct, mul_sub, Finset.sum_sub_distrib, Finset.sum_div]
    congr 1
    exact Finset.sum_congr rfl fun j _ => by ring
  obtain ⟨U, hU, hch⟩ := cholesky_some hp
  intro f g k X Y
  unfold curvature
  rw [hU, hlb]
  dsimp only
  rw [if_neg (by push Not; exact ⟨hf, hpen⟩)]
  simp only [choSolve_eq hch, hlog, hhess]
  refine if_congr Iff.rfl rfl (congrArg _ ?_)
  ring

theorem curvature_ok {t : Tapes n} {c : ℝ} (h : curvature t = .ok c) :
    t.hessL.PosDef ∧ ∃ lb, t.lbeta = some lb ∧ 0 < t.ln + t.lc + lb ∧ 0 < t.pen := by
  unfold curvature at h
  split at h
  · exact nomatch h
  rename_i U hU
  split at h
  · exact nomatch h
  rename_i lb hlb
  dsimp only at h
  split at h
  · exact nomatch h
  rename_i hpos
  push Not at hpos
  refine ⟨?_, lb, hlb, hpos.1, hpos.2⟩
  by_contra hp
  rw [cholesky_none hp] at hU
  exact nomatch hU

/-- the tapes belong to the likelihood `f` and the penalty `p` at the point `x`, and the loss has the second derivatives of
`f + exp (2 tau) * p + ext` where `ext` has the Hessian `E` -/
structure Spec.TapesOf (t : Tapes n) (f p : Vec n → ℝ) (Gf Gp : Vec n → Vec n) (Hf Hp E : Mat n) (x : Vec n) (τ : ℝ) : Prop where
  val : ∀ lb, t.lbeta = some lb → t.ln + t.lc + lb = f x
  gradF : t.gradF = Gf x
  hessF : t.hessF = Hf
  pen : t.pen = p x
  gradP : t.gradP = Gp x
  hessP : t.hessP = Hp
  hessL : t.hessL = Hf + E + Real.exp (2 * τ) • Hp
  mixL : t.mixL = (2 * Real.exp (2 * τ)) • Gp x
  hessLtau : t.hessLtau = (2 * Real.exp (2 * τ)) • Hp
  mixLtau : t.mixLtau = (4 * Real.exp (2 * τ)) • Gp x

theorem lin_zero (y : Vec n) (e : Vec n := 0) : HasFDerivAt (fun _ : Vec n => e) (Spec.lin (0 : Mat n)) y := by
  have : Spec.lin (0 : Mat n) = 0 := by
    ext w; simp [Spec.lin]
  rw [this]
  exact hasFDerivAt_const e y

/-- the velocity of the minimum -/
theorem velocity {Gf Gp Ge : Vec n → Vec n} {Hf Hp E : Mat n} {x v : ℝ → Vec n} {τ : ℝ}
    (hGf : HasFDerivAt Gf (Spec.lin Hf) (x τ)) (hGp : HasFDerivAt Gp (Spec.lin Hp) (x τ)) (hGe : HasFDerivAt Ge (Spec.lin E) (x τ))
    (hx : HasDerivAt x (v τ) τ)
    (hstat : ∀ᶠ s in 𝓝 τ, Gf (x s) + Ge (x s) + Real.exp (2 * s) • Gp (x s) = 0)
    (hdet : (Hf + E + Real.exp (2 * τ) • Hp).PosDef) :
    v τ = -((Hf + E + Real.exp (2 * τ) • Hp)⁻¹.mulVec ((2 * Real.exp (2 * τ)) • Gp (x τ))) := by
  have h1 : HasDerivAt (fun s => Gf (x s)) (Hf.mulVec (v τ)) τ := hGf.comp_hasDerivAt τ hx
  have h2 : HasDerivAt (fun s => Gp (x s)) (Hp.mulVec (v τ)) τ := hGp.comp_hasDerivAt τ hx
  have h3 : HasDerivAt (fun s => Ge (x s)) (E.mulVec (v τ)) τ := hGe.comp_hasDerivAt τ hx
  have h4 : HasDerivAt (fun s : ℝ => Real.exp (2 * s)) (Real.exp (2 * τ) * 2) τ := by
    simpa using ((hasDerivAt_id τ).const_mul 2).exp
  have h5 := (h1.add h3).add (h4.smul h2)
  have h6 : HasDerivAt (fun s => Gf (x s) + Ge (x s) + Real.exp (2 * s) • Gp (x s)) 0 τ :=
    (hasDerivAt_const τ (0 : Vec n)).congr_of_eventuallyEq hstat
  have h7 := h5.unique h6
  have h8 : (Hf + E + Real.exp (2 * τ) • Hp).mulVec (v τ) = -((2 * Real.exp (2 * τ)) • Gp (x τ)) := by
    rw [add_mulVec, add_mulVec, smul_mulVec, eq_neg_iff_add_eq_zero, ← h7, mul_comm (2 : ℝ) (Real.exp _), add_assoc]
  rw [← mulVec_neg, ← h8, mulVec_mulVec, nonsing_inv_mul _ ((isUnit_iff_isUnit_det _).1 hdet.isUnit), one_mulVec]

theorem stationary {f p : Vec n → ℝ} {Gf Gp : Vec n → Vec n} {Hf Hp : Mat n} {x : ℝ → Vec n} {τ : ℝ}
    (hf : Spec.Smooth f Gf Hf (x τ)) (hp : Spec.Smooth p Gp Hp (x τ))
    (hmin : ∀ᶠ s in 𝓝 τ, IsLocalMin (fun y => f y + Real.exp (2 * s) * p y) (x s)) :
    ∀ᶠ s in 𝓝 τ, Gf (x s) + Real.exp (2 * s) • Gp (x s) = 0 := by
  refine hmin.mono fun s hs => ?_
  have h1 := hs.hasFDerivAt_eq_zero ((hf.1 (x s)).add ((hp.1 (x s)).const_mul (Real.exp (2 * s))))
  funext i
  have := congrArg (fun L => L (Pi.single i 1)) h1
  simpa [Spec.form] using this

/-- C75.  Whenever the code returns a number, it is the curvature of the L-curve, for every likelihood, penalty and curve of
minima.  The code takes the derivative of `dx/dtau` with respect to `tau` at fixed parameters instead of along the curve;
the difference cancels because the gradients of the likelihood and the penalty are parallel at a minimum.  Missing: external
terms, bin-by-bin uncertainties and frozen parameters, see below. -/
theorem c75_curvature_partial (f p : Vec n → ℝ) (Gf Gp : Vec n → Vec n) (Hf Hp : Mat n) (x v : ℝ → Vec n) (a : Vec n) (τ : ℝ)
    (hf : Spec.Smooth f Gf Hf (x τ)) (hp : Spec.Smooth p Gp Hp (x τ)) (hc : Spec.Curve x v a τ)
    (hmin : ∀ᶠ s in 𝓝 τ, IsLocalMin (fun y => f y + Real.exp (2 * s) * p y) (x s))
    (t : Tapes n) (ht : Spec.TapesOf t f p Gf Gp Hf Hp 0 (x τ) τ) (c : ℝ) (hcurv : curvature t = .ok c) :
    c = Spec.curvature (fun s => Real.log (f (x s))) (fun s => Real.log (p (x s))) τ := by
  obtain ⟨hpd, lb, hlb, hfpos, hppos⟩ := curvature_ok hcurv
  have hstat := stationary hf hp hmin
  have heq := curvature_eq hpd hlb hfpos hppos
  dsimp only at heq
  have hv := velocity hf.2 hp.2 (Ge := fun _ => 0) (E := 0) (lin_zero (x τ)) hc.1.self_of_nhds
    (by simpa using hstat) (by rw [← ht.hessL]; exact hpd)
  rw [← ht.hessL, ← ht.mixL] at hv
  rw [← hv] at heq
  rw [heq] at hcurv
  split at hcurv
  · exact nomatch hcurv
  rw [← Except.ok.inj hcurv]
  rw [ht.val lb hlb] at hfpos ⊢
  rw [ht.pen] at hppos ⊢
  rw [ht.gradF, ht.gradP, ht.hessF, ht.hessP]
  obtain ⟨hX1, hX2⟩ := log_along hf hc hfpos
  obtain ⟨hY1, hY2⟩ := log_along hp hc hppos
  unfold Spec.curvature
  rw [hX1, hX2, hY1, hY2]
  have hpar : Gf (x τ) = (-Real.exp (2 * τ)) • Gp (x τ) := by
    have := hstat.self_of_nhds
    rw [neg_smul]; exact eq_neg_of_add_eq_zero_left this
  congr 1
  rw [hpar]
  simp only [smul_dotProduct, smul_eq_mul]
  ring

/-- C75 needs bin-by-bin uncertainties: without them `lbeta` is `None` and the sum raises. -/
theorem c75_lbeta_violated (t : Tapes n) (hp : t.hessL.PosDef) (h : t.lbeta = none) : curvature t = .error .type := by
  obtain ⟨U, hU, -⟩ := cholesky_some hp
  unfold curvature
  rw [hU, h]

/-- C75 with a frozen parameter: its row of the Hessian is zero and the decomposition fails, the curvature is not computed. -/
theorem c75_frozen_violated (t : Tapes n) (i : Fin n) (h : ∀ j, t.hessL i j = 0) : curvature t = .error .value := by
  unfold curvature
  rw [cholesky_none]
  intro hp
  have := (posDef_iff'.1 hp).2 (Pi.single i 1) (by intro h0; have := congrFun h0 i; simp at this)
  simp [h] at this

/-- C75 with bin-by-bin uncertainties: the loss contains the likelihood `f` with profiled `beta`, the code takes the second
derivatives of the likelihood at fixed `beta`.  These differ by a matrix `D` (the part of the second derivatives that
comes from the dependence of the profiled `beta` on the parameters); whenever `D` does not vanish along the curve the result
is not the curvature. -/
theorem c75_beta_violated (f p : Vec n → ℝ) (Gf Gp : Vec n → Vec n) (Hf Hp D : Mat n) (x v : ℝ → Vec n) (a : Vec n) (τ : ℝ)
    (hf : Spec.Smooth f Gf Hf (x τ)) (hp : Spec.Smooth p Gp Hp (x τ)) (hc : Spec.Curve x v a τ)
    (hmin : ∀ᶠ s in 𝓝 τ, IsLocalMin (fun y => f y + Real.exp (2 * s) * p y) (x s))
    (t : Tapes n) (ht : Spec.TapesOf t f p Gf Gp Hf Hp 0 (x τ) τ) (hD : D.mulVec (v τ) ⬝ᵥ v τ ≠ 0) (hmove : Gp (x τ) ⬝ᵥ v τ ≠ 0)
    (c : ℝ) (hcurv : curvature { t with hessF := Hf + D } = .ok c) :
    c ≠ Spec.curvature (fun s => Real.log (f (x s))) (fun s => Real.log (p (x s))) τ := by
  obtain ⟨hpd, lb, hlb, hfpos, hppos⟩ := curvature_ok hcurv
  dsimp only at hpd hlb hfpos hppos
  have h1 := curvature_eq (t := { t with hessF := Hf + D }) hpd hlb hfpos hppos
  have h0 := curvature_eq hpd hlb hfpos hppos
  dsimp only at h0 h1
  have hstat : ∀ᶠ s in 𝓝 τ, Gf (x s) + Real.exp (2 * s) • Gp (x s) = 0 := stationary hf hp hmin
  have hv := velocity hf.2 hp.2 (Ge := fun _ => 0) (E := 0) (lin_zero (x τ)) hc.1.self_of_nhds
    (by simpa using hstat) (by rw [← ht.hessL]; exact hpd)
  rw [← ht.hessL, ← ht.mixL] at hv
  rw [← hv] at h0 h1
  have hf0 := ht.val lb hlb
  rw [hcurv] at h1
  split at h1
  · exact nomatch h1
  rename_i hne
  rw [if_neg hne] at h0
  have hpart := c75_curvature_partial f p Gf Gp Hf Hp x v a τ hf hp hc hmin t ht _ h0
  rw [← hpart, Except.ok.inj h1, ← sub_ne_zero, ← sub_div, ht.hessF]
  have hden : 0 < (t.gradF ⬝ᵥ v τ / (t.ln + t.lc + lb)) ^ 2 + (t.gradP ⬝ᵥ v τ / t.pen) ^ 2 :=
    lt_of_le_of_ne (by positivity) (Ne.symm hne)
  refine div_ne_zero ?_ (Real.rpow_pos_of_pos hden _).ne'
  rw [add_mulVec, add_dotProduct]
  have hy : t.gradP ⬝ᵥ v τ / t.pen ≠ 0 := div_ne_zero (by rw [ht.gradP]; exact hmove) hppos.ne'
  have hd : D.mulVec (v τ) ⬝ᵥ v τ / (t.ln + t.lc + lb) ≠ 0 := div_ne_zero hD hfpos.ne'
  intro h
  apply mul_ne_zero hd hy
  linear_combination -h

/-! ### an external term -/

namespace Ex75

/-- two parameters, measured to be `2` and `c` -/
noncomputable def f (c : ℝ) (x : Vec 2) : ℝ := ((x 0 - 2) ^ 2 + (x 1 - c) ^ 2) / 2
def Gf (c : ℝ) (x : Vec 2) : Vec 2 := ![x 0 - 2, x 1 - c]
noncomputable def p (x : Vec 2) : ℝ := x 0 ^ 2 / 2 + x 1 ^ 2
def Gp (x : Vec 2) : Vec 2 := ![x 0, 2 * x 1]
/-- the external term, zero for `c = 3` -/
def ext (c : ℝ) (x : Vec 2) : ℝ := (c - 3) * x 1
def Hp : Mat 2 := !![1, 0; 0, 2]

/-- the minimum -/
noncomputable def x (s : ℝ) : Vec 2 := ![2 / (1 + Real.exp (2 * s)), 3 / (1 + 2 * Real.exp (2 * s))]
noncomputable def v (s : ℝ) : Vec 2 := ![-(4 * Real.exp (2 * s)) / (1 + Real.exp (2 * s)) ^ 2, -(12 * Real.exp (2 * s)) / (1 + 2 * Real.exp (2 * s)) ^ 2]
noncomputable def a : Vec 2 := ![0, 8 / 9]

theorem smooth_f (c : ℝ) (y : Vec 2) : Spec.Smooth (f c) (Gf c) 1 y := by
  constructor
  · intro z
    have h0 := (hasFDerivAt_apply (𝕜 := ℝ) (0 : Fin 2) z)
    have h1 := (hasFDerivAt_apply (𝕜 := ℝ) (1 : Fin 2) z)
    have := (((h0.sub_const 2).pow 2).add ((h1.sub_const c).pow 2)).mul_const (1 / 2)
    refine (this.congr_fderiv ?_).congr_of_eventuallyEq (Eventually.of_forall fun w => ?_)
    · ext w
      simp [Spec.form, Gf, Fin.sum_univ_two, dotProduct]
      ring
    · simp [f]; ring
  · rw [hasFDerivAt_pi']
    intro i
    fin_cases i
    · refine ((hasFDerivAt_apply (𝕜 := ℝ) (0 : Fin 2) y).sub_const 2).congr_fderiv ?_
      ext w; simp [Spec.lin]
    · refine ((hasFDerivAt_apply (𝕜 := ℝ) (1 : Fin 2) y).sub_const c).congr_fderiv ?_
      ext w; simp [Spec.lin]

theorem smooth_p (y : Vec 2) : Spec.Smooth p Gp Hp y := by
  constructor
  · intro z
    have h0 := (hasFDerivAt_apply (𝕜 := ℝ) (0 : Fin 2) z)
    have h1 := (hasFDerivAt_apply (𝕜 := ℝ) (1 : Fin 2) z)
    have := ((h0.pow 2).mul_const (1 / 2)).add (h1.pow 2)
    refine (this.congr_fderiv ?_).congr_of_eventuallyEq (Eventually.of_forall fun w => ?_)
    · ext w
      simp [Spec.form, Gp, Fin.sum_univ_two, dotProduct]
      ring
    · simp [p]; ring
  · rw [hasFDerivAt_pi']
    intro i
    fin_cases i
    · refine (hasFDerivAt_apply (𝕜 := ℝ) (0 : Fin 2) y).congr_fderiv ?_
      ext w; simp [Spec.lin, Hp, dotProduct, Fin.sum_univ_two]
    · refine ((hasFDerivAt_apply (𝕜 := ℝ) (1 : Fin 2) y).const_mul 2).congr_fderiv ?_
      ext w; simp [Spec.lin, Hp, dotProduct, Fin.sum_univ_two]

theorem curve : Spec.Curve x v a 0 := by
  have hS : ∀ s : ℝ, HasDerivAt (fun s : ℝ => Real.exp (2 * s)) (Real.exp (2 * s) * 2) s := fun s => by
    simpa using ((hasDerivAt_id s).const_mul 2).exp
  constructor
  · refine Eventually.of_forall fun s => ?_
    rw [hasDerivAt_pi]
    intro i
    have hpos := Real.exp_pos (2 * s)
    fin_cases i
    · refine ((hasDerivAt_const s (2 : ℝ)).div ((hS s).const_add 1) (by positivity)).congr_deriv ?_
      simp [v]; ring
    · refine ((hasDerivAt_const s (3 : ℝ)).div (((hS s).const_mul 2).const_add 1) (by positivity)).congr_deriv ?_
      simp [v]; ring
  · rw [hasDerivAt_pi]
    intro i
    fin_cases i
    · refine (((hS 0).const_mul 4).neg.div (((hS 0).const_add 1).pow 2) (by norm_num)).congr_deriv ?_
      simp [a]; norm_num
    · refine (((hS 0).const_mul 12).neg.div ((((hS 0).const_mul 2).const_add 1).pow 2) (by norm_num)).congr_deriv ?_
      simp [a]; norm_num

/-- the values of the tapes at `tau = 0` -/
noncomputable def tapes (c : ℝ) : Tapes 2 where
  ln := (1 + (1 - c) ^ 2) / 2
  lc := 0
  lbeta := some 0
  gradF := ![-1, 1 - c]
  hessF := 1
  pen := 3 / 2
  gradP := ![1, 2]
  hessP := Hp
  hessL := !![2, 0; 0, 3]
  mixL := ![2, 4]
  hessLtau := !![2, 0; 0, 4]
  mixLtau := ![4, 8]

theorem tapes_ok (c : ℝ) : Spec.TapesOf (tapes c) (f c) p (Gf c) Gp 1 Hp 0 (x 0) 0 := by
  have h0 : x 0 0 = 1 := by simp [x]; norm_num
  have h1 : x 0 1 = 1 := by simp [x]; norm_num
  constructor
  · intro lb hlb
    cases hlb
    simp [tapes, f, h0, h1]; norm_num
  · simp [tapes, Gf, h0, h1]; norm_num
  · rfl
  · simp [tapes, p, h0, h1]; norm_num
  · simp [tapes, Gp, h0, h1]
  · rfl
  · ext i j; fin_cases i <;> fin_cases j <;> simp [tapes, Hp] <;> norm_num
  · ext i; fin_cases i <;> simp [tapes, Gp, h0, h1]; norm_num
  · ext i j; fin_cases i <;> fin_cases j <;> simp [tapes, Hp]; norm_num
  · ext i; fin_cases i <;> simp [tapes, Gp, h0, h1]; norm_num

theorem minimum (c s : ℝ) (y : Vec 2) :
    f c (x s) + ext c (x s) + Real.exp (2 * s) * p (x s) ≤ f c y + ext c y + Real.exp (2 * s) * p y := by
  have hpos := Real.exp_pos (2 * s)
  have h0 : x s 0 * (1 + Real.exp (2 * s)) = 2 := by simp [x]; field_simp
  have h1 : x s 1 * (1 + 2 * Real.exp (2 * s)) = 3 := by simp [x]; field_simp
  unfold f p ext
  nlinarith [mul_nonneg hpos.le (sq_nonneg (y 0 - x s 0)), mul_nonneg hpos.le (sq_nonneg (y 1 - x s 1)), sq_nonneg (y 0 - x s 0),
    sq_nonneg (y 1 - x s 1), congrArg (· * (y 0 - x s 0)) h0, congrArg (· * (y 1 - x s 1)) h1]

theorem posDef_L (c : ℝ) : (tapes c).hessL.PosDef := by
  rw [posDef_iff']
  refine ⟨by ext i j; fin_cases i <;> fin_cases j <;> simp [tapes], fun w hw => ?_⟩
  have : w ⬝ᵥ (tapes c).hessL.mulVec w = 2 * w 0 ^ 2 + 3 * w 1 ^ 2 := by
    simp [tapes, dotProduct, Fin.sum_univ_two]; ring
  rw [this]
  by_contra hle
  have h0 : w 0 = 0 := by nlinarith [sq_nonneg (w 0), sq_nonneg (w 1)]
  have h1 : w 1 = 0 := by nlinarith [sq_nonneg (w 0), sq_nonneg (w 1)]
  exact hw (by funext i; fin_cases i <;> assumption)

theorem inverse (c : ℝ) (w : Vec 2) : (tapes c).hessL⁻¹.mulVec w = ![w 0 / 2, w 1 / 3] := by
  have hu := (isUnit_iff_isUnit_det _).1 (posDef_L c).isUnit
  have : w = (tapes c).hessL.mulVec ![w 0 / 2, w 1 / 3] := by
    funext i; fin_cases i <;> simp [tapes]
  conv_lhs => rw [this]
  rw [mulVec_mulVec, nonsing_inv_mul _ hu, one_mulVec]

theorem vel : v 0 = ![-1, -4 / 3] := by
  funext i; fin_cases i <;> simp [v] <;> norm_num

theorem point : x 0 = ![1, 1] := by
  funext i; fin_cases i <;> simp [x] <;> norm_num

/-- the code's result at `tau = 0` -/
theorem result (c : ℝ) : ∃ r, curvature (tapes c) = .ok r := by
  have h := curvature_eq (posDef_L c) (lb := 0) rfl (by simp [tapes]; positivity) (by simp [tapes])
  dsimp only at h
  rw [if_neg] at h
  · exact ⟨_, h⟩
  · simp only [inverse]
    have : (0 : ℝ) < ((tapes c).gradP ⬝ᵥ -![(tapes c).mixL 0 / 2, (tapes c).mixL 1 / 3] / (tapes c).pen) ^ 2 := by
      simp [tapes, dotProduct, Fin.sum_univ_two]; norm_num
    positivity

/-- the hypotheses of `c75_curvature_partial` -/
example : ∃ r, curvature (tapes 3) = .ok r ∧ r = Spec.curvature (fun s => Real.log (f 3 (x s))) (fun s => Real.log (p (x s))) 0 := by
  obtain ⟨r, hr⟩ := result 3
  refine ⟨r, hr, c75_curvature_partial (f 3) p (Gf 3) Gp 1 Hp x v a 0 (smooth_f 3 _) (smooth_p _) curve ?_ _ (tapes_ok 3) r hr⟩
  refine Eventually.of_forall fun s => Eventually.of_forall fun y => ?_
  have := minimum 3 s y
  simpa [ext] using this

/-- the hypotheses of `c75_beta_violated` -/
example : ∃ r, curvature { tapes 3 with hessF := 1 + !![1, 0; 0, 0] } = .ok r ∧
    r ≠ Spec.curvature (fun s => Real.log (f 3 (x s))) (fun s => Real.log (p (x s))) 0 := by
  have hr : ∃ r, curvature { tapes 3 with hessF := 1 + !![1, 0; 0, 0] } = .ok r := by
    have h := curvature_eq (t := { tapes 3 with hessF := 1 + !![1, 0; 0, 0] }) (posDef_L 3) (lb := 0) rfl
      (by simp [tapes]; positivity) (by simp [tapes])
    dsimp only at h
    rw [if_neg] at h
    · exact ⟨_, h⟩
    · simp only [inverse]
      have : (0 : ℝ) < ((tapes 3).gradP ⬝ᵥ -![(tapes 3).mixL 0 / 2, (tapes 3).mixL 1 / 3] / (tapes 3).pen) ^ 2 := by
        simp [tapes, dotProduct, Fin.sum_univ_two]; norm_num
      positivity
  obtain ⟨r, hr⟩ := hr
  refine ⟨r, hr, c75_beta_violated (f 3) p (Gf 3) Gp 1 Hp !![1, 0; 0, 0] x v a 0 (smooth_f 3 _) (smooth_p _) curve ?_ _ (tapes_ok 3) ?_ ?_ r hr⟩
  · refine Eventually.of_forall fun s => Eventually.of_forall fun y => ?_
    have := minimum 3 s y
    simpa [ext] using this
  · rw [vel]; simp [dotProduct, Fin.sum_univ_two]
  · rw [vel, point]; simp [Gp, dotProduct, Fin.sum_univ_two]; norm_num

end Ex75

open Ex75 in
/-- C75 with an external term: the loss contains it, the likelihood whose logarithm is taken does not.  The gradients are not
parallel at the minimum, and the result is not the curvature of the L-curve. -/
theorem c75_external_violated :
    ∃ (f p ext : Vec 2 → ℝ) (Gf Gp : Vec 2 → Vec 2) (Hf Hp : Mat 2) (x v : ℝ → Vec 2) (a : Vec 2) (t : Tapes 2) (c : ℝ),
      Spec.Smooth f Gf Hf (x 0) ∧ Spec.Smooth p Gp Hp (x 0) ∧ Spec.Smooth ext (fun _ => ![0, -1]) 0 (x 0) ∧ Spec.Curve x v a 0 ∧
      (∀ s y, f (x s) + ext (x s) + Real.exp (2 * s) * p (x s) ≤ f y + ext y + Real.exp (2 * s) * p y) ∧
      Spec.TapesOf t f p Gf Gp Hf Hp 0 (x 0) 0 ∧ curvature t = .ok c ∧
      c ≠ Spec.curvature (fun s => Real.log (f (x s))) (fun s => Real.log (p (x s))) 0 := by
  obtain ⟨r, hr⟩ := result 2
  refine ⟨f 2, p, ext 2, Gf 2, Gp, 1, Hp, x, v, a, tapes 2, r, smooth_f 2 _, smooth_p _, ⟨fun y => ?_, lin_zero _ _⟩, curve, minimum 2, tapes_ok 2, hr, ?_⟩
  · refine ((hasFDerivAt_apply (𝕜 := ℝ) (1 : Fin 2) y).const_mul (2 - 3)).congr_fderiv ?_
    ext w; simp [Spec.form, dotProduct, Fin.sum_univ_two]; norm_num
  have h := curvature_eq (posDef_L 2) (lb := 0) rfl (by simp [tapes]; positivity) (by simp [tapes])
  dsimp only at h
  simp only [inverse] at h
  rw [hr] at h
  split at h
  · exact nomatch h
  rename_i hne
  rw [Except.ok.inj h]
  obtain ⟨hX1, hX2⟩ := log_along (smooth_f 2 _) curve (by simp [f, point]; norm_num)
  obtain ⟨hY1, hY2⟩ := log_along (smooth_p _) curve (by simp [p, point]; norm_num)
  unfold Spec.curvature
  rw [hX1, hX2, hY1, hY2, vel, point]
  have e1 : f 2 ![1, 1] = 1 := by simp [f]; norm_num
  have e2 : p ![1, 1] = 3 / 2 := by simp [p]; norm_num
  rw [e1, e2]
  simp only [Gf, Gp, tapes, Hp, a, dotProduct, Fin.sum_univ_two, Matrix.cons_val_zero, Matrix.cons_val_one, Pi.neg_apply, Pi.sub_apply, mulVec,
    Matrix.of_apply]
  norm_num

/-! ### scan -/

theorem scanGo_ok {X : Type} {minimize : ℝ → X → X} {curv : X → ℝ → Res ℝ} {taus : List ℝ} {x x' : X} {cs : List ℝ}
    (h : scanGo minimize curv x taus = .ok (x', cs)) :
    List.Forall₂ (fun τ c => ∃ y, curv (minimize τ y) τ = .ok c) taus cs ∧
      (∀ τ, taus.getLast? = some τ → ∃ y, x' = minimize τ y) ∧ (taus = [] → x' = x) := by
  induction taus generalizing x cs with
  | nil => cases h; exact ⟨.nil, by simp, fun _ => rfl⟩
  | cons v vs ih =>
    unfold scanGo at h
    dsimp only at h
    split at h
    · exact nomatch h
    rename_i c hc
    split at h
    · exact nomatch h
    rename_i y cs' hr
    cases h
    obtain ⟨h1, h2, h3⟩ := ih hr
    refine ⟨.cons ⟨x, hc⟩ h1, fun τ hτ => ?_, fun h => nomatch h⟩
    cases vs with
    | nil => cases hτ; exact ⟨x, h3 rfl⟩
    | cons w ws => exact h2 τ (by rwa [List.getLast?_cons_cons] at hτ)

/-- C75, scan: the scanned values are equally spaced from the first up to and without the last, one curvature is stored for
each, taken at a minimum of the loss for that value, and `tau` has its old value afterwards. -/
theorem c75_scan {X : Type} (loss : ℝ → X → ℝ) (minimize : ℝ → X → X) (hmin : ∀ τ x y, loss τ (minimize τ x) ≤ loss τ y)
    (curv : X → ℝ → Res ℝ) (x x' : X) (tau0 tau' a b s : ℝ) (hs : 0 < s) (taus cs : List ℝ)
    (h : scanTau minimize curv x tau0 a b s = .ok (x', tau', taus, cs)) :
    tau' = tau0 ∧ cs.length = taus.length ∧ (∀ (i : Nat) (τ : ℝ), taus[i]? = some τ → τ = a + i * s ∧ τ < b) ∧ b ≤ a + taus.length * s ∧
    ∀ (i : Nat) (τ c : ℝ), taus[i]? = some τ → cs[i]? = some c → ∃ z, (∀ y, loss τ z ≤ loss τ y) ∧ curv z τ = .ok c := by
  unfold scanTau at h
  split at h
  · exact nomatch h
  rename_i y cs' hr
  cases h
  obtain ⟨h1, -, -⟩ := scanGo_ok hr
  refine ⟨rfl, h1.length_eq.symm, ?_, ?_, ?_⟩
  · intro i τ hi
    unfold arange at hi
    rw [List.getElem?_map, Option.map_eq_some_iff] at hi
    obtain ⟨j, hj, rfl⟩ := hi
    obtain ⟨hj1, hj2⟩ := List.getElem?_eq_some_iff.1 hj
    rw [List.getElem_range] at hj2
    subst hj2
    refine ⟨rfl, ?_⟩
    rw [List.length_range, Nat.lt_ceil, lt_div_iff₀ hs] at hj1
    linarith
  · unfold arange
    rw [List.length_map, List.length_range]
    have := Nat.le_ceil ((b - a) / s)
    rw [div_le_iff₀ hs] at this
    linarith
  · intro i τ c hi hc
    obtain ⟨hi1, rfl⟩ := List.getElem?_eq_some_iff.1 hi
    obtain ⟨hc1, rfl⟩ := List.getElem?_eq_some_iff.1 hc
    obtain ⟨y, hy⟩ := (List.forall₂_iff_get.1 h1).2 i hi1 hc1
    exact ⟨_, hmin _ y, hy⟩

/-- C75, scan: the parameters are left at the minimum for the last scanned value although `tau` is set back, so that
without a fit the results are not those of the loss they are stored with. -/
theorem c75_scan_violated {X : Type} (loss : ℝ → X → ℝ) (minimize : ℝ → X → X) (hmin : ∀ τ x y, loss τ (minimize τ x) ≤ loss τ y)
    (curv : X → ℝ → Res ℝ) (x x' : X) (tau0 tau' a b s last : ℝ) (taus cs : List ℝ)
    (h : scanTau minimize curv x tau0 a b s = .ok (x', tau', taus, cs)) (hlast : taus.getLast? = some last)
    (hdiff : ∀ z, (∀ y, loss last z ≤ loss last y) → ∃ y, loss tau0 y < loss tau0 z) :
    tau' = tau0 ∧ (∀ y, loss last x' ≤ loss last y) ∧ ∃ y, loss tau' y < loss tau' x' := by
  unfold scanTau at h
  split at h
  · exact nomatch h
  rename_i y cs' hr
  cases h
  obtain ⟨-, h2, -⟩ := scanGo_ok hr
  obtain ⟨y, rfl⟩ := h2 last hlast
  exact ⟨rfl, hmin last y, hdiff _ (hmin last y)⟩

/-- the hypotheses of `c75_scan` and `c75_scan_violated`: one parameter, loss `(x - tau)^2`, four values -/
example : ∃ taus cs, scanTau (fun τ _ => τ) (fun x τ => .ok (x + τ)) (0 : ℝ) 5 1 3 (1 / 2) = .ok (5 / 2, 5, taus, cs) ∧
    (∀ τ y : ℝ, (τ - τ) ^ 2 ≤ (y - τ) ^ 2) ∧ taus.getLast? = some (5 / 2) ∧
    ∀ z : ℝ, (∀ y : ℝ, (z - 5 / 2) ^ 2 ≤ (y - 5 / 2) ^ 2) → ∃ y : ℝ, (y - 5) ^ 2 < (z - 5) ^ 2 := by
  have hr : arange 1 3 (1 / 2) = [1, 3 / 2, 2, 5 / 2] := by
    unfold arange
    rw [show ((3 : ℝ) - 1) / (1 / 2) = ((4 : ℕ) : ℝ) by norm_num, Nat.ceil_natCast]
    simp [List.range_succ]; norm_num
  refine ⟨[1, 3 / 2, 2, 5 / 2], [1 + 1, 3 / 2 + 3 / 2, 2 + 2, 5 / 2 + 5 / 2], ?_, fun τ y => by nlinarith [sq_nonneg (y - τ)], rfl, ?_⟩
  · unfold scanTau
    rw [hr]
    rfl
  · intro z hz
    have h := hz (5 / 2)
    have : z = 5 / 2 := by nlinarith [sq_nonneg (z - 5 / 2)]
    exact ⟨5, by rw [this]; norm_num⟩

/-! ### optimisation -/

theorem optStep_bound {g h : ℝ} (h0 : 0 ≤ 1 / 2 * g * optStep g h) (h1 : 1 / 2 * g * optStep g h ≤ 1e-16) :
    g ^ 2 ≤ 2e-16 * max |h| 1e-8 ∧ (0 ≤ h ∨ g = 0) := by
  have hm : (0 : ℝ) < max |h| 1e-8 := lt_max_of_lt_right (by norm_num)
  unfold optStep at h0 h1
  dsimp only at h0 h1
  by_cases hn : h < 0
  · rw [if_pos hn.ne, if_neg (not_lt.2 hn.le)] at h0 h1
    have : 1 / 2 * g * (g / (-1 * max |h| 1e-8)) = -(g ^ 2 / (2 * max |h| 1e-8)) := by
      field_simp
    rw [this] at h0
    have h2 : g ^ 2 / (2 * max |h| 1e-8) ≤ 0 := by linarith
    have h3 : g ^ 2 ≤ 0 := by
      by_contra hc
      have : 0 < g ^ 2 / (2 * max |h| 1e-8) := div_pos (not_le.1 hc) (by positivity)
      linarith
    have h4 : g = 0 := by
      have := le_antisymm h3 (sq_nonneg g)
      exact pow_eq_zero_iff (two_ne_zero) |>.1 this
    exact ⟨by rw [h4]; have := hm.le; nlinarith, .inr h4⟩
  · have hsgn : (if h ≠ 0 then (if 0 < h then (1 : ℝ) else -1) else 1) = 1 := by
      by_cases hz : h = 0
      · rw [if_neg (not_not.2 hz)]
      · rw [if_pos hz, if_pos (lt_of_le_of_ne (not_lt.1 hn) (Ne.symm hz))]
    rw [hsgn, one_mul] at h1
    refine ⟨?_, .inl (not_lt.1 hn)⟩
    have : 1 / 2 * g * (g / max |h| 1e-8) = g ^ 2 / (2 * max |h| 1e-8) := by field_simp
    rw [this, div_le_iff₀ (by positivity)] at h1
    linarith

theorem optGo_ok {X : Type} {minimize : ℝ → X → X} {vgh : X → ℝ → Res (ℝ × ℝ × ℝ)} (k : Nat) {x x' : X} {tau tau' edm edm' val val' : ℝ}
    (h : optGo minimize vgh k x tau edm val = .ok (x', tau', edm', val')) :
    (x' = x ∧ tau' = tau ∧ edm' = edm ∧ val' = val ∧ (k = 0 ∨ ¬ (edm < 0 ∨ 1e-16 < edm))) ∨
    ∃ τ y g h, x' = minimize τ y ∧ vgh x' τ = .ok (val', g, h) ∧ tau' = τ - optStep g h ∧ edm' = 1 / 2 * g * optStep g h := by
  induction k generalizing x tau edm val with
  | zero => cases h; exact .inl ⟨rfl, rfl, rfl, rfl, .inl rfl⟩
  | succ k ih =>
    unfold optGo at h
    split at h
    · dsimp only at h
      split at h
      · exact nomatch h
      rename_i v g hh hv
      rcases ih h with ⟨rfl, rfl, rfl, rfl, -⟩ | h'
      · exact .inr ⟨tau, x, g, hh, rfl, hv, rfl, rfl⟩
      · exact .inr h'
    · rename_i hn
      cases h
      exact .inl ⟨rfl, rfl, rfl, rfl, .inr hn⟩

/-- C75, optimisation: when the search ends converged, the derivative of the negative curvature at the last value of `tau` is
small compared to its second derivative and the latter is not negative: not a minimum of the curvature. -/
theorem c75_optimize {X : Type} (minimize : ℝ → X → X) (vgh : X → ℝ → Res (ℝ × ℝ × ℝ)) (x x' : X) (tau tau' edm val : ℝ)
    (h : optimizeTau minimize vgh x tau = .ok (x', tau', edm, val)) (hconv : 0 ≤ edm ∧ edm ≤ 1e-16) :
    ∃ τ g h, (∃ y, x' = minimize τ y) ∧ vgh x' τ = .ok (val, g, h) ∧ g ^ 2 ≤ 2e-16 * max |h| 1e-8 ∧ (0 ≤ h ∨ g = 0) := by
  rcases optGo_ok 50 h with ⟨-, -, rfl, -, h5⟩ | ⟨τ, y, g, hh, h1, h2, -, rfl⟩
  · norm_num at hconv
  · exact ⟨τ, g, hh, ⟨y, h1⟩, h2, optStep_bound hconv.1 hconv.2⟩

/-- the hypotheses of `c75_optimize` and `c75_sign_violated`: curvature `2 - (tau - 1) ^ 2 / 2` near its maximum -/
example : ∃ x tau edm val, optimizeTau (fun τ _ => τ) (fun _ τ => .ok (-(2 - (τ - 1) ^ 2 / 2), τ - 1, 1)) (0 : ℝ) 1 = .ok (x, tau, edm, val) ∧
    0 ≤ edm ∧ edm ≤ 1e-16 ∧ tau = 1 ∧ val = -2 := by
  refine ⟨1, 1, 0, -2, ?_, le_rfl, by norm_num, rfl, rfl⟩
  unfold optimizeTau
  rw [show (50 : Nat) = 48 + 1 + 1 from rfl, optGo, if_pos (.inr (by norm_num))]
  dsimp only
  have h0 : optStep ((1 : ℝ) - 1) 1 = 0 := by simp [optStep]
  rw [h0, optGo, if_neg (by norm_num)]
  norm_num

/-- C75, optimisation: the value stored as the largest curvature has the wrong sign, unlike the values of the scan. -/
theorem c75_sign_violated {X : Type} (minimize : ℝ → X → X) (curv : X → ℝ → Res ℝ) (vgh : X → ℝ → Res (ℝ × ℝ × ℝ))
    (hv : ∀ x τ v g h, vgh x τ = .ok (v, g, h) → curv x τ = .ok (-v)) (x x' : X) (tau tau' edm val : ℝ)
    (h : optimizeTau minimize vgh x tau = .ok (x', tau', edm, val)) (hpos : ∀ y τ c, curv y τ = .ok c → 0 < c) :
    val < 0 ∧ ∃ τ, curv x' τ = .ok (-val) := by
  rcases optGo_ok 50 h with ⟨-, -, rfl, -, h5⟩ | ⟨τ, y, g, hh, h1, h2, -, rfl⟩
  · rcases h5 with h5 | h5
    · exact absurd h5 (by norm_num)
    · exact absurd (.inr (by norm_num)) h5
  · have := hv _ _ _ _ _ h2
    exact ⟨by have := hpos _ _ _ this; linarith, τ, this⟩

end Verif.LCurve
