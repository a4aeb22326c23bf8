import Verif.Model.Chi2
import Verif.Props.Project
import Verif.Props.Select
import Mathlib.Analysis.Calculus.FDeriv.Comp
import Mathlib.Analysis.Calculus.FDeriv.Add
import Mathlib.Analysis.Calculus.FDeriv.Linear
import Mathlib.Analysis.Calculus.FDeriv.Mul
import Mathlib.Analysis.Calculus.FDeriv.Prod
import Mathlib.Analysis.Calculus.Deriv.Comp
import Mathlib.Analysis.Calculus.Deriv.Prod
import Mathlib.Analysis.Calculus.Deriv.Add
import Mathlib.LinearAlgebra.Matrix.PosDef

/-
C70: data, variances and covariance of a mapped histogram.

Specification: the covariance of the data is given by its inverse, by variances of independent bins, or is that of
independent Poisson counts; a (linearised) observable `Σ_b D_b (·)_b` of data with covariance `V` has with another
one the covariance `Σ_{b,b'} D_b V_{bb'} D'_{b'}`.
-/

namespace Verif.Chi2

open Verif.Cov Verif.Impacts Matrix

noncomputable section

variable {B O : Type} [Fintype B] [DecidableEq B]

namespace Spec

/-- `V` is the covariance matrix of the data described by the arguments -/
def IsDataCov (data : B → ℝ) (var : Option (B → ℝ)) (covInv : Option (Matrix B B ℝ)) (V : Matrix B B ℝ) : Prop :=
  match covInv, var with
  | some W, _ => W * V = 1
  | none, some v => ∀ b b', V b b' = if b = b' then v b else 0
  | none, none => ∀ b b', V b b' = if b = b' then data b else 0

/-- covariance of two linear observables with coefficients `D` and `D'` -/
def linCov (V : Matrix B B ℝ) (D D' : B → ℝ) : ℝ := ∑ b, ∑ b', D b * V b b' * D' b'

end Spec

theorem jac_eq [Fintype O] {f : (B → ℝ) → O → ℝ} {x : B → ℝ} {f' : (B → ℝ) →L[ℝ] (O → ℝ)} (h : HasFDerivAt f f' x)
    (o : O) (b : B) : jac f x o b = f' (Pi.single b 1) o := by
  have h1 : HasDerivAt (Function.update x b) (Pi.single b 1) (x b) := hasDerivAt_update x b (x b)
  have h2 : HasFDerivAt f f' (Function.update x b (x b)) := by rwa [Function.update_eq_self]
  have h3 := h2.comp_hasDerivAt (x b) h1
  exact (hasDerivAt_pi.1 h3 o).deriv

omit [DecidableEq B] in
theorem sand_eq (J : Matrix O B ℝ) (V : Matrix B B ℝ) (o o' : O) :
    (J * (V * J.transpose)) o o' = Spec.linCov V (J o) (J o') := by
  simp only [Spec.linCov, mul_apply, transpose_apply, Finset.mul_sum, mul_assoc]

/-- all three branches compute the same expression -/
theorem getData_eq (f : (B → ℝ) → O → ℝ) (data : B → ℝ) (var : Option (B → ℝ)) (covInv : Option (Matrix B B ℝ))
    (V : Matrix B B ℝ) (hV : Spec.IsDataCov data var covInv V) :
    getData f data var covInv = .ok (Out.of (f data) (jac f data * (V * (jac f data).transpose))) := by
  have key : ∀ v : B → ℝ, (∀ b b', V b b' = if b = b' then v b else 0) →
      Matrix.of (fun o b => jac f data o b * v b) * (jac f data).transpose =
        jac f data * (V * (jac f data).transpose) := by
    intro v hv
    have : V = diagonal v := by ext b b'; rw [hv, diagonal_apply]
    rw [this, ← Matrix.mul_assoc]
    congr 1
    ext o b
    rw [mul_diagonal]; rfl
  unfold getData
  cases covInv with
  | some W =>
    replace hV : W * V = 1 := hV
    have hdet : W.det ≠ 0 := by
      intro h0
      have := congrArg det hV
      rw [det_mul, h0, zero_mul, det_one] at this
      exact zero_ne_one this
    have hi : W⁻¹ = V := inv_eq_right_inv hV
    simp only [solve, if_neg hdet, hi]
  | none =>
    cases var with
    | some v => dsimp only; rw [key v hV]
    | none => dsimp only; rw [key data hV]

/-- C70.  For a mapping that is differentiable at the data, `_get_data` returns the mapped data, and the covariance of
every pair of output bins is that of the linearised observables; the variances are those of the single bins. -/
theorem c70_covariance [Fintype O] (f : (B → ℝ) → O → ℝ) (data : B → ℝ) (var : Option (B → ℝ))
    (covInv : Option (Matrix B B ℝ)) (V : Matrix B B ℝ) (hV : Spec.IsDataCov data var covInv V)
    (f' : (B → ℝ) →L[ℝ] (O → ℝ)) (hf : HasFDerivAt f f' data) :
    ∃ out, getData f data var covInv = .ok out ∧ out.output = f data ∧
      (∀ o o', out.cov o o' = Spec.linCov V (fun b => f' (Pi.single b 1) o) fun b => f' (Pi.single b 1) o') ∧
      ∀ o, out.variances o = out.cov o o := by
  refine ⟨_, getData_eq f data var covInv V hV, rfl, fun o o' => ?_, fun _ => rfl⟩
  have : ∀ o, jac f data o = fun b => f' (Pi.single b 1) o := fun o => funext fun b => jac_eq hf o b
  rw [← this o, ← this o']
  exact sand_eq _ _ _ _

/-- C70: the call fails only when an inverse covariance is given that is singular. -/
theorem c70_error (f : (B → ℝ) → O → ℝ) (data : B → ℝ) (var : Option (B → ℝ)) (covInv : Option (Matrix B B ℝ)) (e : Err) :
    getData f data var covInv = .error e ↔ e = .exception ∧ ∃ W, covInv = some W ∧ ¬ ∃ V, W * V = 1 := by
  cases covInv with
  | none =>
    refine ⟨fun h => ?_, fun h => by obtain ⟨-, W, hW, -⟩ := h; exact nomatch hW⟩
    unfold getData at h
    cases var <;> exact nomatch h
  | some W =>
    have hdet : (¬ ∃ V, W * V = 1) ↔ W.det = 0 := by
      constructor
      · intro h
        by_contra h0
        exact h ⟨W⁻¹, mul_nonsing_inv W (isUnit_iff_ne_zero.2 h0)⟩
      · rintro h0 ⟨V, hV⟩
        have := congrArg det hV
        rw [det_mul, h0, zero_mul, det_one] at this
        exact zero_ne_one this
    unfold getData solve
    by_cases h0 : W.det = 0
    · dsimp only
      rw [if_pos h0]
      constructor
      · intro h; cases h; exact ⟨rfl, W, rfl, hdet.2 h0⟩
      · rintro ⟨rfl, -⟩; rfl
    · dsimp only
      rw [if_neg h0]
      constructor
      · intro h; exact nomatch h
      · rintro ⟨-, W', hW, hn⟩
        cases hW
        exact absurd (hdet.1 hn) h0

/-- C70: the covariance of the mapped data is symmetric and positive semidefinite, so no variance is negative. -/
theorem c70_posSemidef [Fintype O] (f : (B → ℝ) → O → ℝ) (data : B → ℝ) (var : Option (B → ℝ))
    (covInv : Option (Matrix B B ℝ)) (V : Matrix B B ℝ) (hV : Spec.IsDataCov data var covInv V) (hp : V.PosSemidef)
    (out : Out O) (h : getData f data var covInv = .ok out) : out.cov.PosSemidef ∧ ∀ o, 0 ≤ out.variances o := by
  rw [getData_eq f data var covInv V hV] at h
  cases h
  have hc : (jac f data * (V * (jac f data).transpose)).PosSemidef := by
    have := hp.mul_mul_conjTranspose_same (jac f data)
    rwa [conjTranspose_eq_transpose_of_trivial, Matrix.mul_assoc] at this
  exact ⟨hc, fun o => hc.diag_nonneg⟩

/-- C70, two steps: propagating the covariance of the mapped data through a second mapping gives the covariance of
the composed mapping. -/
theorem c70_compose [Fintype O] [DecidableEq O] {Q : Type} [Fintype Q] (f : (B → ℝ) → O → ℝ) (g : (O → ℝ) → Q → ℝ)
    (data : B → ℝ) (var : Option (B → ℝ)) (covInv : Option (Matrix B B ℝ)) (V : Matrix B B ℝ)
    (hV : Spec.IsDataCov data var covInv V) (f' : (B → ℝ) →L[ℝ] (O → ℝ)) (hf : HasFDerivAt f f' data)
    (g' : (O → ℝ) →L[ℝ] (Q → ℝ)) (hg : HasFDerivAt g g' (f data)) :
    ∃ out1 out2, getData f data var covInv = .ok out1 ∧ getData (fun d => g (f d)) data var covInv = .ok out2 ∧
      out2.output = g out1.output ∧
      ∀ q q', out2.cov q q' = Spec.linCov out1.cov (fun o => g' (Pi.single o 1) q) fun o => g' (Pi.single o 1) q' := by
  refine ⟨_, _, getData_eq f data var covInv V hV, getData_eq (fun d => g (f d)) data var covInv V hV, rfl, fun q q' => ?_⟩
  have hchain : jac (fun d => g (f d)) data = jac g (f data) * jac f data := by
    ext q b
    rw [jac_eq (f := fun d => g (f d)) (hg.comp data hf) q b, mul_apply]
    have hsum : f' (Pi.single b 1) = ∑ o, f' (Pi.single b 1) o • (Pi.single o (1 : ℝ) : O → ℝ) := by
      funext o
      simp [Finset.sum_apply, Pi.single_apply]
    rw [ContinuousLinearMap.comp_apply, hsum, map_sum, Finset.sum_apply]
    refine Finset.sum_congr rfl fun o _ => ?_
    rw [map_smul, jac_eq hg, jac_eq hf]
    simp [mul_comm]
  have hgq : ∀ q, jac g (f data) q = fun o => g' (Pi.single o 1) q := fun q => funext fun o => jac_eq hg q o
  rw [← hgq q, ← hgq q', ← sand_eq]
  show (jac (fun d => g (f d)) data * (V * (jac (fun d => g (f d)) data).transpose)) q q' =
    (jac g (f data) * ((jac f data * (V * (jac f data).transpose)) * (jac g (f data)).transpose)) q q'
  rw [hchain, transpose_mul]
  simp only [Matrix.mul_assoc]

/-- C70: the three ways to give uncertainties agree where they describe the same data. -/
theorem c70_branches (f : (B → ℝ) → O → ℝ) (data v : B → ℝ) (hv : ∀ b, v b ≠ 0) :
    getData f data (some v) (some (diagonal fun b => (v b)⁻¹)) = getData f data (some v) none ∧
    getData f data none (some (diagonal fun b => (v b)⁻¹)) = getData f data (some v) none ∧
    getData f data none none = getData f data (some data) none := by
  have h1 : (diagonal fun b => (v b)⁻¹) * diagonal v = 1 := by
    rw [diagonal_mul_diagonal, ← diagonal_one]; congr 1; funext b; exact inv_mul_cancel₀ (hv b)
  have h2 : Spec.IsDataCov data (some v) none (diagonal v) := fun b b' => diagonal_apply v b b'
  refine ⟨?_, ?_, rfl⟩
  · rw [getData_eq f data (some v) (some _) (diagonal v) h1, getData_eq f data (some v) none (diagonal v) h2]
  · rw [getData_eq f data none (some _) (diagonal v) h1, getData_eq f data (some v) none (diagonal v) h2]

/-! ### sums of bins -/

omit [Fintype B] in
theorem jac_groups (g : O → List B) (hg : ∀ o, (g o).Nodup) (x : B → ℝ) (o : O) (b : B) :
    jac (fun d o => ((g o).map d).sum) x o b = if b ∈ g o then 1 else 0 := by
  have : ∀ t, ((g o).map (Function.update x b t)).sum = ∑ a ∈ (g o).toFinset, Function.update x b t a := by
    intro t; rw [List.sum_toFinset _ (hg o)]
  unfold jac
  simp only [of_apply, this]
  by_cases hb : b ∈ g o
  · rw [if_pos hb]
    have hs : ∀ t, ∑ a ∈ (g o).toFinset, Function.update x b t a = t + ∑ a ∈ (g o).toFinset.erase b, x a := by
      intro t
      rw [← Finset.add_sum_erase _ _ (List.mem_toFinset.2 hb), Function.update_self]
      congr 1
      refine Finset.sum_congr rfl fun a ha => ?_
      rw [Function.update_of_ne (Finset.ne_of_mem_erase ha)]
    simp only [hs]
    rw [deriv_add_const, deriv_id'']
  · rw [if_neg hb]
    have hs : ∀ t, ∑ a ∈ (g o).toFinset, Function.update x b t a = ∑ a ∈ (g o).toFinset, x a := by
      intro t
      refine Finset.sum_congr rfl fun a ha => ?_
      rw [Function.update_of_ne]
      rintro rfl
      exact hb (List.mem_toFinset.1 ha)
    simp only [hs]
    exact deriv_const _ _

/-- outputs that are sums over disjoint sets of bins: the variances are the sums of the variances and different outputs
are uncorrelated -/
theorem groups_spec (f : (B → ℝ) → O → ℝ) (g : O → List B) (hf : ∀ d o, f d o = ((g o).map d).sum)
    (hg : ∀ o, (g o).Nodup) (hd : ∀ o o', o ≠ o' → ∀ b ∈ g o, b ∉ g o') (data v : B → ℝ) :
    ∃ out, getData f data (some v) none = .ok out ∧ out.output = f data ∧ out.variances = f v ∧
      (∀ o, out.cov o o = f v o) ∧ ∀ o o', o ≠ o' → out.cov o o' = 0 := by
  have hfe : f = fun d o => ((g o).map d).sum := funext fun d => funext fun o => hf d o
  have hcov : ∀ o o', (jac f data * (diagonal v * (jac f data).transpose)) o o' =
      ∑ b, (if b ∈ g o then 1 else 0) * (v b * if b ∈ g o' then 1 else 0) := by
    intro o o'
    rw [mul_apply]
    refine Finset.sum_congr rfl fun b _ => ?_
    rw [diagonal_mul, transpose_apply, hfe, jac_groups g hg, jac_groups g hg]
  have hdiag : ∀ o, (jac f data * (diagonal v * (jac f data).transpose)) o o = f v o := by
    intro o
    rw [hcov, hf, ← List.sum_toFinset _ (hg o)]
    have : ∀ b, (if b ∈ g o then (1 : ℝ) else 0) * (v b * if b ∈ g o then 1 else 0) =
        if b ∈ (g o).toFinset then v b else 0 := by
      intro b
      by_cases hb : b ∈ g o <;> simp [hb]
    simp only [this]
    rw [Finset.sum_ite_mem, Finset.univ_inter]
  refine ⟨_, getData_eq f data (some v) none (diagonal v) fun b b' => diagonal_apply v b b', rfl, ?_, hdiag, ?_⟩
  · funext o; exact hdiag o
  · intro o o' hne
    refine (hcov o o').trans (Finset.sum_eq_zero fun b _ => ?_)
    by_cases hb : b ∈ g o
    · rw [if_neg (hd o o' hne b hb)]; ring
    · rw [if_neg hb]; ring

end

/-! ### projections and selections -/

section mappings

open Verif.Mappings Verif.Grid Verif.ABCD

noncomputable section

/-- the data as the mappings receive them -/
def obsOf {nb : ℕ} (d : Fin nb → ℝ) : Tensor ℝ := ⟨[nb], fun i => if h : i.headD 0 < nb then d ⟨i.headD 0, h⟩ else 0⟩

/-- `compute_flat(None, ·)` of a mapping with `no` output bins -/
def flatFun (F : Tensor ℝ → Res (List ℝ)) (nb no : ℕ) (d : Fin nb → ℝ) (o : Fin no) : ℝ :=
  match F (obsOf d) with
  | .ok l => l.getD o 0
  | .error _ => 0

/-- positions as indices of a vector of `nb` bins -/
def finsOf (nb : ℕ) (l : List ℕ) : List (Fin nb) := l.filterMap fun b => if h : b < nb then some ⟨b, h⟩ else none

theorem sum_finsOf {nb : ℕ} (d : Fin nb → ℝ) (l : List ℕ) (hl : ∀ b ∈ l, b < nb) :
    ((finsOf nb l).map d).sum = (l.map fun b => (obsOf d).val [b]).sum := by
  congr 1
  induction l with
  | nil => rfl
  | cons b l ih =>
    have hb := hl b (by simp)
    unfold finsOf at ih ⊢
    rw [List.filterMap_cons, dif_pos hb, List.map_cons, List.map_cons, ih fun x hx => hl x (by simp [hx])]
    simp [obsOf, hb]

theorem mem_finsOf {nb : ℕ} {l : List ℕ} {b : Fin nb} : b ∈ finsOf nb l ↔ (b : ℕ) ∈ l := by
  unfold finsOf
  rw [List.mem_filterMap]
  constructor
  · rintro ⟨a, ha, h⟩
    split at h
    · cases h; exact ha
    · exact nomatch h
  · intro h
    exact ⟨b, h, by rw [dif_pos b.2]⟩

theorem nodup_finsOf {nb : ℕ} {l : List ℕ} (h : l.Nodup) : (finsOf nb l).Nodup := by
  refine h.filterMap ?_
  intro a a' b hb hb'
  rw [Option.mem_def] at hb hb'
  split at hb
  · split at hb'
    · cases hb; cases hb'; rfl
    · exact nomatch hb'
  · exact nomatch hb

theorem content_obsOf {nb : ℕ} (d : Fin nb → ℝ) (ps : List ℕ) (b : ℕ) :
    Mappings.Spec.content (obsOf d) ps b = (obsOf d).val [b] := by
  exact if_pos rfl

/-- C70 for projections: the variance of a projected bin is the sum of the variances of the bins projected into it,
and different projected bins are uncorrelated. -/
theorem c70_projection (inp : InData ℝ) (ch : String) (c : Chan ℝ) (names : List String)
    (hc : inp.chans.get? ch = some c) (hN : (c.axes.map (·.name)).Nodup) (hn : names.Nodup)
    (hsub : ∀ n ∈ names, n ∈ c.axes.map (·.name)) (nb : ℕ) (hnb : c.start + c.shape.prod ≤ nb) (data v : Fin nb → ℝ) :
    ∃ p out, projectInit inp ch names = .ok p ∧
      getData (flatFun (p.flat false) nb (Mappings.Spec.along (c.axes.map (·.name)) names c.shape).prod) data (some v) none =
        .ok out ∧
      (∀ i ∈ grid (Mappings.Spec.along (c.axes.map (·.name)) names c.shape), ∀ o : Fin _,
        (o : ℕ) = ravel (Mappings.Spec.along (c.axes.map (·.name)) names c.shape) i →
        out.output o = ((Mappings.Spec.fibre (c.axes.map (·.name)) names c.shape i).map fun j =>
          (obsOf data).val [c.start + ravel c.shape j]).sum ∧
        out.variances o = ((Mappings.Spec.fibre (c.axes.map (·.name)) names c.shape i).map fun j =>
          (obsOf v).val [c.start + ravel c.shape j]).sum) ∧
      ∀ o o', o ≠ o' → out.cov o o' = 0 := by
  set S := Mappings.Spec.along (c.axes.map (·.name)) names c.shape with hS
  set fib := Mappings.Spec.fibre (c.axes.map (·.name)) names c.shape with hfib
  obtain ⟨p, -, hp, -⟩ := c50_projection inp ch c names hc hN hn hsub (obsOf data) nb 0 (.inl rfl) hnb
  set at_ : Fin S.prod → List ℕ := fun o => (grid S).getD o []
  have hat : ∀ o : Fin S.prod, at_ o ∈ grid S ∧ ravel S (at_ o) = o := by
    intro o
    have ho : (o : ℕ) < (grid S).length := by rw [length_grid]; exact o.2
    have : at_ o = (grid S)[(o : ℕ)] := by
      show (grid S).getD o [] = _
      rw [List.getD_eq_getElem?_getD, List.getElem?_eq_getElem ho]; rfl
    rw [this]
    exact ⟨List.getElem_mem _, ravel_grid_getElem ho⟩
  have hlt : ∀ i, ∀ j ∈ fib i, c.start + ravel c.shape j < nb := by
    intro i j hj
    have := ravel_lt (List.mem_filter.1 hj).1
    omega
  have hval : ∀ (d : Fin nb → ℝ) (o : Fin S.prod), flatFun (p.flat false) nb S.prod d o =
      ((finsOf nb ((fib (at_ o)).map fun j => c.start + ravel c.shape j)).map d).sum := by
    intro d o
    obtain ⟨p', l, hp', hl, -, -, hli⟩ := c50_projection inp ch c names hc hN hn hsub (obsOf d) nb 0 (.inl rfl) hnb
    rw [hp] at hp'
    cases hp'
    have h1 := hli (at_ o) (hat o).1
    rw [← hS, (hat o).2] at h1
    rw [sum_finsOf d _ (fun b h0 => by
      obtain ⟨j, hj, rfl⟩ := List.mem_map.1 h0
      exact hlt _ j hj), List.map_map]
    unfold flatFun
    rw [hl]
    dsimp only
    rw [List.getD_eq_getElem?_getD, h1, Option.getD_some]
    refine congrArg List.sum (List.map_congr_left fun j _ => ?_)
    exact content_obsOf d _ _
  obtain ⟨out, h1, h2, h3, -, h5⟩ := groups_spec (flatFun (p.flat false) nb S.prod)
    (fun o => finsOf nb ((fib (at_ o)).map fun j => c.start + ravel c.shape j)) hval
    (fun o => nodup_finsOf (List.Nodup.map_on (fun j hj j' hj' h => ravel_inj (List.mem_filter.1 hj).1
      (List.mem_filter.1 hj').1 (by omega)) ((nodup_grid _).filter _)))
    (fun o o' hne b hb hb' => by
      rw [mem_finsOf] at hb hb'
      obtain ⟨j, hj, hjb⟩ := List.mem_map.1 hb
      obtain ⟨j', hj', hjb'⟩ := List.mem_map.1 hb'
      have hjj : j = j' := ravel_inj (List.mem_filter.1 hj).1 (List.mem_filter.1 hj').1 (by omega)
      subst hjj
      have e1 := of_decide_eq_true (List.mem_filter.1 hj).2
      have e2 := of_decide_eq_true (List.mem_filter.1 hj').2
      have e3 := (hat o).2
      rw [← e1, e2, (hat o').2] at e3
      exact hne (Fin.ext e3.symm))
    data v
  refine ⟨p, out, hp, h1, fun i hi o ho => ?_, h5⟩
  have hio : at_ o = i := ravel_inj (hat o).1 hi ((hat o).2.trans ho)
  have hgen : ∀ d : Fin nb → ℝ, flatFun (p.flat false) nb S.prod d o =
      ((fib i).map fun j => (obsOf d).val [c.start + ravel c.shape j]).sum := by
    intro d
    rw [hval d o, hio, sum_finsOf d _ (fun b h0 => by
      obtain ⟨j, hj, rfl⟩ := List.mem_map.1 h0
      exact hlt _ j hj), List.map_map]
    rfl
  exact ⟨by rw [h2, hgen], by rw [h3, hgen]⟩

/-- C70 for selections of a channel (slices, merged bins, summed axes): the variance of a selected bin is the sum of the
variances of the bins that the request puts into it, and different selected bins are uncorrelated. -/
theorem c70_selection (inp : InData ℝ) (ch : String) (ps : List String) (s : Sels ℝ) (c : Chan ℝ)
    (hc : inp.chans.get? ch = some c) (hg : Good s c) (nb : ℕ) (hnb : c.start + c.shape.prod ≤ nb)
    (m : ChanMapping ℝ) (hm : chanMappingInit inp ch ps s = .ok m) (data v : Fin nb → ℝ) :
    ∃ out, getData (flatFun (selectFlat m) nb (Mappings.Spec.outSizes s c).prod) data (some v) none = .ok out ∧
      (∀ i ∈ grid (Mappings.Spec.outSizes s c), ∀ o : Fin _, (o : ℕ) = ravel (Mappings.Spec.outSizes s c) i →
        out.output o = Mappings.Spec.selected s c (fun b => (obsOf data).val [b]) i ∧
        out.variances o = Mappings.Spec.selected s c (fun b => (obsOf v).val [b]) i) ∧
      ∀ o o', o ≠ o' → out.cov o o' = 0 := by
  obtain ⟨ht, -, -⟩ := chanMapping_term inp ch ps s c hc hm
  obtain ⟨hb, -, -, -⟩ := select_core inp ch ps s c hc hg m.term ht
  set S := Mappings.Spec.outSizes s c with hS
  set T := c.axes.map (·.size) with hT
  set fib := fun i => (grid T).filter (Mappings.Spec.inBin (Mappings.Spec.want s) c.axes i) with hfib
  have hsh : c.shape = T := shape_noflow hg.flow
  rw [hsh] at hnb
  set at_ : Fin S.prod → List ℕ := fun o => (grid S).getD o []
  have hgo : ∀ o : Fin S.prod, (o : ℕ) < (grid S).length := fun o => by rw [length_grid]; exact o.2
  have hat : ∀ o : Fin S.prod, at_ o ∈ grid S ∧ ravel S (at_ o) = o := by
    intro o
    have : at_ o = (grid S)[(o : ℕ)]'(hgo o) := by
      show (grid S).getD o [] = _
      rw [List.getD_eq_getElem?_getD, List.getElem?_eq_getElem (hgo o)]; rfl
    rw [this]
    exact ⟨List.getElem_mem _, ravel_grid_getElem (hgo o)⟩
  have hlt : ∀ i, ∀ j ∈ fib i, c.start + ravel T j < nb := by
    intro i j hj
    have := ravel_lt (List.mem_filter.1 hj).1
    omega
  have hsel : ∀ (d : Fin nb → ℝ) i, Mappings.Spec.selected s c (fun b => (obsOf d).val [b]) i =
      ((finsOf nb ((fib i).map fun j => c.start + ravel T j)).map d).sum := by
    intro d i
    rw [sum_finsOf d _ (fun b h0 => by
      obtain ⟨j, hj, rfl⟩ := List.mem_map.1 h0
      exact hlt _ j hj), List.map_map]
    rfl
  have hval : ∀ (d : Fin nb → ℝ) (o : Fin S.prod), flatFun (selectFlat m) nb S.prod d o =
      ((finsOf nb ((fib (at_ o)).map fun j => c.start + ravel T j)).map d).sum := by
    intro d o
    rw [← hsel]
    unfold flatFun
    rw [c51_select inp ch ps s c hc hg nb (by rw [hsh]; exact hnb) m hm (obsOf d) (.inl rfl)]
    dsimp only
    rw [← hS, List.getD_eq_getElem?_getD, List.getElem?_map, List.getElem?_eq_getElem (hgo o)]
    show Mappings.Spec.selected s c _ _ = _
    have : at_ o = (grid S)[(o : ℕ)]'(hgo o) := by
      show (grid S).getD o [] = _
      rw [List.getD_eq_getElem?_getD, List.getElem?_eq_getElem (hgo o)]; rfl
    rw [this]
    congr 1
  obtain ⟨out, h1, h2, h3, -, h5⟩ := groups_spec (flatFun (selectFlat m) nb S.prod)
    (fun o => finsOf nb ((fib (at_ o)).map fun j => c.start + ravel T j)) hval
    (fun o => nodup_finsOf (List.Nodup.map_on (fun j hj j' hj' h => ravel_inj (List.mem_filter.1 hj).1
      (List.mem_filter.1 hj').1 (by omega)) ((nodup_grid _).filter _)))
    (fun o o' hne b h0 h0' => by
      rw [mem_finsOf] at h0 h0'
      obtain ⟨j, hj, hjb⟩ := List.mem_map.1 h0
      obtain ⟨j', hj', hjb'⟩ := List.mem_map.1 h0'
      have hjj : j = j' := ravel_inj (List.mem_filter.1 hj).1 (List.mem_filter.1 hj').1 (by omega)
      subst hjj
      have e1 := (List.mem_filter.1 hj).2
      have e2 := (List.mem_filter.1 hj').2
      obtain ⟨pa, pb⟩ := partition s hg.step c.axes hb.req j (List.mem_filter.1 hj).1
      obtain ⟨i, -, -, hu⟩ := pb (pa _ e1)
      have e3 := (hat o).2
      rw [hu _ e1, ← hu _ e2, (hat o').2] at e3
      exact hne (Fin.ext e3.symm))
    data v
  refine ⟨out, h1, fun i hi o ho => ?_, h5⟩
  have hio : at_ o = i := ravel_inj (hat o).1 hi ((hat o).2.trans ho)
  exact ⟨by rw [h2, hval, hio, hsel], by rw [h3, hval, hio, hsel]⟩

end

namespace Ex70

/-- a channel with axes x (2 bins) and y (3 bins) after a channel of two bins -/
noncomputable def chan : Chan ℝ :=
  { axes := [{ name := "x", size := 2, edges := [0, 1, 2] }, { name := "y", size := 3, edges := [0, 1, 2, 3] }], start := 2 }

noncomputable def inp : InData ℝ where
  procs := ["a", "b"]
  chans := [("first", { axes := [{ name := "z", size := 2, edges := [0, 1, 2] }], start := 0 }), ("ch", chan)]
  nbins := 8
  nbinsfull := 8
  norm := fun b p => b + p

/-- the hypotheses of `c70_projection` are met -/
example : inp.chans.get? "ch" = some chan ∧ (chan.axes.map (·.name)).Nodup ∧ ["y"].Nodup ∧
    (∀ n ∈ ["y"], n ∈ chan.axes.map (·.name)) ∧ chan.start + chan.shape.prod ≤ 8 :=
  ⟨rfl, by decide, by decide, by decide, by decide⟩

/-- sum over x, first two bins of y -/
def req : Sels ℝ := { sel := [("y", .slc none (some 2) none)], sum := ["x"] }

/-- the hypotheses of `c70_selection` are met -/
example : Good req chan := by
  refine ⟨rfl, ?_, by decide, by decide, by decide, ?_⟩
  · intro a ha
    simp only [chan, List.mem_cons, List.not_mem_nil, or_false] at ha
    rcases ha with rfl | rfl
    · refine ⟨rfl, ?_⟩; simp
    · refine ⟨rfl, ?_⟩; simp; norm_num
  · intro k s e st h
    simp only [req, Dict.get?] at h
    split at h
    · cases h
    · exact nomatch h

example : ∃ m, chanMappingInit inp "ch" [] req = .ok m := ⟨_, rfl⟩

/-- the bins that a projection to y puts into bin 1 and that the selection puts into bin 1 -/
example : Mappings.Spec.fibre ["x", "y"] ["y"] [2, 3] [1] = [[0, 1], [1, 1]] := by decide

end Ex70

end mappings

/-- the hypotheses of `c70_covariance` and `c70_compose` are met by a non-linear mapping (the product of two bins)
with correlated data given by their inverse covariance -/
example : Spec.IsDataCov ![3, 5] none (some !![2, 1; 1, 1]) !![1, -1; -1, 2] ∧
    ∃ f' : (Fin 2 → ℝ) →L[ℝ] (Fin 1 → ℝ), HasFDerivAt (fun (d : Fin 2 → ℝ) (_ : Fin 1) => d 0 * d 1) f' ![3, 5] := by
  constructor
  · show (!![2, 1; 1, 1] : Matrix (Fin 2) (Fin 2) ℝ) * !![1, -1; -1, 2] = 1
    ext i j
    fin_cases i <;> fin_cases j <;> norm_num [Matrix.mul_apply, Fin.sum_univ_two]
  · exact ⟨_, hasFDerivAt_pi.2 fun _ => (hasFDerivAt_apply 0 _).mul (hasFDerivAt_apply 1 _)⟩

end Verif.Chi2
