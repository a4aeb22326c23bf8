import Verif.Props.LinearChi2
import Verif.Props.Ratio
import Verif.Props.CompositeMapping
import Mathlib.Analysis.Calculus.Deriv.Inv
import Mathlib.LinearAlgebra.Matrix.ToLinearEquiv

/-
C71: outputs of a mapping that satisfy a linear relation, and the number of degrees of freedom.
-/

namespace Verif.Chi2

open Verif.Cov Verif.Impacts Matrix

noncomputable section

variable {n p nb b : ℕ}

/-- derivatives of functions whose outputs satisfy a linear relation -/
theorem jac_relation {q : ℕ} (f : Vec q → Vec p) (x : Vec q) (hf : DifferentiableAt ℝ f x) (u : Vec p) (c : ℝ)
    (h : ∀ᶠ d in nhds x, u ⬝ᵥ f d = c) : vecMul u (jac f x) = 0 := by
  obtain ⟨f', hf'⟩ := hf
  funext k
  have h1 : HasDerivAt (fun t => u ⬝ᵥ f (Function.update x k t)) (vecMul u (jac f x) k) (x k) := by
    have hcomp : HasDerivAt (fun t => f (Function.update x k t)) (f' (Pi.single k 1)) (x k) := by
      have h2 : HasFDerivAt f f' (Function.update x k (x k)) := by rwa [Function.update_eq_self]
      exact h2.comp_hasDerivAt (x k) (hasDerivAt_update x k (x k))
    have hsum : HasDerivAt (fun t => ∑ o, u o * f (Function.update x k t) o) (∑ o, u o * f' (Pi.single k 1) o) (x k) :=
      HasDerivAt.fun_sum fun o _ => (hasDerivAt_pi.1 hcomp o).const_mul (u o)
    have e : vecMul u (jac f x) k = ∑ o, u o * f' (Pi.single k 1) o := by
      simp only [vecMul, dotProduct, jac_eq hf']
    rw [e]; exact hsum
  have h2 : HasDerivAt (fun t => u ⬝ᵥ f (Function.update x k t)) 0 (x k) := by
    refine (hasDerivAt_const (x k) c).congr_of_eventuallyEq ?_
    have hc : Filter.Tendsto (Function.update x k) (nhds (x k)) (nhds x) := by
      have := (hasDerivAt_update x k (x k)).continuousAt
      unfold ContinuousAt at this
      rwa [Function.update_eq_self] at this
    exact hc.eventually h
  exact h1.unique h2

theorem singular_of {C : Mat p} {u : Vec p} (hu : u ≠ 0) (h : vecMul u C = 0) : C.det = 0 :=
  exists_vecMul_eq_zero_iff.1 ⟨u, hu, h⟩

/-- C71 does not hold for a mapping whose outputs satisfy a linear relation and that does not announce it: whatever the data
and the predictions, the covariance of the residuals is singular and the call fails. -/
theorem c71_dependent_violated (f : Vec nb → Vec p) (u : Vec p) (hu : u ≠ 0) (c : ℝ) (U : Set (Vec nb)) (hU : IsOpen U)
    (hf : ∀ d ∈ U, DifferentiableAt ℝ f d ∧ u ⬝ᵥ f d = c) (data : Vec nb) (hd : data ∈ U)
    (var : Option (Vec nb)) (covInv : Option (Mat nb)) (V : Mat nb) (hV : Spec.IsDataCov data var covInv V)
    (nexp : Vec n → Vec nb) (x : Vec n) (hx : DifferentiableAt ℝ nexp x) (hxU : nexp x ∈ U) (cov : Mat n)
    (pinv : Mat p → Mat p) :
    ∃ r C, residuals (K := Fin b) f data var covInv (f (nexp x)) cov (jac (fun θ => f (nexp θ)) x) none = .ok (r, C) ∧
      chi2 pinv r C 0 = .error .exception := by
  have hJ : vecMul u (jac (fun θ => f (nexp θ)) x) = 0 := by
    refine jac_relation _ x ((hf _ hxU).1.comp x hx) u c ?_
    have : ∀ᶠ θ in nhds x, nexp θ ∈ U := hx.continuousAt.eventually (hU.mem_nhds hxU)
    exact this.mono fun θ hθ => (hf _ hθ).2
  have hD : vecMul u (jac f data) = 0 :=
    jac_relation f data (hf _ hd).1 u c ((hU.mem_nhds hd : U ∈ nhds data) |> fun h => Filter.mem_of_superset h fun d hd' => (hf d hd').2)
  refine ⟨fun o => f (nexp x) o - f data o, jac (fun θ => f (nexp θ)) x * (cov * (jac (fun θ => f (nexp θ)) x).transpose) +
      jac f data * (V * (jac f data).transpose), ?_, ?_⟩
  · unfold residuals
    rw [getData_eq f data var covInv V hV]
    rfl
  · unfold chi2
    rw [if_neg (by omega), if_pos]
    refine singular_of hu ?_
    simp only [vecMul_add, ← vecMul_vecMul, hJ, hD, zero_vecMul, add_zero]

/-! ### `Normalize`, `Difference` and overlapping projections -/

section mappings

open Verif.Mappings Verif.Grid Verif.ABCD

theorem differentiable_sum (l : List (Fin nb)) : Differentiable ℝ fun d : Vec nb => (l.map d).sum := by
  induction l with
  | nil => simp only [List.map_nil, List.sum_nil]; exact differentiable_const 0
  | cons a l ih =>
    simp only [List.map_cons, List.sum_cons]
    exact (differentiable_apply a).add ih

theorem div_differentiableAt {f g : Vec nb → ℝ} {d : Vec nb} (hf : DifferentiableAt ℝ f d) (hg : DifferentiableAt ℝ g d)
    (h : g d ≠ 0) : DifferentiableAt ℝ (fun d => f d / g d) d := by
  simp only [div_eq_mul_inv]
  exact hf.fun_mul (hg.inv h)

/-- a selected bin is a sum of bins -/
theorem side_linear (inp : InData ℝ) (ps : List String) (s : Sels ℝ) (c : Chan ℝ) (hg : Good s c)
    (hnb : c.start + c.shape.prod ≤ nb) (i : List Nat) :
    ∃ l : List (Fin nb), ∀ d, Mappings.Spec.side inp s c ps (obsOf d) i = (l.map d).sum := by
  rw [shape_noflow hg.flow] at hnb
  refine ⟨finsOf nb (((grid (c.axes.map (·.size))).filter (Mappings.Spec.inBin (Mappings.Spec.want s) c.axes i)).map
    fun j => c.start + ravel (c.axes.map (·.size)) j), fun d => ?_⟩
  rw [sum_finsOf d _ (fun b h0 => by
    obtain ⟨j, hj, rfl⟩ := List.mem_map.1 h0
    have := ravel_lt (List.mem_filter.1 hj).1
    omega), List.map_map]
  unfold Mappings.Spec.side Mappings.Spec.selected
  refine congrArg List.sum (List.map_congr_left fun j _ => ?_)
  exact content_obsOf d _ _

theorem side_differentiable (inp : InData ℝ) (ps : List String) (s : Sels ℝ) (c : Chan ℝ) (hg : Good s c)
    (hnb : c.start + c.shape.prod ≤ nb) (i : List Nat) :
    Differentiable ℝ fun d : Vec nb => Mappings.Spec.side inp s c ps (obsOf d) i := by
  obtain ⟨l, hl⟩ := side_linear inp ps s c hg hnb i
  simp only [hl]
  exact differentiable_sum l

theorem sideTotal_differentiable (inp : InData ℝ) (ps : List String) (s : Sels ℝ) (c : Chan ℝ) (hg : Good s c)
    (hnb : c.start + c.shape.prod ≤ nb) :
    Differentiable ℝ fun d : Vec nb => Mappings.Spec.sideTotal inp s c ps (obsOf d) := by
  unfold Mappings.Spec.sideTotal
  induction grid (Mappings.Spec.outSizes s c) with
  | nil => simp only [List.map_nil, List.sum_nil]; exact differentiable_const 0
  | cons i l ih =>
    simp only [List.map_cons, List.sum_cons]
    exact (side_differentiable inp ps s c hg hnb i).add ih

/-- sum of the outputs of a mapping -/
theorem sum_flat (g : List ℝ) (no : ℕ) (h : g.length = no) : ∑ o : Fin no, g.getD o 0 = g.sum := by
  subst h
  rw [← Fin.sum_univ_getElem]
  refine Finset.sum_congr rfl fun i _ => ?_
  rw [List.getD_eq_getElem?_getD, List.getElem?_eq_getElem i.2]; rfl

theorem list_sum_sub {α : Type} (l : List α) (f g : α → ℝ) :
    (l.map fun i => f i - g i).sum = (l.map f).sum - (l.map g).sum := by
  induction l with
  | nil => simp
  | cons a l ih => simp only [List.map_cons, List.sum_cons, ih]; ring

theorem list_sum_div {α : Type} (l : List α) (f : α → ℝ) (t : ℝ) :
    (l.map fun i => f i / t).sum = (l.map f).sum / t := by
  induction l with
  | nil => simp
  | cons a l ih => simp only [List.map_cons, List.sum_cons, ih]; ring

/-- C71 does not hold for `Difference`: its outputs are differences of two normalised histograms and sum to zero, while
`ndf_reduction` is 0, so the chi-square of every data and prediction with non-zero totals fails. -/
theorem c71_difference_violated (inp : InData ℝ) (nch dch : String) (nps dps : List String) (ns ds : Sels ℝ)
    (nc dc : Chan ℝ) (hnc : inp.chans.get? nch = some nc) (hdc : inp.chans.get? dch = some dc)
    (hnb : nc.start + nc.shape.prod ≤ nb) (hdb : dc.start + dc.shape.prod ≤ nb) (hgn : Good ns nc) (hgd : Good ds dc)
    (m : RatioM ℝ) (hm : ratioInit inp nch dch nps dps ns ds = .ok m) (hpos : 0 < (Mappings.Spec.outSizes ns nc).prod)
    (data : Vec nb) (var : Option (Vec nb)) (covInv : Option (Mat nb)) (V : Mat nb)
    (hV : Spec.IsDataCov data var covInv V) (nexp : Vec n → Vec nb) (x : Vec n) (hx : DifferentiableAt ℝ nexp x)
    (htot : ∀ d ∈ [data, nexp x], Mappings.Spec.sideTotal inp ns nc nps (obsOf d) ≠ 0 ∧
      Mappings.Spec.sideTotal inp ds dc dps (obsOf d) ≠ 0) (cov : Mat n)
    (pinv : Mat (Mappings.Spec.outSizes ns nc).prod → Mat (Mappings.Spec.outSizes ns nc).prod) :
    let f := flatFun m.difference nb (Mappings.Spec.outSizes ns nc).prod
    ∃ r C, residuals (K := Fin b) f data var covInv (f (nexp x)) cov (jac (fun θ => f (nexp θ)) x) none = .ok (r, C) ∧
      chi2 pinv r C 0 = .error .exception := by
  intro f
  have hcN := sideTotal_differentiable inp nps ns nc hgn hnb
  have hcD := sideTotal_differentiable inp dps ds dc hgd hdb
  have hsz : Mappings.Spec.outSizes ns nc = Mappings.Spec.outSizes ds dc :=
    (ratioInit_spec inp nch dch nps dps ns ds nc dc hnc hdc hgn hgd m hm).2.2
  have hval : ∀ d, m.difference (obsOf d) = .ok ((grid (Mappings.Spec.outSizes ns nc)).map fun i =>
      Mappings.Spec.side inp ns nc nps (obsOf d) i / Mappings.Spec.sideTotal inp ns nc nps (obsOf d) -
        Mappings.Spec.side inp ds dc dps (obsOf d) i / Mappings.Spec.sideTotal inp ds dc dps (obsOf d)) := fun d =>
    c52_difference_partial inp nch dch nps dps ns ds nc dc hnc hdc nb hnb hdb hgn hgd m hm (obsOf d) (.inl rfl)
  refine c71_dependent_violated f (fun _ => 1) (fun h => ?_) 0
    {d | Mappings.Spec.sideTotal inp ns nc nps (obsOf d) ≠ 0 ∧ Mappings.Spec.sideTotal inp ds dc dps (obsOf d) ≠ 0} ?_ ?_
    data (htot _ (by simp)) var covInv V hV nexp x hx (htot _ (by simp)) cov pinv
  · exact one_ne_zero (congrFun h ⟨0, hpos⟩)
  · exact (isOpen_ne_fun hcN.continuous continuous_const).inter (isOpen_ne_fun hcD.continuous continuous_const)
  · rintro d ⟨h1, h2⟩
    constructor
    · rw [differentiableAt_pi]
      intro o
      have ho : (o : ℕ) < (grid (Mappings.Spec.outSizes ns nc)).length := by rw [length_grid]; exact o.2
      have : (fun d => f d o) = fun d =>
          Mappings.Spec.side inp ns nc nps (obsOf d) ((grid (Mappings.Spec.outSizes ns nc))[(o : ℕ)]) /
            Mappings.Spec.sideTotal inp ns nc nps (obsOf d) -
          Mappings.Spec.side inp ds dc dps (obsOf d) ((grid (Mappings.Spec.outSizes ns nc))[(o : ℕ)]) /
            Mappings.Spec.sideTotal inp ds dc dps (obsOf d) := by
        funext d
        show flatFun m.difference nb _ d o = _
        unfold flatFun
        rw [hval]
        dsimp only
        rw [List.getD_eq_getElem?_getD, List.getElem?_map, List.getElem?_eq_getElem ho]
        rfl
      rw [this]
      exact (div_differentiableAt (side_differentiable inp nps ns nc hgn hnb _ d) (hcN d) h1).sub
        (div_differentiableAt (side_differentiable inp dps ds dc hgd hdb _ d) (hcD d) h2)
    · show ∑ o, 1 * flatFun m.difference nb _ d o = 0
      simp only [one_mul]
      unfold flatFun
      rw [hval]
      dsimp only
      rw [sum_flat _ _ (by rw [List.length_map, length_grid]), list_sum_sub, list_sum_div, list_sum_div]
      have e1 : ((grid (Mappings.Spec.outSizes ns nc)).map (Mappings.Spec.side inp ns nc nps (obsOf d))).sum =
        Mappings.Spec.sideTotal inp ns nc nps (obsOf d) := rfl
      have e2 : ((grid (Mappings.Spec.outSizes ns nc)).map (Mappings.Spec.side inp ds dc dps (obsOf d))).sum =
        Mappings.Spec.sideTotal inp ds dc dps (obsOf d) := by rw [hsz]; rfl
      rw [e1, e2, div_self h1, div_self h2, sub_self]

/-- value of a projected bin as a sum of bins -/
theorem project_linear (inp : InData ℝ) (ch : String) (c : Chan ℝ) (names : List String)
    (hc : inp.chans.get? ch = some c) (hN : (c.axes.map (·.name)).Nodup) (hn : names.Nodup)
    (hsub : ∀ n ∈ names, n ∈ c.axes.map (·.name)) (hnb : c.start + c.shape.prod ≤ nb) (P : Project ℝ)
    (hP : projectInit inp ch names = .ok P) :
    ∃ g : ℕ → List (Fin nb), ∀ d : Vec nb, ∃ l, P.flat false (obsOf d) = .ok l ∧
      l.length = (Mappings.Spec.along (c.axes.map (·.name)) names c.shape).prod ∧
      (∀ o < l.length, l.getD o 0 = ((g o).map d).sum) ∧
      l.sum = ((List.range c.shape.prod).map fun b => (obsOf d).val [c.start + b]).sum := by
  set S := Mappings.Spec.along (c.axes.map (·.name)) names c.shape with hS
  set fib := Mappings.Spec.fibre (c.axes.map (·.name)) names c.shape with hfib
  refine ⟨fun o => finsOf nb ((fib ((grid S).getD o [])).map fun j => c.start + ravel c.shape j), fun d => ?_⟩
  obtain ⟨P', l, hP', hl, h1, h2, hli⟩ := c50_projection inp ch c names hc hN hn hsub (obsOf d) nb 0 (.inl rfl) hnb
  rw [hP] at hP'
  cases hP'
  refine ⟨l, hl, h2, fun o ho => ?_, ?_⟩
  · have ho' : o < (grid S).length := by rw [length_grid, hS, ← h2]; exact ho
    have hat : (grid S).getD o [] = (grid S)[o] := by
      rw [List.getD_eq_getElem?_getD, List.getElem?_eq_getElem ho']; rfl
    have h3 := hli _ (List.getElem_mem ho')
    rw [← hS, ravel_grid_getElem ho'] at h3
    dsimp only
    rw [hat, sum_finsOf d _ (fun b h0 => by
      obtain ⟨j, hj, rfl⟩ := List.mem_map.1 h0
      have := ravel_lt (List.mem_filter.1 hj).1
      omega), List.map_map, List.getD_eq_getElem?_getD, h3, Option.getD_some]
    refine congrArg List.sum (List.map_congr_left fun j _ => ?_)
    exact content_obsOf d _ _
  · rw [c50_total inp ch c names hc hN hn hsub (obsOf d) nb 0 (.inl rfl) hnb P l hP hl]
    refine congrArg List.sum (List.map_congr_left fun b _ => ?_)
    exact content_obsOf d _ _

/-- C71 does not hold for a composite of two projections of one channel: both have the same total, so the chi-square
of all data and all predictions fails. -/
theorem c71_overlap_violated (inp : InData ℝ) (ch k₁ k₂ : String) (c : Chan ℝ) (n₁ n₂ : List String)
    (hc : inp.chans.get? ch = some c) (hN : (c.axes.map (·.name)).Nodup) (hn₁ : n₁.Nodup) (hn₂ : n₂.Nodup)
    (hs₁ : ∀ n ∈ n₁, n ∈ c.axes.map (·.name)) (hs₂ : ∀ n ∈ n₂, n ∈ c.axes.map (·.name))
    (hnb : c.start + c.shape.prod ≤ nb) (P₁ P₂ : Project ℝ) (hP₁ : projectInit inp ch n₁ = .ok P₁)
    (hP₂ : projectInit inp ch n₂ = .ok P₂) (N₁ N₂ : ℕ)
    (hN₁ : N₁ = (Mappings.Spec.along (c.axes.map (·.name)) n₁ c.shape).prod)
    (hN₂ : N₂ = (Mappings.Spec.along (c.axes.map (·.name)) n₂ c.shape).prod) (hpos : 0 < N₁)
    (data : Vec nb) (var : Option (Vec nb)) (covInv : Option (Mat nb)) (V : Mat nb)
    (hV : Spec.IsDataCov data var covInv V) (nexp : Vec n → Vec nb) (x : Vec n) (hx : DifferentiableAt ℝ nexp x)
    (cov : Mat n) (pinv : Mat (N₁ + N₂) → Mat (N₁ + N₂)) :
    let mp := Workspace.composite [Workspace.ofProject k₁ false P₁, Workspace.ofProject k₂ false P₂]
    let f := flatFun mp.flat nb (N₁ + N₂)
    ∃ r C, residuals (K := Fin b) f data var covInv (f (nexp x)) cov (jac (fun θ => f (nexp θ)) x) none = .ok (r, C) ∧
      chi2 pinv r C mp.ndf = .error .exception := by
  intro mp f
  obtain ⟨g₁, hg₁⟩ := project_linear inp ch c n₁ hc hN hn₁ hs₁ hnb P₁ hP₁
  obtain ⟨g₂, hg₂⟩ := project_linear inp ch c n₂ hc hN hn₂ hs₂ hnb P₂ hP₂
  have hval : ∀ d, ∃ l₁ l₂ : List ℝ, mp.flat (obsOf d) = .ok (l₁ ++ l₂) ∧ l₁.length = N₁ ∧ l₂.length = N₂ ∧
      (∀ o < N₁, l₁.getD o 0 = ((g₁ o).map d).sum) ∧ (∀ o < N₂, l₂.getD o 0 = ((g₂ o).map d).sum) ∧ l₁.sum = l₂.sum := by
    intro d
    obtain ⟨l₁, a1, a2, a3, a4⟩ := hg₁ d
    obtain ⟨l₂, b1, b2, b3, b4⟩ := hg₂ d
    refine ⟨l₁, l₂, ?_, a2.trans hN₁.symm, b2.trans hN₂.symm, fun o ho => a3 o (by omega), fun o ho => b3 o (by omega),
      a4.trans b4.symm⟩
    refine (Workspace.c53_concat _ (by simp) (.inl ?_) _ _).2 ⟨[l₁, l₂], .cons a1 (.cons b1 .nil), by simp⟩
    intro m hm
    simp only [List.mem_cons, List.not_mem_nil, or_false] at hm
    rcases hm with rfl | rfl <;> rfl
  have hl : ∀ d (i : Fin N₁), f d (Fin.castAdd N₂ i) = ((g₁ i).map d).sum := by
    intro d i
    obtain ⟨l₁, l₂, h1, h2, h3, h4, h5, h6⟩ := hval d
    show flatFun mp.flat nb _ d _ = _
    unfold flatFun
    rw [h1]
    dsimp only
    rw [← h4 i i.2, List.getD_eq_getElem?_getD, List.getD_eq_getElem?_getD, Fin.val_castAdd, List.getElem?_append_left (by omega)]
  have hr : ∀ d (i : Fin N₂), f d (Fin.natAdd N₁ i) = ((g₂ i).map d).sum := by
    intro d i
    obtain ⟨l₁, l₂, h1, h2, h3, h4, h5, h6⟩ := hval d
    show flatFun mp.flat nb _ d _ = _
    unfold flatFun
    rw [h1]
    dsimp only
    rw [← h5 i i.2, List.getD_eq_getElem?_getD, List.getD_eq_getElem?_getD, Fin.val_natAdd, List.getElem?_append_right (by omega),
      h2, Nat.add_sub_cancel_left]
  refine c71_dependent_violated f (Fin.append (fun _ => 1) fun _ => -1) (fun h => ?_) 0 Set.univ isOpen_univ
    (fun d _ => ⟨?_, ?_⟩) data trivial var covInv V hV nexp x hx trivial cov pinv
  · have := congrFun h (Fin.castAdd N₂ ⟨0, hpos⟩)
    rw [Fin.append_left] at this
    exact one_ne_zero this
  · rw [differentiableAt_pi]
    refine Fin.addCases (fun i => ?_) fun i => ?_
    · simp only [hl]; exact differentiable_sum _ d
    · simp only [hr]; exact differentiable_sum _ d
  · obtain ⟨l₁, l₂, h1, h2, h3, h4, h5, h6⟩ := hval d
    simp only [dotProduct, Fin.sum_univ_add, Fin.append_left, Fin.append_right, hl, hr, one_mul, neg_mul,
      Finset.sum_neg_distrib]
    rw [← sum_flat l₁ N₁ h2, ← sum_flat l₂ N₂ h3] at h6
    rw [Finset.sum_congr rfl fun (i : Fin N₁) _ => (h4 i i.2).symm, Finset.sum_congr rfl fun (i : Fin N₂) _ => (h5 i i.2).symm, h6,
      add_neg_cancel]

/-- C71 for `Normalize`: with non-zero totals the residuals and all rows of their covariance sum to zero, so by
`c71_normalized` the value is that of the histogram with any one bin left out, with one degree of freedom less. -/
theorem c71_normalize (inp : InData ℝ) (ch key : String) (c : Chan ℝ) (names : List String)
    (hc : inp.chans.get? ch = some c) (hN : (c.axes.map (·.name)).Nodup) (hn : names.Nodup)
    (hsub : ∀ n ∈ names, n ∈ c.axes.map (·.name)) (hnb : c.start + c.shape.prod ≤ nb) (P : Project ℝ)
    (hP : projectInit inp ch names = .ok P)
    (hp : p + 1 = (Mappings.Spec.along (c.axes.map (·.name)) names c.shape).prod)
    (data : Vec nb) (var : Option (Vec nb)) (covInv : Option (Mat nb)) (V : Mat nb) (hsV : V.IsSymm)
    (hV : Spec.IsDataCov data var covInv V) (nexp : Vec n → Vec nb) (x : Vec n) (hx : DifferentiableAt ℝ nexp x)
    (htot : ∀ d ∈ [data, nexp x], ((List.range c.shape.prod).map fun b => (obsOf d).val [c.start + b]).sum ≠ 0)
    (cov : Mat n) (hcov : cov.IsSymm) (pinv : Mat (p + 1) → Mat (p + 1)) (pinv' : Mat p → Mat p) :
    let mp := Workspace.ofProject key true P
    let f := flatFun mp.flat nb (p + 1)
    ∃ r C, residuals (K := Fin b) f data var covInv (f (nexp x)) cov (jac (fun θ => f (nexp θ)) x) none = .ok (r, C) ∧
      ∑ o, r o = 0 ∧ (∀ o, ∑ o', C o o' = 0) ∧
      ∀ k, Spec.IsPinv C (pinv C) → (dropM k C).det ≠ 0 → chi2 pinv r C mp.ndf = chi2 pinv' (dropV k r) (dropM k C) 0 := by
  intro mp f
  obtain ⟨g, hg⟩ := project_linear inp ch c names hc hN hn hsub hnb P hP
  set tot : Vec nb → ℝ := fun d => ((List.range c.shape.prod).map fun b => (obsOf d).val [c.start + b]).sum with htotdef
  have hval : ∀ d, ∃ l : List ℝ, mp.flat (obsOf d) = .ok (l.map fun y => y / tot d) ∧ l.length = p + 1 ∧
      (∀ o < p + 1, l.getD o 0 = ((g o).map d).sum) ∧ l.sum = tot d := by
    intro d
    obtain ⟨l, a1, a2, a3, a4⟩ := hg d
    obtain ⟨P', l', m, h1, h2, h3, h4, h5⟩ := c50_normalize inp ch c names hc hN hn hsub (obsOf d) nb 0 (.inl rfl) hnb
    rw [hP] at h1
    cases h1
    rw [a1] at h2
    cases h2
    refine ⟨l, ?_, a2.trans hp.symm, fun o ho => a3 o (by omega), a4⟩
    show P.flat true (obsOf d) = _
    rw [h3, h4]
    congr 2
  have hfo : ∀ d (o : Fin (p + 1)), f d o = ((g o).map d).sum / tot d := by
    intro d o
    obtain ⟨l, h1, h2, h3, h4⟩ := hval d
    show flatFun mp.flat nb _ d _ = _
    unfold flatFun
    rw [h1]
    dsimp only
    have ho : (o : ℕ) < l.length := by omega
    rw [← h3 o o.2, List.getD_eq_getElem?_getD, List.getD_eq_getElem?_getD, List.getElem?_map, List.getElem?_eq_getElem ho]
    rfl
  have hsum : ∀ d, tot d ≠ 0 → ∑ o, f d o = 1 := by
    intro d hd
    obtain ⟨l, h1, h2, h3, h4⟩ := hval d
    rw [← div_self hd]
    simp only [hfo]
    rw [← Finset.sum_div, Finset.sum_congr rfl fun (i : Fin (p + 1)) _ => (h3 i i.2).symm, sum_flat l _ h2, h4]
  have htd : Differentiable ℝ tot := by
    have : tot = fun d => ((finsOf nb ((List.range c.shape.prod).map fun b => c.start + b)).map d).sum := by
      funext d
      rw [sum_finsOf d _ (fun b h0 => by
        obtain ⟨j, hj, rfl⟩ := List.mem_map.1 h0
        have := List.mem_range.1 hj
        omega), List.map_map]
      rfl
    rw [this]
    exact differentiable_sum _
  have hopen : IsOpen {d | tot d ≠ 0} := isOpen_ne_fun htd.continuous continuous_const
  have hfd : ∀ d, tot d ≠ 0 → DifferentiableAt ℝ f d := by
    intro d hd
    rw [differentiableAt_pi]
    intro o
    simp only [hfo]
    exact div_differentiableAt (differentiable_sum _ d) (htd d) hd
  have hd0 : tot data ≠ 0 := htot _ (by simp)
  have hx0 : tot (nexp x) ≠ 0 := htot _ (by simp)
  set u : Vec (p + 1) := fun _ => 1
  have hu : ∀ d, u ⬝ᵥ f d = ∑ o, f d o := fun d => by simp [u, dotProduct]
  have hJ : vecMul u (jac (fun θ => f (nexp θ)) x) = 0 := by
    refine jac_relation _ x ((hfd _ hx0).comp x hx) u 1 ?_
    have : ∀ᶠ θ in nhds x, nexp θ ∈ {d | tot d ≠ 0} := hx.continuousAt.eventually (hopen.mem_nhds hx0)
    exact this.mono fun θ hθ => (hu _).trans (hsum _ hθ)
  have hD : vecMul u (jac f data) = 0 := by
    refine jac_relation f data (hfd _ hd0) u 1 ?_
    exact Filter.mem_of_superset (hopen.mem_nhds hd0) fun d hd' => (hu _).trans (hsum _ hd')
  set C := jac (fun θ => f (nexp θ)) x * (cov * (jac (fun θ => f (nexp θ)) x).transpose) +
      jac f data * (V * (jac f data).transpose) with hCdef
  have hCs : C.IsSymm := by
    unfold IsSymm
    rw [hCdef, transpose_add, transpose_mul, transpose_mul, transpose_mul, transpose_mul, transpose_transpose,
      transpose_transpose, hcov.eq, hsV.eq, Matrix.mul_assoc, Matrix.mul_assoc]
  have hrows : ∀ o, ∑ o', C o o' = 0 := by
    intro o
    have h0 : vecMul u C = 0 := by
      rw [hCdef]
      simp only [vecMul_add, ← vecMul_vecMul, hJ, hD, zero_vecMul, add_zero]
    have := congrFun h0 o
    simp only [vecMul, dotProduct, u, one_mul, Pi.zero_apply] at this
    rw [← this]
    exact Finset.sum_congr rfl fun o' _ => hCs.apply o' o
  have hr0 : ∑ o, (f (nexp x) o - f data o) = 0 := by
    rw [Finset.sum_sub_distrib, hsum _ hx0, hsum _ hd0, sub_self]
  refine ⟨fun o => f (nexp x) o - f data o, C, ?_, hr0, hrows, fun k hpi hk => ?_⟩
  · unfold residuals
    rw [getData_eq f data var covInv V hV]
    rfl
  · exact c71_normalized pinv pinv' _ hr0 C hCs hrows hpi k hk

end mappings

/-! ### `Normratio` -/

namespace Ex71

open Verif.Mappings Verif.Grid Verif.ABCD

/-- two channels of two bins -/
noncomputable def inp : InData ℝ where
  procs := ["a"]
  chans := [("n", { axes := [{ name := "x", size := 2, edges := [0, 1, 2] }], start := 0 }),
    ("d", { axes := [{ name := "x", size := 2, edges := [0, 1, 2] }], start := 2 })]
  nbins := 4
  nbinsfull := 4
  norm := fun b p => b + p

theorem normratio_value (m : RatioM ℝ) (hm : ratioInit inp "n" "d" [] [] {} {} = .ok m) (d : Vec 4) :
    m.normratio (obsOf d) = .ok [d 0 / (d 0 + d 1) / (d 2 / (d 2 + d 3)), d 1 / (d 0 + d 1) / (d 3 / (d 2 + d 3))] := by
  have h : m.normratio (obsOf d) = .ok [d 0 / (d 0 + (d 1 + 0)) / (d 2 / (d 2 + (d 3 + 0))),
      d 1 / (d 0 + (d 1 + 0)) / (d 3 / (d 2 + (d 3 + 0)))] := by
    cases hm
    rfl
  rw [h, add_zero, add_zero]

end Ex71

open Verif.Mappings in
/-- C71 does not hold for `Normratio`: two ratios of normalised histograms are not related (their covariance is
invertible whatever the predictions are), so the value is that of two independent residuals, but one degree of freedom
is reported. -/
theorem c71_normratio_violated (m : RatioM ℝ) (hm : ratioInit Ex71.inp "n" "d" [] [] {} {} = .ok m) (pred : Vec 2)
    (cov : Mat n) (hcov : cov.PosSemidef) (J : Matrix (Fin 2) (Fin n) ℝ) (pinv : Mat 2 → Mat 2) :
    ∃ r C, residuals (K := Fin b) (flatFun m.normratio 4 2) ![1, 1, 1, 3] none none pred cov J none = .ok (r, C) ∧
      C.PosDef ∧ (Spec.IsPinv C (pinv C) → ∃ v,
        chi2 pinv r C 0 = .ok (v, 2) ∧ chi2 pinv r C (Workspace.ofNormratio "Normratio n d" m).ndf = .ok (v, 1)) := by
  set data : Vec 4 := ![1, 1, 1, 3] with hdata
  set f := flatFun m.normratio 4 2 with hf
  set V : Mat 4 := diagonal data with hVdef
  have hV : Spec.IsDataCov data none none V := fun b b' => diagonal_apply data b b'
  have hfo : ∀ d, f d = ![d 0 / (d 0 + d 1) / (d 2 / (d 2 + d 3)), d 1 / (d 0 + d 1) / (d 3 / (d 2 + d 3))] := by
    intro d
    funext o
    rw [hf]
    unfold flatFun
    rw [Ex71.normratio_value m hm d]
    fin_cases o <;> rfl
  have j00 : jac f data 0 0 = 1 := by
    have h : HasDerivAt (fun t : ℝ => t / (t + 1) / (1 / (1 + 3))) 1 1 := by
      have := (((hasDerivAt_id' (1 : ℝ)).fun_div ((hasDerivAt_id' (1 : ℝ)).add_const 1) (by norm_num)).div_const (1 / (1 + 3)))
      exact this.congr_deriv (by norm_num)
    rw [← h.deriv]
    unfold jac
    simp only [of_apply, hfo, hdata]
    congr 1
  have j10 : jac f data 1 0 = -1 / 3 := by
    have h : HasDerivAt (fun t : ℝ => 1 / (t + 1) / (3 / (1 + 3))) (-1 / 3) 1 := by
      have := (((hasDerivAt_const (1 : ℝ) (1 : ℝ)).fun_div ((hasDerivAt_id' (1 : ℝ)).add_const 1) (by norm_num)).div_const (3 / (1 + 3)))
      exact this.congr_deriv (by norm_num)
    rw [← h.deriv]
    unfold jac
    simp only [of_apply, hfo, hdata]
    congr 1
  have j02 : jac f data 0 2 = -3 / 2 := by
    have h : HasDerivAt (fun t : ℝ => 1 / (1 + 1) / (t / (t + 3))) (-3 / 2) 1 := by
      have h1 := (hasDerivAt_id' (1 : ℝ)).fun_div ((hasDerivAt_id' (1 : ℝ)).add_const 3) (by norm_num)
      have := (hasDerivAt_const (1 : ℝ) (1 / (1 + 1) : ℝ)).fun_div h1 (by norm_num)
      exact this.congr_deriv (by norm_num)
    rw [← h.deriv]
    unfold jac
    simp only [of_apply, hfo, hdata]
    congr 1
  have j12 : jac f data 1 2 = 1 / 6 := by
    have h : HasDerivAt (fun t : ℝ => 1 / (1 + 1) / (3 / (t + 3))) (1 / 6) 1 := by
      have h1 := (hasDerivAt_const (1 : ℝ) (3 : ℝ)).fun_div ((hasDerivAt_id' (1 : ℝ)).add_const 3) (by norm_num)
      have := (hasDerivAt_const (1 : ℝ) (1 / (1 + 1) : ℝ)).fun_div h1 (by norm_num)
      exact this.congr_deriv (by norm_num)
    rw [← h.deriv]
    unfold jac
    simp only [of_apply, hfo, hdata]
    congr 1
  set D := jac f data with hD
  have hVp : V.PosDef := by
    rw [hVdef, posDef_diagonal_iff]
    intro i
    fin_cases i <;> simp [hdata]
  have hpd : (D * (V * D.transpose)).PosDef := by
    rw [posDef_iff']
    refine ⟨?_, fun u hu => ?_⟩
    · unfold IsSymm
      rw [transpose_mul, transpose_mul, transpose_transpose, hVdef, diagonal_transpose, Matrix.mul_assoc]
    · have e : u ⬝ᵥ (D * (V * D.transpose)).mulVec u = D.transpose.mulVec u ⬝ᵥ V.mulVec (D.transpose.mulVec u) := by
        rw [← mulVec_mulVec, ← mulVec_mulVec, dotProduct_mulVec, ← mulVec_transpose]
      rw [e]
      refine (posDef_iff'.1 hVp).2 _ fun h0 => hu ?_
      have h1 := congrFun h0 0
      have h2 := congrFun h0 2
      simp only [mulVec, dotProduct, transpose_apply, Fin.sum_univ_two, j00, j10, j02, j12, Pi.zero_apply] at h1 h2
      funext o
      fin_cases o
      · show u 0 = 0; linarith
      · show u 1 = 0; linarith
  have hpJ : (J * (cov * J.transpose)).PosSemidef := by
    have := hcov.mul_mul_conjTranspose_same J
    rwa [conjTranspose_eq_transpose_of_trivial, Matrix.mul_assoc] at this
  have hC : (J * (cov * J.transpose) + D * (V * D.transpose)).PosDef := PosDef.posSemidef_add hpJ hpd
  have hdet := hC.det_pos.ne'
  refine ⟨fun o => pred o - f data o, J * (cov * J.transpose) + D * (V * D.transpose), ?_, hC, fun hpi => ?_⟩
  · unfold residuals
    rw [getData_eq f data none none V hV]
    rfl
  · set C := J * (cov * J.transpose) + D * (V * D.transpose)
    have hinv : pinv C = C⁻¹ := by
      have hu : IsUnit C.det := isUnit_iff_ne_zero.2 hdet
      refine pinv_unique hpi ⟨?_, ?_, ?_, ?_⟩
      · rw [mul_nonsing_inv _ hu, Matrix.one_mul]
      · rw [nonsing_inv_mul _ hu, Matrix.one_mul]
      · rw [mul_nonsing_inv _ hu]; exact transpose_one
      · rw [nonsing_inv_mul _ hu]; exact transpose_one
    refine ⟨(fun o => pred o - f data o) ⬝ᵥ C⁻¹.mulVec fun o => pred o - f data o, ?_, ?_⟩
    · unfold chi2
      rw [if_neg (by omega), if_neg hdet]
      rfl
    · show chi2 pinv _ C 1 = _
      unfold chi2
      rw [if_pos (by omega), hinv]
      rfl

/-! ### the hypotheses are met -/

namespace Ex71

open Verif.Mappings Verif.Grid Verif.ABCD

example : ∃ m, ratioInit inp "n" "d" [] [] {} {} = .ok m := ⟨_, rfl⟩

theorem good : ∀ s : ℕ, Good ({} : Sels ℝ) { axes := [{ name := "x", size := 2, edges := [0, 1, 2] }], start := s } := by
  intro s
  refine ⟨rfl, ?_, by simp, by decide, by decide, ?_⟩
  · intro a ha
    simp only [List.mem_cons, List.not_mem_nil, or_false] at ha
    subst ha
    refine ⟨rfl, ?_⟩
    simp
  · intro k s e st h
    exact nomatch h

/-- those of `c71_difference_violated`: a prediction scaled by one parameter -/
example : inp.chans.get? "n" = some { axes := [{ name := "x", size := 2, edges := [0, 1, 2] }], start := 0 } ∧
    inp.chans.get? "d" = some { axes := [{ name := "x", size := 2, edges := [0, 1, 2] }], start := 2 } ∧
    Spec.IsDataCov ![1, 1, 1, 3] none none (diagonal ![1, 1, 1, 3]) ∧
    DifferentiableAt ℝ (fun (θ : Vec 1) (b : Fin 4) => (1 + θ 0) * ![1, 2, 1, 1] b) 0 :=
  ⟨rfl, rfl, fun b b' => diagonal_apply _ b b', by
    rw [differentiableAt_pi]
    intro b
    exact ((differentiableAt_const _).add (differentiable_apply 0 _)).mul_const _⟩

example : ∀ d ∈ [(![1, 1, 1, 3] : Vec 4), ![1, 2, 1, 1]],
    Mappings.Spec.sideTotal inp {} { axes := [{ name := "x", size := 2, edges := [0, 1, 2] }], start := 0 } [] (obsOf d) ≠ 0 ∧
    Mappings.Spec.sideTotal inp {} { axes := [{ name := "x", size := 2, edges := [0, 1, 2] }], start := 2 } [] (obsOf d) ≠ 0 := by
  intro d hd
  have h0 : Mappings.Spec.sideTotal inp {} { axes := [{ name := "x", size := 2, edges := [0, 1, 2] }], start := 0 } [] (obsOf d) =
    (d 0 + 0) + ((d 1 + 0) + 0) := rfl
  have h2 : Mappings.Spec.sideTotal inp {} { axes := [{ name := "x", size := 2, edges := [0, 1, 2] }], start := 2 } [] (obsOf d) =
    (d 2 + 0) + ((d 3 + 0) + 0) := rfl
  rw [h0, h2]
  simp only [List.mem_cons, List.not_mem_nil, or_false] at hd
  rcases hd with rfl | rfl <;> constructor <;> simp <;> norm_num

/-- those of `c71_overlap_violated` and `c71_normalize`: the two projections of a channel with two axes -/
example : ∃ P₁ P₂, projectInit Ex70.inp "ch" ["x"] = .ok P₁ ∧ projectInit Ex70.inp "ch" ["y"] = .ok P₂ ∧
    (Mappings.Spec.along (Ex70.chan.axes.map (·.name)) ["x"] Ex70.chan.shape).prod = 2 ∧
    (Mappings.Spec.along (Ex70.chan.axes.map (·.name)) ["y"] Ex70.chan.shape).prod = 3 ∧
    ((List.range Ex70.chan.shape.prod).map fun b => (obsOf (fun _ : Fin 8 => (1 : ℝ))).val [Ex70.chan.start + b]).sum ≠ 0 := by
  refine ⟨_, _, rfl, rfl, rfl, rfl, ?_⟩
  have : ((List.range Ex70.chan.shape.prod).map fun b => (obsOf (fun _ : Fin 8 => (1 : ℝ))).val [Ex70.chan.start + b]).sum =
    1 + (1 + (1 + (1 + (1 + (1 + 0))))) := rfl
  rw [this]
  norm_num

/-- those of `c71_normalized`, `c71_nonneg` and `c71_projection`: the covariance of a normalised histogram of two bins -/
def Cn : Mat 2 := !![1, -1; -1, 1]
def Pn : Mat 2 := !![1 / 4, -1 / 4; -1 / 4, 1 / 4]

example : Spec.IsPinv Cn Pn ∧ Cn.IsSymm ∧ (∀ o, ∑ o', Cn o o' = 0) ∧ (dropM 0 Cn).det ≠ 0 ∧
    Cn.PosSemidef ∧ ∑ o, (![3, -3] : Vec 2) o = 0 := by
  refine ⟨⟨?_, ?_, ?_, ?_⟩, ?_, ?_, ?_, ?_, ?_⟩
  · ext i j; fin_cases i <;> fin_cases j <;> norm_num [Cn, Pn, mul_apply, Fin.sum_univ_two]
  · ext i j; fin_cases i <;> fin_cases j <;> norm_num [Cn, Pn, mul_apply, Fin.sum_univ_two]
  · ext i j; fin_cases i <;> fin_cases j <;> norm_num [Cn, Pn, mul_apply, Fin.sum_univ_two]
  · ext i j; fin_cases i <;> fin_cases j <;> norm_num [Cn, Pn, mul_apply, Fin.sum_univ_two]
  · ext i j; fin_cases i <;> fin_cases j <;> rfl
  · intro o; fin_cases o <;> simp [Cn, Fin.sum_univ_two]
  · rw [det_fin_one]; simp [dropM, Cn]
  · rw [posSemidef_iff']
    refine ⟨by ext i j; fin_cases i <;> fin_cases j <;> rfl, fun x => ?_⟩
    have : x ⬝ᵥ Cn.mulVec x = (x 0 - x 1) ^ 2 := by
      simp [Cn, mulVec, dotProduct, Fin.sum_univ_two]; ring
    rw [this]; positivity
  · simp [Fin.sum_univ_two]

/-- and its chi-square -/
example : chi2 (fun _ => Pn) ![3, -3] Cn 1 = .ok (9, 1) := by
  unfold chi2
  rw [if_pos (by omega)]
  have : (![3, -3] : Vec 2) ⬝ᵥ Pn.mulVec ![3, -3] = 9 := by
    simp [Pn, mulVec, dotProduct, Fin.sum_univ_two]; norm_num
  rw [this]; rfl

/-- those of `c71_invariant` and `c71_projection` with correlated residuals -/
example : (!![1, 1; 0, 1] : Mat 2).det ≠ 0 ∧ (!![2, 1; 1, 2] : Mat 2).det ≠ 0 ∧
    ((!![1, 1] : Matrix (Fin 1) (Fin 2) ℝ) * (!![2, 1; 1, 2] : Mat 2) * (!![1, 1] : Matrix (Fin 1) (Fin 2) ℝ).transpose).det ≠ 0 := by
  refine ⟨by simp, by rw [det_fin_two]; norm_num, ?_⟩
  rw [det_fin_one]
  norm_num [mul_apply, Fin.sum_univ_two]

end Ex71

end

end Verif.Chi2
