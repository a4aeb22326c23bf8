import Verif.Model.PostFit
import Verif.Props.Covariance
import Mathlib.LinearAlgebra.Dimension.Finrank
import Mathlib.LinearAlgebra.FiniteDimensional.Lemmas
import Mathlib.LinearAlgebra.Dimension.Constructions

/-! C74: uncertainties and degrees of freedom reported after the fit. -/

namespace Verif.PostFit

open Verif.Cov Matrix

variable {n : ℕ}

/-- parameter `i` is a POI or a nuisance parameter of interest -/
def Spec.Reported (l : Layout) (i : Nat) : Prop := i < l.npoi ∨ ∃ k ∈ l.noi, i = l.nparams + k

theorem posOn_mask {parms : Fin n → String} {frozen : List String} {H : Mat n}
    (hpos : Cov.Spec.posOnFloating (fun i => parms i ∈ frozen) H) :
    Cov.Spec.posOnFloating (fun i => parms i ∈ frozen) (maskH parms frozen H) := by
  intro z hz hne
  refine lt_of_lt_of_eq (hpos z hz hne) ?_
  refine Finset.sum_congr rfl fun i _ => Finset.sum_congr rfl fun j _ => ?_
  unfold maskH
  rw [Matrix.of_apply]
  split_ifs with h
  · rcases h with h | h <;> rw [hz _ h] <;> ring
  · rfl

theorem symm_mask {parms : Fin n → String} {frozen : List String} {H : Mat n} (hs : H.IsSymm) : (maskH parms frozen H).IsSymm := by
  ext i j
  simp only [transpose_apply, maskH, Matrix.of_apply, or_comm (a := parms j ∈ frozen)]
  split_ifs
  · rfl
  · exact congrFun (congrFun hs i) j

theorem krylov_zero {parms : Fin n → String} {frozen : List String} {H : Mat n} {b d : Vec n}
    (hb : ∀ i, parms i ∈ frozen → b i = 0)
    (hd : d ∈ Submodule.span ℝ {v | ∃ k : ℕ, v = (fun p => (maskH parms frozen H).mulVec p)^[k] b}) (i : Fin n)
    (hi : parms i ∈ frozen) : d i = 0 := by
  refine Submodule.span_induction (p := fun v _ => v i = 0) ?_ rfl ?_ ?_ hd
  · rintro v ⟨k, rfl⟩
    cases k with
    | zero => exact hb i hi
    | succ k =>
      rw [Function.iterate_succ_apply']
      simp [mulVec, dotProduct, maskH, hi]
  · intro u v _ _ hu hv; simp [hu, hv]
  · intro a v _ hv; simp [hv]

/-- The full computation stores the covariance with the fit, and with every parameter its diagonal entry; for floating
parameters that is the inverse of the Hessian of the floating parameters. -/
theorem c74_dense (cg : (Vec n → Vec n) → Vec n → Option (Vec n)) (o : Opts) (h1 : o.noEDM = false) (h2 : o.noHessian = false)
    (dofit extCov : Bool) (hrun : dofit = true ∨ o.external = false ∨ extCov = false) (l : Layout) (parms : Fin n → String)
    (frozen : List String) (prev : Mat n) (grad : Vec n) (H : Mat n) (hs : H.IsSymm)
    (hpos : Cov.Spec.posOnFloating (fun i => parms i ∈ frozen) H) :
    ∃ out c, uncertainties cg o dofit extCov l parms frozen prev grad H = .ok out ∧ out.covHist = some c ∧ out.cov = some c ∧
      (∀ i, out.variances i = some (c i i)) ∧
      ∀ i j, parms i ∉ frozen → parms j ∉ frozen →
        (∑ k, if parms k ∉ frozen then c i k * H k j else 0) = if i = j then 1 else 0 := by
  obtain ⟨edm, c, hc, hinv, -⟩ := c35_covariance_partial parms frozen prev (maskG parms frozen grad) (maskH parms frozen H)
    (symm_mask hs) (posOn_mask hpos)
  have hb : (dofit || !o.external || !extCov) = true := by
    rcases hrun with h | h | h <;> simp [h]
  refine ⟨_, c, by unfold uncertainties; rw [if_pos hb, h1, h2]; simp only [Bool.not_false, Bool.and_self, if_true, hc]; rfl,
    rfl, rfl, fun _ => rfl, fun i j hi hj => ?_⟩
  rw [← hinv i j hi hj]
  refine Finset.sum_congr rfl fun k _ => ?_
  split_ifs with hk
  · rfl
  · simp [maskH, hk, hj]

theorem covRows_ok {cg : (Vec n → Vec n) → Vec n → Option (Vec n)} {A : Vec n → Vec n} {idx : List Nat} {rows : List (Vec n)}
    (h : covRows cg A idx = .ok rows) :
    rows.length = idx.length ∧ ∀ k i : Nat, idx[k]? = some i → ∃ (hi : i < n) (c : Vec n), rows[k]? = some c ∧
      cg A (Pi.single ⟨i, hi⟩ 1) = some c := by
  induction idx generalizing rows with
  | nil =>
    cases h
    exact ⟨rfl, fun k i hk => by simp at hk⟩
  | cons i idx ih =>
    unfold covRows at h
    split at h
    · rename_i hi
      split at h
      · exact nomatch h
      · rename_i c hc
        split at h
        · exact nomatch h
        · rename_i r hr
          cases h
          obtain ⟨e1, e2⟩ := ih hr
          refine ⟨by simp [e1], fun k j hk => ?_⟩
          cases k with
          | zero =>
            simp only [List.getElem?_cons_zero, Option.some.injEq] at hk
            subst hk
            exact ⟨hi, c, rfl, hc⟩
          | succ k => exact e2 k j (by simpa using hk)
    · exact nomatch h

theorem fillVariances_get (l : List (Nat × Vec n)) (f : Fin n → Option ℝ) (k : Fin n) (w : Option ℝ)
    (h : ∀ e ∈ l, e.1 = k.val → some (e.2 k) = w) :
    fillVariances l f k = if ∃ e ∈ l, e.1 = k.val then w else f k := by
  induction l generalizing f with
  | nil => simp [fillVariances]
  | cons e l ih =>
    obtain ⟨i, c⟩ := e
    rw [fillVariances, ih _ fun e he => h e (List.mem_cons_of_mem _ he)]
    by_cases h1 : ∃ e ∈ l, e.1 = k.val
    · rw [if_pos h1, if_pos]
      obtain ⟨e, he, hk⟩ := h1
      exact ⟨e, List.mem_cons_of_mem _ he, hk⟩
    · rw [if_neg h1]
      by_cases h2 : i = k.val
      · rw [if_pos h2.symm, if_pos ⟨(i, c), by simp, h2⟩]
        exact h (i, c) (by simp) h2
      · rw [if_neg (Ne.symm h2), if_neg]
        rintro ⟨e, he, hk⟩
        rcases List.mem_cons.1 he with rfl | he
        · exact h2 hk
        · exact h1 ⟨e, he, hk⟩

/-- the solution for a floating row is the row of the covariance -/
theorem row_eq {cg : (Vec n → Vec n) → Vec n → Option (Vec n)} (hcg : Cov.Spec.CG cg) {parms : Fin n → String}
    {frozen : List String} {H c : Mat n}
    (hinv : ∀ i j, parms i ∉ frozen → parms j ∉ frozen →
        (∑ k, if parms k ∉ frozen then c i k * H k j else 0) = if i = j then 1 else 0)
    (i : Fin n) (hi : parms i ∉ frozen) (d : Vec n)
    (hd : cg (fun p => (maskH parms frozen H).mulVec p) (Pi.single i 1) = some d) : d i = c i i := by
  have h1 := hcg.solves _ _ _ hd
  have h2 := krylov_zero (H := H) (b := Pi.single i 1) (fun j hj => by
    rw [Pi.single_apply, if_neg]; rintro rfl; exact hi hj) (hcg.krylov _ _ _ hd)
  have e1 : d i = ∑ j, (if i = j then 1 else 0) * d j := by simp
  rw [e1]
  have e2 : ∀ j, (if i = j then 1 else 0) * d j = ∑ k, if parms k ∉ frozen then c i k * (maskH parms frozen H k j * d j) else 0 := by
    intro j
    by_cases hj : parms j ∈ frozen
    · simp [h2 j hj]
    · rw [← hinv i j hi hj, Finset.sum_mul]
      refine Finset.sum_congr rfl fun k _ => ?_
      by_cases hk : parms k ∈ frozen
      · rw [if_neg (not_not.2 hk), if_neg (not_not.2 hk), zero_mul]
      · rw [if_pos hk, if_pos hk]
        simp only [maskH, Matrix.of_apply, hk, hj, or_self, if_false]; ring
  rw [Finset.sum_congr rfl fun j _ => e2 j, Finset.sum_comm]
  have e3 : ∀ k, (∑ j, if parms k ∉ frozen then c i k * (maskH parms frozen H k j * d j) else 0) =
      if parms k ∉ frozen then c i k * ((Pi.single i 1 : Vec n) k) else 0 := by
    intro k
    by_cases hk : parms k ∈ frozen
    · simp [hk]
    · simp only [if_pos hk]
      rw [← h1, ← Finset.mul_sum]; rfl
  rw [Finset.sum_congr rfl fun k _ => e3 k, Finset.sum_eq_single i]
  · simp [hi]
  · intro k _ hk; simp [hk]
  · simp

theorem edm_eq {cg : (Vec n → Vec n) → Vec n → Option (Vec n)} (hcg : Cov.Spec.CG cg) {parms : Fin n → String}
    {frozen : List String} {H prev c : Mat n} {grad v : Vec n} {edm : ℝ} (hs : H.IsSymm)
    (hpos : Cov.Spec.posOnFloating (fun i => parms i ∈ frozen) H)
    (hc : fitterEdmvalCov parms frozen prev (maskG parms frozen grad) (maskH parms frozen H) = .ok (edm, c))
    (hd : cg (fun p => (maskH parms frozen H).mulVec p) (maskG parms frozen grad) = some v) :
    edm = (1 / 2) * (maskG parms frozen grad ⬝ᵥ v) := by
  have h1 := hcg.solves _ _ _ hd
  have h2 := krylov_zero (H := H) (b := maskG parms frozen grad) (fun j hj => by simp [maskG, hj]) (hcg.krylov _ _ _ hd)
  set g := maskG parms frozen grad with hg
  set M := maskH parms frozen H with hM
  have hsM : M.IsSymm := symm_mask hs
  have hposM := posOn_mask hpos
  by_cases hf : frozen = []
  · subst hf
    have hp := (nil_posDef_iff parms hsM).2 hposM
    simp only [fitterEdmvalCov, List.length_nil, gt_iff_lt, Nat.lt_irrefl, if_false] at hc
    rw [edmvalCov_ok hp] at hc
    cases hc
    rw [← h1, mulVec_mulVec, inv_mul_of_posDef hp, one_mulVec]
  · have hp := (gather_posDef_iff parms frozen hsM).2 hposM
    have hlen : frozen.length > 0 := List.length_pos_iff.2 hf
    have hnd := nodup_floatingIdx parms frozen
    simp only [fitterEdmvalCov, hlen, if_true] at hc
    rw [edmvalCov_ok hp] at hc
    cases hc
    have h3 : gatherV (floatingIdx parms frozen) g = (gatherM (floatingIdx parms frozen) M).mulVec (gatherV (floatingIdx parms frozen) v) := by
      funext a
      rw [gather_mulVec hnd M v (fun i hi => h2 i (by simpa [mem_floatingIdx] using hi)) a]
      exact (congrFun h1 _).symm
    rw [show (gatherM (floatingIdx parms frozen) M)⁻¹.mulVec (gatherV (floatingIdx parms frozen) g) = gatherV (floatingIdx parms frozen) v by
      rw [h3, mulVec_mulVec, inv_mul_of_posDef hp, one_mulVec]]
    rw [gather_dot hnd _ _ (fun i hi => h2 i (by simpa [mem_floatingIdx] using hi))]

/-- Without the Hessian the same estimated distance to the minimum and the same variances of POIs and nuisance parameters of
interest are stored as with it, and NaN for all others (missing: models with parameters that are not POIs, see
`c74_noi_violated`; frozen POIs, see `c74_frozen_violated`). -/
theorem c74_hessfree_partial (cg : (Vec n → Vec n) → Vec n → Option (Vec n)) (hcg : Cov.Spec.CG cg) (o : Opts)
    (h1 : o.noEDM = false) (dofit extCov : Bool) (hrun : dofit = true ∨ o.external = false ∨ extCov = false)
    (l : Layout) (hl : l.npoi = l.nparams) (parms : Fin n → String) (frozen : List String) (prev : Mat n) (grad : Vec n)
    (H : Mat n) (hs : H.IsSymm) (hpos : Cov.Spec.posOnFloating (fun i => parms i ∈ frozen) H) (out out' : Out n)
    (hd : uncertainties cg { o with noHessian := false } dofit extCov l parms frozen prev grad H = .ok out)
    (hh : uncertainties cg { o with noHessian := true } dofit extCov l parms frozen prev grad H = .ok out')
    (hfl : ∀ i : Fin n, Spec.Reported l i → parms i ∉ frozen) :
    out'.edm = out.edm ∧ out'.edm ≠ none ∧
    ∀ i : Fin n, (Spec.Reported l i → out'.variances i = out.variances i ∧ out'.variances i ≠ none) ∧
      (¬ Spec.Reported l i → out'.variances i = none) := by
  have hb : (dofit || !o.external || !extCov) = true := by
    rcases hrun with h | h | h <;> simp [h]
  obtain ⟨edm, c, hc, hinv, -⟩ := c35_covariance_partial parms frozen prev (maskG parms frozen grad) (maskH parms frozen H)
    (symm_mask hs) (posOn_mask hpos)
  have hinv' : ∀ i j, parms i ∉ frozen → parms j ∉ frozen →
      (∑ k, if parms k ∉ frozen then c i k * H k j else 0) = if i = j then 1 else 0 := by
    intro i j hi hj
    rw [← hinv i j hi hj]
    refine Finset.sum_congr rfl fun k _ => ?_
    split_ifs with hk
    · rfl
    · simp [maskH, hk, hj]
  unfold uncertainties at hd hh
  rw [if_pos hb] at hd hh
  simp only [h1, Bool.not_false, Bool.not_true, Bool.and_self, Bool.and_false, if_true, hc, Bool.false_eq_true, if_false] at hd hh
  cases hd
  split at hh
  · exact nomatch hh
  rename_i edm' rows hr
  cases hh
  unfold rowsHessfree at hr
  split at hr
  · exact nomatch hr
  rename_i v hv
  split at hr
  · exact nomatch hr
  rename_i rows' hrows
  cases hr
  obtain ⟨hlen, hrow⟩ := covRows_ok hrows
  have hmem : ∀ e ∈ l.rows.zip rows, ∃ (hi : e.1 < n), e.1 ∈ l.rows ∧
      cg (fun p => (maskH parms frozen H).mulVec p) (Pi.single ⟨e.1, hi⟩ 1) = some e.2 := by
    intro e he
    obtain ⟨k, hk⟩ := List.getElem?_of_mem he
    obtain ⟨ha, hb⟩ := List.getElem?_zip_eq_some.1 hk
    obtain ⟨hi, c', hc', hcg'⟩ := hrow k e.1 ha
    cases Option.some.inj (hb.symm.trans hc')
    exact ⟨hi, List.mem_of_getElem? ha, hcg'⟩
  have hrep : ∀ i, i ∈ l.rows ↔ Spec.Reported l i := by
    intro i
    unfold Layout.rows Spec.Reported
    rw [List.mem_append, List.mem_range, List.mem_map, hl]
    refine or_congr Iff.rfl (exists_congr fun k => and_congr_right fun _ => ?_)
    omega
  have hex : ∀ i, i ∈ l.rows → ∃ e ∈ l.rows.zip rows, e.1 = i := by
    intro i hi
    obtain ⟨k, hk⟩ := List.getElem?_of_mem hi
    obtain ⟨-, c', hc', -⟩ := hrow k i hk
    exact ⟨(i, c'), List.mem_of_getElem? (List.getElem?_zip_eq_some.2 ⟨hk, hc'⟩), rfl⟩
  refine ⟨?_, by simp, fun i => ?_⟩
  · rw [edm_eq hcg hs hpos hc hv]
  · have hv : ∀ e ∈ l.rows.zip rows, e.1 = i.val → some (e.2 i) = some (c i i) := by
      intro e he hei
      obtain ⟨hi, hm, hcge⟩ := hmem e he
      have : (⟨e.1, hi⟩ : Fin n) = i := Fin.ext hei
      rw [this] at hcge
      rw [row_eq hcg hinv' i (hfl i ((hrep _).1 (hei ▸ hm))) e.2 hcge]
    have hfill := fillVariances_get (l.rows.zip rows) (fun _ => none) i _ hv
    constructor
    · intro hR
      dsimp only
      rw [hfill, if_pos (hex i ((hrep i).2 hR))]
      exact ⟨rfl, by simp⟩
    · intro hR
      dsimp only
      rw [hfill, if_neg]
      rintro ⟨e, he, hei⟩
      obtain ⟨-, hm, -⟩ := hmem e he
      exact hR ((hrep _).1 (hei ▸ hm))

theorem ideal_some {parms : Fin n → String} {frozen : List String} {H : Mat n} (hs : H.IsSymm)
    (hpos : Cov.Spec.posOnFloating (fun i => parms i ∈ frozen) H) {b : Vec n} (hb : ∀ i, parms i ∈ frozen → b i = 0) :
    ∃ d, Cov.Spec.idealCG (fun p => (maskH parms frozen H).mulVec p) b = some d := by
  obtain ⟨x', hx', -⟩ := c36_cg_total ⟨0, -b, H⟩ hs (fun i => decide (parms i ∈ frozen)) (by simpa using hpos) 0
  have e1 : (Quad.hess ⟨0, -b, H⟩ fun i => decide (parms i ∈ frozen)) = maskH parms frozen H := by
    ext i j; simp [Quad.hess, maskH]
  have e2 : -(Quad.grad ⟨0, -b, H⟩ (fun i => decide (parms i ∈ frozen)) 0) = b := by
    funext i
    by_cases hi : parms i ∈ frozen
    · simp [Quad.grad, hi, hb i hi]
    · simp [Quad.grad, hi]
  unfold minimizeCG at hx'
  rw [e1, e2] at hx'
  split at hx'
  · exact nomatch hx'
  · rename_i d hd; exact ⟨d, hd⟩

theorem hessfree_total (o : Opts) (dofit extCov : Bool) (l : Layout) (parms : Fin n → String) (frozen : List String)
    (prev : Mat n) (grad : Vec n) (H : Mat n) (hs : H.IsSymm) (hpos : Cov.Spec.posOnFloating (fun i => parms i ∈ frozen) H)
    (hrange : ∀ i ∈ l.rows, ∃ h : i < n, parms ⟨i, h⟩ ∉ frozen) :
    ∃ out, uncertainties Cov.Spec.idealCG { o with noHessian := true } dofit extCov l parms frozen prev grad H = .ok out := by
  have hrows : ∀ idx : List Nat, (∀ i ∈ idx, ∃ h : i < n, parms ⟨i, h⟩ ∉ frozen) →
      ∃ r, covRows Cov.Spec.idealCG (fun p => (maskH parms frozen H).mulVec p) idx = .ok r := by
    intro idx hidx
    induction idx with
    | nil => exact ⟨[], rfl⟩
    | cons i idx ih =>
      obtain ⟨h, hfl⟩ := hidx i (by simp)
      obtain ⟨r, hr⟩ := ih fun j hj => hidx j (List.mem_cons_of_mem _ hj)
      obtain ⟨d, hd⟩ := ideal_some hs hpos (b := Pi.single ⟨i, h⟩ 1) fun j hj => by
        rw [Pi.single_apply, if_neg]; rintro rfl; exact hfl hj
      exact ⟨d :: r, by rw [covRows, dif_pos h, hd, hr]⟩
  obtain ⟨r, hr⟩ := hrows l.rows hrange
  obtain ⟨v, hv⟩ := ideal_some hs hpos (b := maskG parms frozen grad) fun i hi => by simp [maskG, hi]
  have hrf : rowsHessfree Cov.Spec.idealCG (fun p => (maskH parms frozen H).mulVec p) (maskG parms frozen grad) l.rows =
      .ok ((1 / 2) * (maskG parms frozen grad ⬝ᵥ v), r) := by
    unfold rowsHessfree; rw [hv, hr]
  unfold uncertainties
  dsimp only
  simp only [hrf, Bool.not_true, Bool.and_false, Bool.false_eq_true, if_false]
  split_ifs <;> exact ⟨_, rfl⟩

/-- The computation without the Hessian does not fail when all rows it asks for belong to floating parameters. -/
theorem c74_hessfree_total (o : Opts) (dofit extCov : Bool) (l : Layout) (parms : Fin n → String) (frozen : List String)
    (prev : Mat n) (grad : Vec n) (H : Mat n) (hs : H.IsSymm) (hpos : Cov.Spec.posOnFloating (fun i => parms i ∈ frozen) H)
    (hl : l.npoi = l.nparams) (hrange : ∀ i, Spec.Reported l i → ∃ h : i < n, parms ⟨i, h⟩ ∉ frozen) :
    ∃ out, uncertainties Cov.Spec.idealCG { o with noHessian := true } dofit extCov l parms frozen prev grad H = .ok out := by
  refine hessfree_total o dofit extCov l parms frozen prev grad H hs hpos fun i hi => hrange i ?_
  unfold Layout.rows at hi
  rw [List.mem_append, List.mem_range, List.mem_map] at hi
  rcases hi with hi | ⟨k, hk, rfl⟩
  · exact .inl hi
  · exact .inr ⟨k, hk, by omega⟩

theorem one_pos_floating (P : Fin n → Prop) : Cov.Spec.posOnFloating P (1 : Mat n) := by
  intro z _ hne
  obtain ⟨i, hi⟩ := Function.ne_iff.1 hne
  have : ∑ i, ∑ j, z i * (1 : Mat n) i j * z j = ∑ i, z i ^ 2 := by
    refine Finset.sum_congr rfl fun i _ => ?_
    rw [Finset.sum_eq_single i (fun j _ hj => by rw [Matrix.one_apply_ne hj.symm]; ring) (by simp)]
    rw [Matrix.one_apply_eq]; ring
  rw [this]
  exact Finset.sum_pos' (fun i _ => sq_nonneg _) ⟨i, Finset.mem_univ _, by have : z i ≠ 0 := hi; positivity⟩

/-- the hypotheses of `c74_dense`, `c74_hessfree_partial` and `c74_hessfree_total`: one POI, a frozen nuisance parameter and
one of interest -/
example : ∃ out out' : Out 3,
    uncertainties Cov.Spec.idealCG {} true false ⟨1, 1, [1]⟩ !["mu", "a", "b"] ["a"] 1 ![1, 2, 3] 1 = .ok out ∧
    uncertainties Cov.Spec.idealCG { noHessian := true } true false ⟨1, 1, [1]⟩ !["mu", "a", "b"] ["a"] 1 ![1, 2, 3] 1 = .ok out' ∧
    out'.variances 0 = out.variances 0 ∧ out'.variances 1 = none ∧ out'.variances 2 = out.variances 2 := by
  have hfl : ∀ i, Spec.Reported ⟨1, 1, [1]⟩ i → ∃ h : i < 3, (!["mu", "a", "b"] : Fin 3 → String) ⟨i, h⟩ ∉ ["a"] := by
    rintro i (h | ⟨k, hk, rfl⟩)
    · obtain rfl : i = 0 := by dsimp only at h; omega
      exact ⟨by omega, by decide⟩
    · simp only [List.mem_singleton] at hk
      subst hk
      exact ⟨by decide, by decide⟩
  obtain ⟨out, c, ho, -⟩ := c74_dense Cov.Spec.idealCG {} rfl rfl true false (.inl rfl) ⟨1, 1, [1]⟩ !["mu", "a", "b"] ["a"] 1 ![1, 2, 3] 1
    Matrix.isSymm_one (one_pos_floating _)
  obtain ⟨out', ho'⟩ := c74_hessfree_total {} true false ⟨1, 1, [1]⟩ !["mu", "a", "b"] ["a"] 1 ![1, 2, 3] 1
    Matrix.isSymm_one (one_pos_floating _) rfl hfl
  obtain ⟨-, -, hv⟩ := c74_hessfree_partial Cov.Spec.idealCG Cov.idealCG_spec {} rfl true false (.inl rfl) ⟨1, 1, [1]⟩ rfl _ _ _ _ _
    Matrix.isSymm_one (one_pos_floating _) out out' ho ho' fun i hi => (hfl i hi).2
  refine ⟨out, out', ho, ho', ((hv 0).1 (.inl (by decide))).1, (hv 1).2 ?_, ((hv 2).1 (.inr ⟨1, by decide, rfl⟩)).1⟩
  rintro (h | ⟨k, hk, h⟩)
  · exact absurd h (by decide)
  · simp only [List.mem_singleton] at hk
    subst hk
    exact absurd h (by decide)

/-- With a model parameter that is not a POI (a background normalisation, say) the rows of the nuisance parameters of
interest are taken at the wrong places: the parameter of interest is stored without uncertainty and another parameter with
one, for every solver. -/
theorem c74_noi_violated (cg : (Vec n → Vec n) → Vec n → Option (Vec n)) (o : Opts) (h1 : o.noEDM = false)
    (dofit extCov : Bool) (hrun : dofit = true ∨ o.external = false ∨ extCov = false) (npoi nparams k : Nat)
    (hlt : npoi < nparams) (parms : Fin n → String) (frozen : List String) (prev : Mat n) (grad : Vec n) (H : Mat n) (out : Out n)
    (hk : nparams + k < n)
    (hh : uncertainties cg { o with noHessian := true } dofit extCov ⟨npoi, nparams, [k]⟩ parms frozen prev grad H = .ok out) :
    Spec.Reported ⟨npoi, nparams, [k]⟩ (nparams + k) ∧ out.variances ⟨nparams + k, hk⟩ = none ∧
    ¬ Spec.Reported ⟨npoi, nparams, [k]⟩ (npoi + k) ∧ out.variances ⟨npoi + k, by omega⟩ ≠ none := by
  have hb : (dofit || !o.external || !extCov) = true := by
    rcases hrun with h | h | h <;> simp [h]
  unfold uncertainties at hh
  rw [if_pos hb] at hh
  simp only [h1, Bool.not_false, Bool.not_true, Bool.and_false, if_true, Bool.false_eq_true, if_false] at hh
  split at hh
  · exact nomatch hh
  rename_i edm rows hr
  cases hh
  unfold rowsHessfree at hr
  split at hr
  · exact nomatch hr
  split at hr
  · exact nomatch hr
  rename_i rows' hrows
  cases hr
  obtain ⟨hlen, hrow⟩ := covRows_ok hrows
  have hr : (Layout.rows ⟨npoi, nparams, [k]⟩) = List.range npoi ++ [k + npoi] := rfl
  refine ⟨.inr ⟨k, by simp, rfl⟩, ?_, ?_, ?_⟩
  · dsimp only
    rw [fillVariances_get _ _ _ none, if_neg]
    · rintro ⟨e, he, hei⟩
      have := (List.of_mem_zip he).1
      rw [hr, hei] at this
      simp at this
      omega
    · intro e he hei
      have := (List.of_mem_zip he).1
      rw [hr, hei] at this
      simp at this
      omega
  · rintro (h | ⟨k', hk', h⟩)
    · dsimp only at h; omega
    · simp only [List.mem_singleton] at hk'
      subst hk'
      dsimp only at h
      omega
  · dsimp only
    have h0 : (Layout.rows ⟨npoi, nparams, [k]⟩)[npoi]? = some (k + npoi) := by
      rw [hr, List.getElem?_append_right (by simp)]; simp
    obtain ⟨-, c, hc, -⟩ := hrow npoi _ h0
    have hz : ((Layout.rows ⟨npoi, nparams, [k]⟩).zip rows)[npoi]? = some (k + npoi, c) :=
      List.getElem?_zip_eq_some.2 ⟨h0, hc⟩
    rw [fillVariances_get _ _ _ (some (c ⟨npoi + k, by omega⟩)), if_pos ⟨_, List.mem_of_getElem? hz, by dsimp only; omega⟩]
    · simp
    · intro e he hei
      obtain ⟨q, hq⟩ := List.getElem?_of_mem he
      obtain ⟨ha, hb'⟩ := List.getElem?_zip_eq_some.1 hq
      rw [hr, hei] at ha
      have hqn : q = npoi := by
        by_contra hne
        by_cases hlt' : q < npoi
        · rw [List.getElem?_append_left (by simpa using hlt')] at ha
          simp [hlt'] at ha
          omega
        · have := (List.getElem?_eq_some_iff.1 ha).1
          simp only [List.length_append, List.length_range, List.length_cons, List.length_nil] at this
          omega
      subst hqn
      rw [Option.some.inj (hb'.symm.trans hc)]

/-- the hypotheses of `c74_noi_violated`: a POI, another model parameter, two nuisance parameters of which the second is of
interest -/
example : ∃ out : Out 4,
    uncertainties Cov.Spec.idealCG { noHessian := true } true false ⟨1, 2, [1]⟩ !["mu", "norm", "a", "b"] [] 1 0 1 = .ok out ∧
    out.variances 3 = none ∧ out.variances 2 ≠ none := by
  obtain ⟨out, ho⟩ := hessfree_total {} true false ⟨1, 2, [1]⟩ !["mu", "norm", "a", "b"] [] 1 0 (1 : Mat 4) Matrix.isSymm_one
    (one_pos_floating _) (by
      intro i hi
      have : i ∈ [0, 2] := hi
      simp only [List.mem_cons, List.not_mem_nil, or_false] at this
      exact ⟨by omega, by simp⟩)
  obtain ⟨-, h1, -, h2⟩ := c74_noi_violated Cov.Spec.idealCG {} rfl true false (.inl rfl) 1 2 1 (by decide)
    !["mu", "norm", "a", "b"] [] 1 0 1 out (by decide) ho
  exact ⟨out, ho, h1, h2⟩

/-- Without the Hessian a frozen POI makes the program fail after the fit: the equation for its row has no solution. -/
theorem c74_frozen_violated (cg : (Vec n → Vec n) → Vec n → Option (Vec n)) (hcg : Cov.Spec.CG cg) (o : Opts)
    (h1 : o.noEDM = false) (dofit extCov : Bool) (hrun : dofit = true ∨ o.external = false ∨ extCov = false) (l : Layout)
    (parms : Fin n → String) (frozen : List String) (prev : Mat n) (grad : Vec n) (H : Mat n) (i : Fin n) (hi : i.val < l.npoi)
    (hf : parms i ∈ frozen) :
    ∃ e, uncertainties cg { o with noHessian := true } dofit extCov l parms frozen prev grad H = .error e := by
  cases hh : uncertainties cg { o with noHessian := true } dofit extCov l parms frozen prev grad H with
  | error e => exact ⟨e, rfl⟩
  | ok out =>
    exfalso
    have hb : (dofit || !o.external || !extCov) = true := by
      rcases hrun with h | h | h <;> simp [h]
    unfold uncertainties at hh
    rw [if_pos hb] at hh
    simp only [h1, Bool.not_false, Bool.not_true, Bool.and_false, if_true, Bool.false_eq_true, if_false] at hh
    split at hh
    · exact nomatch hh
    rename_i edm rows hr
    unfold rowsHessfree at hr
    split at hr
    · exact nomatch hr
    split at hr
    · exact nomatch hr
    rename_i rows' hrows
    obtain ⟨hlen, hrow⟩ := covRows_ok hrows
    have h0 : l.rows[i.val]? = some i.val := by
      unfold Layout.rows
      rw [List.getElem?_append_left (by simpa using hi)]; simp [hi]
    obtain ⟨hi', c, -, hc⟩ := hrow i.val i.val h0
    have := congrFun (hcg.solves _ _ _ hc) i
    simp [mulVec, dotProduct, maskH, hf] at this

/-- the hypotheses of `c74_frozen_violated` -/
example : ∃ e, uncertainties Cov.Spec.idealCG { noHessian := true } true false ⟨1, 1, []⟩ !["mu", "a"] ["mu"] 1 ![1, 2] 1 = .error e :=
  c74_frozen_violated Cov.Spec.idealCG Cov.idealCG_spec {} rfl true false (.inl rfl) ⟨1, 1, []⟩ !["mu", "a"] ["mu"] 1 ![1, 2] 1 0
    (by decide) (by decide)

/-- When the fit is skipped and a covariance was loaded from an external result, the parameters are stored without
uncertainty and the covariance is not stored, although the fitter holds it. -/
theorem c74_external_violated (cg : (Vec n → Vec n) → Vec n → Option (Vec n)) (o : Opts) (ho : o.external = true)
    (hh : o.noHessian = false) (l : Layout) (parms : Fin n → String) (frozen : List String) (prev : Mat n) (grad : Vec n) (H : Mat n) :
    ∃ out, uncertainties cg o false true l parms frozen prev grad H = .ok out ∧ out.cov = some prev ∧ out.covHist = none ∧
      ∀ i, out.variances i = none := by
  refine ⟨_, by unfold uncertainties; rw [if_neg (by simp [ho])], by simp [hh], rfl, fun _ => rfl⟩

/-- `--noEDM` without `--noHessian` leaves the covariance of the fitter as it was before the fit: the uncertainties of
postfit histograms are computed from the prefit covariance, whatever the Hessian is. -/
theorem c74_noedm_violated (cg : (Vec n → Vec n) → Vec n → Option (Vec n)) (o : Opts) (h1 : o.noEDM = true)
    (hh : o.noHessian = false) (extCov : Bool) (l : Layout) (parms : Fin n → String) (frozen : List String) (prev : Mat n)
    (grad : Vec n) (H : Mat n) :
    ∃ out, uncertainties cg o true extCov l parms frozen prev grad H = .ok out ∧ out.cov = some prev := by
  refine ⟨_, by unfold uncertainties; rw [if_pos (by simp)]; simp only [h1, Bool.not_true, Bool.false_and, Bool.false_eq_true, if_false]; rfl,
    by simp [hh]⟩

/-! ### degrees of freedom -/

section Ndf

variable {m : ℕ} {ι : Type} [Fintype ι]

/-- chi-square of a linear model with floating parameters `ι`: observations `N` and constraint centres `θ` -/
noncomputable def Spec.chi2 (Vi : Mat m) (J : Matrix (Fin m) ι ℝ) (cw : ι → ℝ) (d : (Fin m → ℝ) × ({j // cw j ≠ 0} → ℝ)) (x : ι → ℝ) : ℝ :=
  (J.mulVec x - d.1) ⬝ᵥ Vi.mulVec (J.mulVec x - d.1) + ∑ j : {j // cw j ≠ 0}, cw j * (x j - d.2 j) ^ 2

/-- `k` is the number of degrees of freedom: the number of independent directions of the observations that the model cannot
follow -/
def Spec.IsNdf {E : Type} [AddCommGroup E] [Module ℝ E] (followed : Set E) (k : Int) : Prop :=
  ∃ S : Submodule ℝ E, (S : Set E) = followed ∧ k = (Module.finrank ℝ E : Int) - Module.finrank ℝ S

/-- the observations and centres for which the minimum of the chi-square is zero -/
def Spec.followed (Vi : Mat m) (J : Matrix (Fin m) ι ℝ) (cw : ι → ℝ) : Set ((Fin m → ℝ) × ({j // cw j ≠ 0} → ℝ)) :=
  {d | ∃ x, Spec.chi2 Vi J cw d x = 0}

theorem ndf_count (Vi : Mat m) (hVi : Vi.PosDef) (J : Matrix (Fin m) ι ℝ) (cw : ι → ℝ) (hcw : ∀ j, 0 ≤ cw j)
    (hinj : ∀ x, J.mulVec x = 0 → (∀ j, cw j ≠ 0 → x j = 0) → x = 0) :
    Spec.IsNdf (Spec.followed Vi J cw) ((m : Int) - Fintype.card {j // cw j = 0}) := by
  let φ : (ι → ℝ) →ₗ[ℝ] (Fin m → ℝ) × ({j // cw j ≠ 0} → ℝ) :=
    LinearMap.prod J.mulVecLin (LinearMap.funLeft ℝ ℝ (fun j : {j // cw j ≠ 0} => j.val))
  refine ⟨LinearMap.range φ, ?_, ?_⟩
  · ext d
    simp only [SetLike.mem_coe, LinearMap.mem_range, Spec.followed, Set.mem_ofPred_eq]
    refine exists_congr fun x => ?_
    constructor
    · rintro rfl
      simp [Spec.chi2, φ, LinearMap.funLeft_apply]
    · intro h
      unfold Spec.chi2 at h
      have h1 : 0 ≤ (J.mulVec x - d.1) ⬝ᵥ Vi.mulVec (J.mulVec x - d.1) := by
        by_cases hz : J.mulVec x - d.1 = 0
        · rw [hz]; simp
        · exact ((posDef_iff'.1 hVi).2 _ hz).le
      have h2 : ∀ j : {j // cw j ≠ 0}, 0 ≤ cw j * (x j - d.2 j) ^ 2 := fun j => mul_nonneg (hcw _) (sq_nonneg _)
      have h3 := Finset.sum_nonneg fun j (_ : j ∈ Finset.univ) => h2 j
      have h4 : ∑ j : {j // cw j ≠ 0}, cw j * (x j - d.2 j) ^ 2 = 0 := by linarith
      refine Prod.ext ?_ ?_
      · by_contra hne
        have : J.mulVec x - d.1 ≠ 0 := sub_ne_zero.2 hne
        have := (posDef_iff'.1 hVi).2 _ this
        linarith
      · funext j
        have := (Finset.sum_eq_zero_iff_of_nonneg fun j _ => h2 j).1 h4 j (Finset.mem_univ _)
        rcases mul_eq_zero.1 this with h | h
        · exact absurd h j.2
        · exact sub_eq_zero.1 (pow_eq_zero_iff (two_ne_zero)|>.1 h)
  · have hker : Function.Injective φ := by
      rw [← LinearMap.ker_eq_bot, LinearMap.ker_eq_bot']
      intro x hx
      have h1 : J.mulVec x = 0 := congrArg Prod.fst hx
      have h2 : ∀ j : {j // cw j ≠ 0}, x j = 0 := fun j => congrFun (congrArg Prod.snd hx) j
      exact hinj x h1 fun j hj => h2 ⟨j, hj⟩
    rw [LinearMap.finrank_range_of_inj hker]
    have hc : Fintype.card {j // cw j = 0} + Fintype.card {j // cw j ≠ 0} = Fintype.card ι := by
      classical
      exact (Fintype.card_congr (Equiv.sumCompl fun j => cw j = 0)).symm ▸ by simp
    simp only [Module.finrank_prod, Module.finrank_fintype_fun_eq_card, Fintype.card_fin]
    omega

theorem ndf_unique {E : Type} [AddCommGroup E] [Module ℝ E] {s : Set E} {k k' : Int} (h : Spec.IsNdf s k) (h' : Spec.IsNdf s k') : k = k' := by
  obtain ⟨S, hS, rfl⟩ := h
  obtain ⟨S', hS', rfl⟩ := h'
  rw [SetLike.coe_injective (hS.trans hS'.symm)]

/-- The reported number of degrees of freedom is correct when every model parameter and every nuisance parameter without
constraint floats without prior (missing: frozen and priored parameters, see `c74_ndf_violated`). -/
theorem c74_ndf_partial (Vi : Mat m) (hVi : Vi.PosDef) (J : Matrix (Fin m) ι ℝ) (cw : ι → ℝ) (hcw : ∀ j, 0 ≤ cw j)
    (hinj : ∀ x, J.mulVec x = 0 → (∀ j, cw j ≠ 0 → x j = 0) → x = 0) (nparams nsystnoconstraint : Nat)
    (hfree : Fintype.card {j // cw j = 0} = nparams + nsystnoconstraint) :
    Spec.IsNdf (Spec.followed Vi J cw) (ndfsat m nparams nsystnoconstraint) := by
  have := ndf_count Vi hVi J cw hcw hinj
  rw [hfree] at this
  unfold ndfsat
  rwa [show (m : Int) - nparams - nsystnoconstraint = m - ((nparams + nsystnoconstraint : Nat) : Int) by omega]

/-- A model parameter that has a prior or is frozen is not free, but is subtracted: the reported number of degrees of
freedom is too small by the number of such parameters. -/
theorem c74_ndf_violated (Vi : Mat m) (hVi : Vi.PosDef) (J : Matrix (Fin m) ι ℝ) (cw : ι → ℝ) (hcw : ∀ j, 0 ≤ cw j)
    (hinj : ∀ x, J.mulVec x = 0 → (∀ j, cw j ≠ 0 → x j = 0) → x = 0) (nparams nsystnoconstraint notfree : Nat)
    (hfree : Fintype.card {j // cw j = 0} + notfree = nparams + nsystnoconstraint) (k : Int)
    (hk : Spec.IsNdf (Spec.followed Vi J cw) k) : ndfsat m nparams nsystnoconstraint = k - notfree := by
  rw [ndf_unique hk (ndf_count Vi hVi J cw hcw hinj)]
  unfold ndfsat
  omega

theorem posDef_one : (1 : Mat m).PosDef := by
  rw [posDef_iff']
  refine ⟨Matrix.isSymm_one, fun x hx => ?_⟩
  rw [Matrix.one_mulVec]
  exact lt_of_le_of_ne (Finset.sum_nonneg fun i _ => mul_self_nonneg _) fun h => hx (dotProduct_self_eq_zero.1 h.symm)

/-- the hypotheses of `c74_ndf_partial`: three bins, a free POI and a constrained nuisance parameter -/
example : Spec.IsNdf (Spec.followed (1 : Mat 3) !![1, 1; 1, 2; 1, 3] ![0, 1]) 2 := by
  refine c74_ndf_partial 1 posDef_one _ _ ?_ ?_ 1 0 ?_
  · intro j; fin_cases j <;> simp
  · intro x hx hc
    have h1 : x 1 = 0 := hc 1 (by simp)
    have h0 := congrFun hx 0
    simp [Matrix.mulVec, dotProduct, Fin.sum_univ_two, h1] at h0
    funext j; fin_cases j
    · exact h0
    · exact h1
  · rw [Fintype.card_subtype, Finset.card_eq_one]
    refine ⟨0, ?_⟩
    ext j; fin_cases j <;> simp

/-- the hypotheses of `c74_ndf_violated`: the same bins, the POI has a prior; three independent directions, two reported -/
example : Spec.IsNdf (Spec.followed (1 : Mat 3) !![1, 1; 1, 2; 1, 3] ![4, 1]) 3 ∧ ndfsat 3 1 0 = 2 := by
  have hc : Fintype.card {j : Fin 2 // (![4, 1] : Fin 2 → ℝ) j = 0} = 0 := by
    rw [Fintype.card_eq_zero_iff]
    exact ⟨fun ⟨j, hj⟩ => by fin_cases j <;> simp at hj⟩
  have h := ndf_count (1 : Mat 3) posDef_one !![1, 1; 1, 2; 1, 3] ![4, 1] (by intro j; fin_cases j <;> simp)
    (fun x _ hx => funext fun j => hx j (by fin_cases j <;> simp))
  rw [hc] at h
  refine ⟨h, ?_⟩
  have := c74_ndf_violated (1 : Mat 3) posDef_one !![1, 1; 1, 2; 1, 3] ![4, 1] (by intro j; fin_cases j <;> simp)
    (fun x _ hx => funext fun j => hx j (by fin_cases j <;> simp)) 1 0 1 (by rw [hc]) _ h
  rw [this]; rfl

end Ndf

end Verif.PostFit
