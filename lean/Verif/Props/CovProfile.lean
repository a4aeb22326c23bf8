import Verif.Lemmas.Profiled
import Verif.Lemmas.Halves
import Verif.Props.FileChisq

/-!
C112 A nuisance booked into the data covariance acts as if it were profiled.
-/

namespace Verif.FileFit

open Verif.Writer Verif.LinearFit Verif.FitParams Finset Matrix

noncomputable section

/-! ### specification -/

namespace Spec

/-- calls that name the same nuisance agree on its constraint and on whether it goes into the covariance, and what goes there is constrained -/
def settled (ops : List (Op ℝ)) : Prop :=
  (∀ b b', Writer.Spec.asked ops b → Writer.Spec.asked ops b' → b.name = b'.name → b.toCov = b'.toCov ∧ b.o.constrained = b'.o.constrained) ∧
  ∀ b, Writer.Spec.asked ops b → b.toCov = true → b.o.constrained = true

/-- a symmetric matrix whose quadratic form is positive -/
def positive (C : Cov ℝ) : Prop :=
  (∀ i < C.n, ∀ j < C.n, C.val i j = C.val j i) ∧
  ∀ x : Nat → ℝ, (∃ i < C.n, x i ≠ 0) → 0 < ∑ i ∈ range C.n, ∑ j ∈ range C.n, x i * C.val i j * x j

/-- points of the fits to two files with the same signal parameters and the same values of the nuisances of the first file -/
def agree (t t' : Tensor ℝ) (x x' : List ℝ) : Prop :=
  (∀ p ∈ t.signals, x.getD (t.signals.idxOf p) 0 = x'.getD (t'.signals.idxOf p) 0) ∧ ∀ m ∈ t.systs, nuisance t x m = nuisance t' x' m

end Spec

/-! ### quadratic forms -/

section
variable {n : Nat} (M : Matrix (Fin n) (Fin n) ℝ) (L : List String) (v : String → Fin n → ℝ)

/-- the matrix with the outer products -/
def outer : Matrix (Fin n) (Fin n) ℝ := Matrix.of fun i j => M i j + (L.map fun m => v m i * v m j).sum

/-- the sum of the variations -/
def shifts (θ : String → ℝ) : Fin n → ℝ := fun i => (L.map fun m => v m i * θ m).sum

theorem dot_shifts (θ : String → ℝ) (z : Fin n → ℝ) : shifts L v θ ⬝ᵥ z = (L.map fun m => θ m * (v m ⬝ᵥ z)).sum := by
  induction L with
  | nil => simp [shifts, dotProduct]
  | cons m L ih =>
    have : shifts (m :: L) v θ = θ m • v m + shifts L v θ := by
      funext i
      simp [shifts, mul_comm]
    rw [this, add_dotProduct, smul_dotProduct, ih, List.map_cons, List.sum_cons, smul_eq_mul]

theorem outer_mulVec (z : Fin n → ℝ) : outer M L v *ᵥ z = M *ᵥ z + shifts L v fun m => v m ⬝ᵥ z := by
  funext i
  show ∑ j, (M i j + (L.map fun m => v m i * v m j).sum) * z j = ∑ j, M i j * z j + _
  simp only [add_mul, sum_add_distrib]
  congr 1
  unfold shifts
  induction L with
  | nil => simp
  | cons m L ih =>
    simp only [List.map_cons, List.sum_cons, add_mul, sum_add_distrib, ih]
    congr 1
    unfold dotProduct
    rw [mul_sum]
    exact sum_congr rfl fun j _ => by ring

theorem sum_sq_nonneg (L : List String) (e : String → ℝ) : 0 ≤ (L.map fun m => e m ^ 2 / 2).sum :=
  List.sum_nonneg fun x hx => by
    obtain ⟨m, _, rfl⟩ := List.mem_map.1 hx
    positivity

variable (hs : Mᵀ = M) (hp : ∀ x, x ≠ 0 → 0 < x ⬝ᵥ (M *ᵥ x))
include hs hp

omit hs in
theorem posU : IsUnit M.det := by
  rw [← Matrix.isUnit_iff_isUnit_det, ← Matrix.mulVec_injective_iff_isUnit]
  intro x y hxy
  by_contra hne
  have h0 : M *ᵥ (x - y) = 0 := by rw [Matrix.mulVec_sub, sub_eq_zero]; exact hxy
  have := hp (x - y) (sub_ne_zero.2 hne)
  rw [h0, dotProduct_zero] at this
  exact lt_irrefl _ this

theorem outer_pos : (outer M L v)ᵀ = outer M L v ∧ ∀ x, x ≠ 0 → 0 < x ⬝ᵥ (outer M L v *ᵥ x) := by
  constructor
  · ext i j
    show M j i + _ = M i j + _
    rw [show M j i = M i j from congrFun (congrFun hs i) j]
    congr 2
    exact List.map_congr_left fun m _ => mul_comm _ _
  · intro x hx
    rw [outer_mulVec, dotProduct_add, dotProduct_comm x (shifts _ _ _), dot_shifts]
    refine add_pos_of_pos_of_nonneg (hp x hx) (List.sum_nonneg fun y hy => ?_)
    obtain ⟨m, _, rfl⟩ := List.mem_map.1 hy
    exact mul_self_nonneg _

omit hp in
theorem dot_symm (x y : Fin n → ℝ) : x ⬝ᵥ (M *ᵥ y) = y ⬝ᵥ (M *ᵥ x) := by
  rw [dotProduct_comm, ← Matrix.vecMul_transpose, hs, ← Matrix.dotProduct_mulVec]

/-- profiling adds the outer products to the covariance -/
theorem profile_form (o e : Fin n → ℝ) :
    (∀ θ, lnCov (outer M L v)⁻¹ o e ≤ lnCov M⁻¹ o (e + shifts L v θ) + (L.map fun m => θ m ^ 2 / 2).sum) ∧
    ∃ θ, lnCov (outer M L v)⁻¹ o e = lnCov M⁻¹ o (e + shifts L v θ) + (L.map fun m => θ m ^ 2 / 2).sum := by
  have hM := posU M hp
  obtain ⟨hs', hp'⟩ := outer_pos M L v hs hp
  have hD := posU _ hp'
  set z := (outer M L v)⁻¹ *ᵥ (o - e) with hz
  have hr : o - e = M *ᵥ z + shifts L v fun m => v m ⬝ᵥ z := by
    rw [← outer_mulVec, hz, Matrix.mulVec_mulVec, Matrix.mul_nonsing_inv _ hD, Matrix.one_mulVec]
  have key : ∀ θ : String → ℝ, lnCov M⁻¹ o (e + shifts L v θ) + (L.map fun m => θ m ^ 2 / 2).sum = lnCov (outer M L v)⁻¹ o e +
      (1 / 2 * (shifts L v (fun m => θ m - v m ⬝ᵥ z) ⬝ᵥ (M⁻¹ *ᵥ shifts L v fun m => θ m - v m ⬝ᵥ z)) + (L.map fun m => (θ m - v m ⬝ᵥ z) ^ 2 / 2).sum) := by
    intro θ
    set u := shifts L v fun m => θ m - v m ⬝ᵥ z with hu
    have h1 : o - (e + shifts L v θ) = M *ᵥ z - u := by
      rw [← sub_sub, hr, hu]
      have h : shifts L v θ = shifts L v (fun m => θ m - v m ⬝ᵥ z) + shifts L v fun m => v m ⬝ᵥ z := by
        funext i
        show (L.map fun m => v m i * θ m).sum = (L.map fun m => v m i * (θ m - v m ⬝ᵥ z)).sum + (L.map fun m => v m i * (v m ⬝ᵥ z)).sum
        rw [← List.sum_map_add]
        congr 1
        exact List.map_congr_left fun m _ => by ring
      rw [h]
      abel
    unfold lnCov
    rw [h1, ← hz]
    have h2 : M⁻¹ *ᵥ (M *ᵥ z - u) = z - M⁻¹ *ᵥ u := by
      rw [Matrix.mulVec_sub, Matrix.mulVec_mulVec, Matrix.nonsing_inv_mul _ hM, Matrix.one_mulVec]
    have h3 : (M *ᵥ z) ⬝ᵥ (M⁻¹ *ᵥ u) = u ⬝ᵥ z := by
      rw [dotProduct_comm, dot_symm M hs, Matrix.mulVec_mulVec, Matrix.mul_nonsing_inv _ hM, Matrix.one_mulVec, dotProduct_comm]
    have h4 : u ⬝ᵥ z = (L.map fun m => (θ m - v m ⬝ᵥ z) * (v m ⬝ᵥ z)).sum := dot_shifts L v _ z
    have h5 : (o - e) ⬝ᵥ z = (M *ᵥ z) ⬝ᵥ z + (L.map fun m => (v m ⬝ᵥ z) * (v m ⬝ᵥ z)).sum := by
      rw [hr, add_dotProduct, dot_shifts]
    rw [h2, sub_dotProduct, dotProduct_sub, dotProduct_sub, h3, h4, h5]
    have h6 : (L.map fun m => θ m ^ 2 / 2).sum = (L.map fun m => (θ m - v m ⬝ᵥ z) ^ 2 / 2).sum + (L.map fun m => (θ m - v m ⬝ᵥ z) * (v m ⬝ᵥ z)).sum +
        1 / 2 * (L.map fun m => (v m ⬝ᵥ z) * (v m ⬝ᵥ z)).sum := by
      rw [← List.sum_map_mul_left, ← List.sum_map_add, ← List.sum_map_add]
      congr 1
      exact List.map_congr_left fun m _ => by ring
    rw [h6]
    ring
  constructor
  · intro θ
    rw [key θ]
    refine le_add_of_nonneg_right (add_nonneg (mul_nonneg (by norm_num) ?_) (sum_sq_nonneg _ _))
    set u := shifts L v fun m => θ m - v m ⬝ᵥ z
    have hw : u = M *ᵥ (M⁻¹ *ᵥ u) := by rw [Matrix.mulVec_mulVec, Matrix.mul_nonsing_inv _ hM, Matrix.one_mulVec]
    by_cases h0 : M⁻¹ *ᵥ u = 0
    · rw [h0, dotProduct_zero]
    · have := hp _ h0
      rw [← hw, dotProduct_comm] at this
      exact this.le
  · refine ⟨fun m => v m ⬝ᵥ z, ?_⟩
    rw [key]
    have h0 : shifts L v (fun m => v m ⬝ᵥ z - v m ⬝ᵥ z) = 0 := by
      funext i
      simp [shifts]
    rw [h0]
    simp

end

/-! ### the same calls with and without the covariance -/

theorem asks_profiled (op : Op ℝ) : Writer.Spec.asks (Writer.Spec.profiled op) = (Writer.Spec.asks op).map fun b => ⟨b.name, false, b.o⟩ := by
  cases op with
  | syst x name proc chan k mirror symm toCov diff o =>
    cases x with
    | single h => rfl
    | pair h h' =>
      show (if _ then _ else _) = List.map _ (if _ then _ else _)
      split_ifs <;> rfl
  | normSyst name procs chan unc toCov symm o => rfl
  | _ => rfl

theorem asked_profiled (ops : List (Op ℝ)) (b : Booking) : Writer.Spec.asked (ops.map Writer.Spec.profiled) b ↔
    ∃ b', Writer.Spec.asked ops b' ∧ b = ⟨b'.name, false, b'.o⟩ := by
  unfold Writer.Spec.asked
  constructor
  · rintro ⟨op, ho, hb⟩
    obtain ⟨op', ho', rfl⟩ := List.mem_map.1 ho
    rw [asks_profiled] at hb
    obtain ⟨b', h1, h2⟩ := List.mem_map.1 hb
    exact ⟨b', ⟨op', ho', h1⟩, h2.symm⟩
  · rintro ⟨b', ⟨op, ho, hb⟩, rfl⟩
    exact ⟨_, List.mem_map.2 ⟨op, ho, rfl⟩, by rw [asks_profiled]; exact List.mem_map.2 ⟨b', hb, rfl⟩⟩

theorem covariance_profiled (ops : List (Op ℝ)) : (ops.map Writer.Spec.profiled).filterMap Spec.covariance = ops.filterMap Spec.covariance := by
  rw [List.filterMap_map]
  refine List.filterMap_congr fun op _ => ?_
  cases op <;> rfl

theorem initRates_one (nproc : Nat) (xdef : List ℝ) (h : ∀ v ∈ xdef, v = 1) (b p : Nat) : (initRates nproc xdef).at b p = 1 := by
  unfold initRates ParamModels.muCompute
  split_ifs with h1
  · rfl
  · show (xdef ++ List.replicate (nproc - xdef.length) 1).getD p 1 = 1
    rw [List.getD_eq_getElem?_getD]
    cases h2 : (xdef ++ List.replicate (nproc - xdef.length) (1 : ℝ))[p]? with
    | none => rfl
    | some v =>
      rcases List.mem_append.1 (List.mem_of_getElem? h2) with h3 | h3
      · exact h v h3
      · exact List.eq_of_mem_replicate h3

/-! ### the loss -/

/-- whether some call asks for the nuisance with a constraint -/
def isCon (ops : List (Op ℝ)) (m : String) : Prop := ∃ b, Writer.Spec.asked ops b ∧ b.name = m ∧ b.o.constrained = true

open Classical in
/-- the constraint of a nuisance -/
def pull (ops : List (Op ℝ)) (θ : String → ℝ) (m : String) : ℝ := if isCon ops m then θ m ^ 2 / 2 else 0

section
variable {cfg : Writer.Cfg ℝ} {ops : List (Op ℝ)} {iter : List String → List String} {t : Tensor ℝ}
  (F : Writer.Spec.file cfg ops iter t) (hit : ∀ l, (iter l).Perm l) (hcon : Writer.Spec.consistent ops)
include F hit hcon

/-- the loss of a covariance fit to the file from its yields -/
theorem cov_loss_of (st : SystType) (hst : cfg.systType = st) (xdef : List ℝ) (neg : Bool)
    (K : List (Op ℝ)) (hK : ∀ b, Writer.Spec.asked ops b → b.toCov = false → (isCon K b.name ↔ b.o.constrained = true))
    (W : Matrix (Fin t.nbins) (Fin t.nbins) ℝ) (x : Fin (ofFile t st xdef neg).n → ℝ) :
    ∃ (r : Yields.Rates) (nexp : Nat → ℝ) (y : Nat → Nat → ℝ),
      Fitter.loss { ofFile t st xdef neg with fit := .covariance, W := W } x =
        .ok (some (lnCov W (fun b => real (t.dataObs b)) (fun b => nexp b) + (t.systs.map (pull K (Spec.nuisance t (List.ofFn x)))).sum)) ∧
      t.yields cfg.systType false (ofFile t st xdef neg).model.nparams (ofFile t st xdef neg).rinit r ((ofFile t st xdef neg).theta x) = .ok (nexp, y) ∧
      (∀ g p proc, t.procs[p]? = some proc → r.at g p = if proc ∈ t.signals then Spec.strength t neg (List.ofFn x) proc else 1) ∧
      ∀ b, nexp b = ∑ p ∈ range t.procs.length, y b p := by
  obtain ⟨r, nexp, y, h1, h2, h3⟩ := fit_yields F st hst xdef neg x
  refine ⟨r, nexp, y, ?_, h2, h3, ?_⟩
  · have hl := loss_of (G := { ofFile t st xdef neg with fit := .covariance, W := W }) (x := x) (nexp' := nexp) (lb := none) (ps := []) h1 rfl rfl
    rw [hl]
    have hc := fit_constraints F hit hcon st xdef neg x
    have hw : ∑ j ∈ range t.systs.length, t.weights.getD j 0 * (1 / 2) * (Spec.nuisance t (List.ofFn x) (t.systs.getD j "")) ^ 2 =
        (t.systs.map (pull K (Spec.nuisance t (List.ofFn x)))).sum := by
      rw [← sum_names]
      refine sum_congr rfl fun j hj => ?_
      have hj' := mem_range.1 hj
      have hget : t.systs[j]? = some (t.systs.getD j "") := by
        rw [List.getD_eq_getElem?_getD, List.getElem?_eq_getElem hj']; rfl
      obtain ⟨⟨b, hb1, hb2, hb3⟩, hb4⟩ := (c05_weights_partial cfg ops iter hit t F.written hcon).2.2.2 j _ hget
      have hw := hb4 b hb1 hb2 hb3
      have hcb := hK b hb1 hb3
      rw [hb2] at hcb
      unfold pull
      rw [List.getD_eq_getElem?_getD, hw, Option.getD_some]
      by_cases h : b.o.constrained = true
      · rw [if_pos h, if_pos (hcb.2 h)]; ring
      · rw [if_neg h, if_neg fun h' => h (hcb.1 h')]; ring
    rw [hw] at hc
    have e1 : (Regularization.penaltyTerm (ofFile t st xdef neg).tau2 []).getD 0 = 0 := penaltyTerm_zero _ 0
    have e2 : (Ext.computeExternal (ofFile t st xdef neg).ext (List.ofFn x)).getD 0 = 0 := rfl
    congr 2
    show Fitter.ln _ nexp + lc false (ofFile t st xdef neg).cw (ofFile t st xdef neg).x0
        (getX (ofFile t st xdef neg).cfg (ofFile t st xdef neg).mask (ofFile t st xdef neg).off x x) + 0 +
        (Regularization.penaltyTerm (ofFile t st xdef neg).tau2 []).getD 0 + (Ext.computeExternal (ofFile t st xdef neg).ext (List.ofFn x)).getD 0 = _
    rw [e1, e2, hc]
    show lnCov W (fun b : Fin t.nbins => real (t.dataObs b)) (fun b : Fin t.nbins => nexp b) + _ + 0 + 0 + 0 = _
    ring
  · obtain ⟨norm, logk, hb, _⟩ := c07_dense_written cfg F.dense ops F.fresh iter t F.written
    have hy := h2
    unfold Tensor.yields at hy
    rw [hb] at hy
    dsimp only at hy
    unfold Yields.Dense.compute at hy
    split at hy
    swap
    · cases hy
    cases hy
    exact fun b => rfl

end

/-- what a nuisance adds to a cell -/
def term (sym : Bool) (s : State ℝ) (chan proc m : String) (i : Nat) (θ : ℝ) : ℝ :=
  varAt s false chan proc m i * θ + if sym then 0 else varAt s true chan proc m i * (θ * Interp.alpha θ)

section
variable {cfg : Writer.Cfg ℝ} {ops : List (Op ℝ)} {iter : List String → List String} {t : Tensor ℝ}
  (F : Writer.Spec.file cfg ops iter t) (hst : cfg.systType = .normal)
include F hst

theorem normal_cell {chan proc : String} {i g p : Nat} (hc : Writer.Spec.cellAt t chan proc i g p) (full : Bool) (nparams : Nat)
    (rinit r : Yields.Rates) (ρ : ℝ) (h1 : rinit.at g p = ρ) (hnp : nparams ≠ 0 ∨ ρ = 1) (θ : Nat → ℝ) (n : Nat → ℝ) (y : Nat → Nat → ℝ)
    (hy : t.yields cfg.systType full nparams rinit r θ = .ok (n, y)) :
    y g p = t.sumw g p * r.at g p + ρ * varSum t (run cfg ops) chan proc i θ := by
  set r1 : Yields.Rates := ⟨1, fun _ _ => ρ⟩ with hr1
  obtain ⟨n1, y1, hy1⟩ := F.yields_ok full nparams rinit r1 rfl θ
  have hcell := F.cell hc full nparams rinit r1 (.inr (by
    rcases hnp with h | h
    · rw [if_neg h, h1]; rfl
    · rw [h1, h, ite_self]; exact h)) θ n1 y1 hy1
  unfold predicted at hcell
  rw [if_neg (by rw [hst]; exact SystType.noConfusion)] at hcell
  have hat : r1.at g p = ρ := rfl
  rw [hat] at hcell
  obtain ⟨a, e, hR, hi, rfl, hp⟩ := hc
  obtain ⟨_, htile, _, hsumw, _, hnorm⟩ := c02_layout_partial cfg ops F.fresh iter t F.written F.csr
  obtain ⟨norm, logk, hb, hlogk⟩ := c07_dense_written cfg F.dense ops F.fresh iter t F.written
  have hn := hnorm norm logk hb
  have hg : a + i < t.nbinsfull := by
    have := tiles_le htile (a, e) (List.mem_map.2 ⟨_, hR, rfl⟩)
    simp only at this; omega
  have hpl : p < t.procs.length := (List.getElem?_eq_some_iff.1 hp).1
  have hl : (t.shape cfg.systType).logNormal = false := by rw [hst]; rfl
  have hx : (readDense t norm logk).norm (a + i) p = t.sumw (a + i) p := by
    show (if a + i < t.nbinsfull ∧ p < t.procs.length then norm (a + i) p else 0) = _
    rw [if_pos ⟨hg, hpl⟩, hn]
  have hform : ∀ {r : Yields.Rates} {n y}, t.yields cfg.systType full nparams rinit r θ = .ok (n, y) →
      y (a + i) p = t.sumw (a + i) p * r.at (a + i) p + ((readDense t norm logk).scaled (t.shape cfg.systType) nparams rinit).logsnorm (t.shape cfg.systType) θ (a + i) p := by
    intro r n y hy
    unfold Tensor.yields at hy
    rw [hb] at hy
    dsimp only at hy
    unfold Yields.Dense.compute at hy
    split at hy
    swap
    · cases hy
    cases hy
    show ((readDense t norm logk).scaled (t.shape cfg.systType) nparams rinit).yield (t.shape cfg.systType) r θ (a + i) p = _
    unfold Yields.Dense.yield
    rw [if_neg (by rw [hl]; decide)]
    congr 2
    rw [← hx]
    unfold Yields.Dense.scaled
    split_ifs <;> rfl
  have e1 := hform hy
  have e2 := hform hy1
  rw [hat, hcell] at e2
  rw [e1]
  linarith

variable (hit : ∀ l, (iter l).Perm l) (hcon : Writer.Spec.consistent ops) (xdef : List ℝ) (ρ : ℝ)
  (hρ : ∀ b, ∀ p < t.procs.length, (initRates t.procs.length xdef).at b p = ρ) (hnp : t.signals ≠ [] ∨ ρ = 1) (neg : Bool)
include hit hcon hρ hnp

/-- the loss of a covariance fit to the file -/
theorem cov_loss (K : List (Op ℝ)) (hK : ∀ b, Writer.Spec.asked ops b → b.toCov = false → (isCon K b.name ↔ b.o.constrained = true))
    (W : Matrix (Fin t.nbins) (Fin t.nbins) ℝ) (x : Fin (ofFile t .normal xdef neg).n → ℝ) :
    ∃ nexp : Nat → ℝ,
      Fitter.loss { ofFile t .normal xdef neg with fit := .covariance, W := W } x =
        .ok (some (lnCov W (fun b => real (t.dataObs b)) (fun b => nexp b) + (t.systs.map (pull K (Spec.nuisance t (List.ofFn x)))).sum)) ∧
      ∀ c a e, (c, a, e) ∈ readerFrom 0 t.channelInfo → ∀ i < e - a,
        nexp (a + i) = ∑ p ∈ range t.procs.length, t.sumw (a + i) p * (if t.procs.getD p "" ∈ t.signals then Spec.strength t neg (List.ofFn x) (t.procs.getD p "") else 1) +
          ρ * (t.systs.map fun m => (t.procs.map fun q => term t.symmetric (run cfg ops) c q m i (Spec.nuisance t (List.ofFn x) m)).sum).sum := by
  obtain ⟨r, nexp, y, h1, h2, h3, hsum⟩ := cov_loss_of F hit hcon .normal hst xdef neg K hK W x
  have hnd := (c05_weights_partial cfg ops iter hit t F.written hcon).1
  have hθ : ∀ j < t.systs.length, (ofFile t .normal xdef neg).theta x j = Spec.nuisance t (List.ofFn x) (t.systs.getD j "") := by
    intro j hj
    have := theta_at .normal xdef neg hnd x j hj
    rw [← this]
    exact dif_pos hj
  refine ⟨nexp, h1, ?_⟩
  intro c a e hR i hi
  have hcell : ∀ p ∈ range t.procs.length, y (a + i) p = t.sumw (a + i) p * (if t.procs.getD p "" ∈ t.signals then Spec.strength t neg (List.ofFn x) (t.procs.getD p "") else 1) +
      ρ * ∑ j ∈ range t.systs.length, term t.symmetric (run cfg ops) c (t.procs.getD p "") (t.systs.getD j "") i (Spec.nuisance t (List.ofFn x) (t.systs.getD j "")) := by
    intro p hp
    have hp' := mem_range.1 hp
    have hget : t.procs[p]? = some (t.procs.getD p "") := by
      rw [List.getD_eq_getElem?_getD, List.getElem?_eq_getElem hp']; rfl
    rw [normal_cell F hst ⟨a, e, hR, hi, rfl, hget⟩ false _ _ r ρ (hρ _ p hp') (hnp.imp (fun h h0 => h (List.length_eq_zero_iff.1 h0)) id) _ nexp y h2, h3 _ _ _ hget]
    congr 2
    exact sum_congr rfl fun j hj => by rw [hθ j (mem_range.1 hj)]; rfl
  rw [hsum, sum_congr rfl hcell, sum_add_distrib]
  congr 1
  rw [← mul_sum, sum_comm, ← sum_names]
  congr 1
  refine sum_congr rfl fun j _ => ?_
  rw [← sum_names]

end

theorem tiles_cover : ∀ {l : List (String × Nat × Nat)} {k N : Nat}, Writer.Spec.tiles k (l.map (·.2)) N → ∀ b, k ≤ b → b < N →
    ∃ c a e i, (c, a, e) ∈ l ∧ i < e - a ∧ b = a + i := by
  intro l
  induction l with
  | nil => intro k N h b h1 h2; have : k = N := h; omega
  | cons y l ih =>
    obtain ⟨c, a, e⟩ := y
    intro k N h b h1 h2
    obtain ⟨h3, h4, h5⟩ := h
    have h3' : a = k := h3
    have h4' : a ≤ e := h4
    by_cases hb : b < e
    · exact ⟨c, a, e, b - a, List.mem_cons_self, by omega, by omega⟩
    · obtain ⟨c', a', e', i, h6, h7, h8⟩ := ih h5 b (show e ≤ b by omega) h2
      exact ⟨c', a', e', i, List.mem_cons_of_mem _ h6, h7, h8⟩

/-! ### two files -/

theorem lnCov_congr {n n' : Nat} (h : n = n') (C : Nat → Nat → ℝ) (o e : Nat → ℝ) :
    lnCov (Matrix.of fun b b' : Fin n => C b b')⁻¹ (fun b : Fin n => o b) (fun b : Fin n => e b) =
      lnCov (Matrix.of fun b b' : Fin n' => C b b')⁻¹ (fun b : Fin n' => o b) (fun b : Fin n' => e b) := by
  subst h; rfl

/-- a point of the fit with given signal parameters and nuisances -/
def point (t : Tensor ℝ) (sig : Nat → ℝ) (θ : String → ℝ) (n : Nat) : Fin n → ℝ :=
  fun k => if (k : Nat) < t.signals.length then sig k else θ (t.systs.getD (k - t.signals.length) "")

theorem point_signal (t : Tensor ℝ) (sig : Nat → ℝ) (θ : String → ℝ) (xdef : List ℝ) (neg : Bool) {p : String} (hp : p ∈ t.signals) :
    (List.ofFn (point t sig θ (ofFile t .normal xdef neg).n)).getD (t.signals.idxOf p) 0 = sig (t.signals.idxOf p) := by
  have hl := List.idxOf_lt_length_iff.2 hp
  have hn : t.signals.idxOf p < (ofFile t .normal xdef neg).n := by
    show _ < t.signals.length + 0 + t.systs.length
    omega
  rw [List.getD_eq_getElem?_getD, List.getElem?_ofFn, dif_pos hn]
  exact if_pos hl

theorem point_nuisance (t : Tensor ℝ) (sig : Nat → ℝ) (θ : String → ℝ) (xdef : List ℝ) (neg : Bool) {m : String} (hm : m ∈ t.systs) :
    Spec.nuisance t (List.ofFn (point t sig θ (ofFile t .normal xdef neg).n)) m = θ m := by
  have hl := List.idxOf_lt_length_iff.2 hm
  have hn : t.signals.length + t.systs.idxOf m < (ofFile t .normal xdef neg).n := by
    show _ < t.signals.length + 0 + t.systs.length
    omega
  unfold Spec.nuisance
  rw [List.getD_eq_getElem?_getD, List.getElem?_ofFn, dif_pos hn]
  show (if t.signals.length + t.systs.idxOf m < t.signals.length then _ else θ (t.systs.getD (t.signals.length + t.systs.idxOf m - t.signals.length) "")) = _
  rw [if_neg (by omega), Nat.add_sub_cancel_left, List.getD_eq_getElem?_getD, List.getElem?_eq_getElem hl, Option.getD_some, List.getElem_idxOf]

section
variable {cfg : Writer.Cfg ℝ} {ops : List (Op ℝ)} {iter : List String → List String} {t : Tensor ℝ}

/-- the nuisances of a file -/
theorem mem_systs (F : Writer.Spec.file cfg ops iter t) (hok : Writer.Spec.allOk cfg {} ops) (hit : ∀ l, (iter l).Perm l) (hcon : Writer.Spec.consistent ops) (m : String) :
    m ∈ t.systs ↔ ∃ b, Writer.Spec.asked ops b ∧ b.name = m ∧ b.toCov = false := by
  obtain ⟨h1, _, h3, h4⟩ := c05_weights_partial cfg ops iter hit t F.written hcon
  constructor
  · intro hm
    obtain ⟨j, hj⟩ := List.mem_iff_getElem?.1 hm
    exact (h4 j m hj).1
  · rintro ⟨b, ⟨op, ho, hb⟩, rfl, hb2⟩
    obtain ⟨l, r, e⟩ := List.append_of_mem ho
    have hok' := hok
    rw [e] at hok'
    exact h3 b ⟨l, op, r, e, hb, allOk_mid hok'⟩ hb2

/-- the nuisances of the covariance -/
theorem mem_cov (hok : Writer.Spec.allOk cfg {} ops) (m : String) :
    m ∈ (run cfg ops).covariance ↔ ∃ b, Writer.Spec.asked ops b ∧ b.name = m ∧ b.toCov = true := by
  obtain ⟨bs, B, h1, h2⟩ := bkSpec_run cfg ops
  rw [show m ∈ (run cfg ops).covariance ↔ _ from B.covariance m]
  constructor
  · rintro ⟨b, hb, e1, e2⟩
    exact ⟨b, (h1 b hb).1, e1, e2⟩
  · rintro ⟨b, ⟨op, ho, hb⟩, e1, e2⟩
    obtain ⟨l, r, e⟩ := List.append_of_mem ho
    have hok' := hok
    rw [e] at hok'
    exact ⟨b, h2 b ⟨l, op, r, e, hb, allOk_mid hok'⟩, e1, e2⟩

/-- with a covariance given one is written -/
theorem fullCov_some (F : Writer.Spec.file cfg ops iter t) {C : Cov ℝ} (hC : (run cfg ops).dataCov = some C) :
    ∃ D, t.fullCov = some D := by
  obtain ⟨lay, cells, W⟩ := write_ok F.written
  obtain ⟨c, s', g1, g2, _⟩ := W.cov
  unfold initCov at g1
  rw [hC] at g1
  simp only [Option.isNone_some, Bool.false_and, Bool.false_eq_true, if_false] at g1
  rw [← Except.ok.inj g1] at g2
  unfold writeCov at g2
  obtain ⟨s1, c1, hl, g2⟩ := M.bind_ok g2
  obtain ⟨full, hfull, g2⟩ := M.lift_bind_ok g2
  exact ⟨full, (Except.ok.inj (Prod.mk.inj g2).2).symm⟩

theorem contrib_varAt (F : Writer.Spec.file cfg ops iter t) (chan m : String) (i : Nat) (p : String) :
    Writer.Spec.contrib (run cfg ops) chan m i p = varAt (run cfg ops) false chan p m i := by
  unfold Writer.Spec.contrib varAt Writer.Spec.bookedVar
  cases h : Writer.Spec.at3 (run cfg ops).logkavg chan p m with
  | none => cases Writer.Spec.at2 (run cfg ops).norm chan p <;> rfl
  | some e =>
    obtain ⟨h1, h2, l, rfl⟩ := (dense_tables cfg F.dense ops).avg _ _ _ _ h
    rw [h2]
    rfl

end

theorem ofFileCov_some {t : Tensor ℝ} {C : Cov ℝ} (h : t.fullCov = some C) (hn : C.n = t.nbins) {X : Matrix (Fin t.nbins) (Fin t.nbins) ℝ}
    (hX : (Matrix.of fun b b' : Fin t.nbins => C.val b b') = X) (st : SystType) (xdef : List ℝ) (neg : Bool) :
    ofFileCov t st xdef neg = .ok { ofFile t st xdef neg with fit := .covariance, W := X⁻¹ } := by
  subst hX
  unfold ofFileCov
  rw [h]
  dsimp only
  rw [if_pos hn]
  rfl

theorem cellsOf_same {s s' : State ℝ} (h : SameTables s s') (procs : List String) (lay : List Slot) : cellsOf s' procs lay = cellsOf s procs lay := by
  obtain ⟨a, b, c, d, e, rfl⟩ := h
  induction lay with
  | nil => rfl
  | cons sl lay ih =>
    unfold cellsOf
    rw [ih]
    rfl

theorem isCon_iff {ops : List (Op ℝ)} (hset : Spec.settled ops) {b : Booking} (hb : Writer.Spec.asked ops b) : isCon ops b.name ↔ b.o.constrained = true := by
  constructor
  · rintro ⟨b', h1, h2, h3⟩
    rw [(hset.1 b b' hb h1 h2.symm).2, h3]
  · exact fun h => ⟨b, hb, rfl, h⟩

section
variable {cfg : Writer.Cfg ℝ} {ops : List (Op ℝ)} {iter iter' : List String → List String} {t t' : Tensor ℝ}
  (F : Writer.Spec.file cfg ops iter t) (F' : Writer.Spec.file cfg (ops.map Writer.Spec.profiled) iter' t')
  (hok : Writer.Spec.allOk cfg {} ops) (hst : cfg.systType = .normal) (hw : ∀ it, Op.write it ∉ ops)
include F F' hok hst hw

/-- what the two files have in common -/
theorem same_files : t'.procs = t.procs ∧ t'.nbins = t.nbins ∧ t'.nbinsfull = t.nbinsfull ∧ t'.sumw = t.sumw ∧ t'.dataObs = t.dataObs ∧
    t'.signals = t.signals ∧ t'.channelInfo = t.channelInfo ∧ t'.symmetric = t.symmetric ∧ Writer.Spec.allOk cfg {} (ops.map Writer.Spec.profiled) ∧
    ∀ half c p m i, varAt (run cfg (ops.map Writer.Spec.profiled)) half c p m i = varAt (run cfg ops) half c p m i := by
  obtain ⟨hsame, hok'⟩ := follows_run hst ops hw {} {} ⟨_, _, _, _, _, rfl⟩ hok
  obtain ⟨lay, cells, W⟩ := write_ok F.written
  obtain ⟨lay', cells', W'⟩ := write_ok F'.written
  have hsame' : SameTables (run cfg ops) (run cfg (ops.map Writer.Spec.profiled)) := hsame
  obtain ⟨w1, w2, w3, w4, w5, w6, _, w7, _, _, _, _, _, _, _, w8, _, _, w9, w10⟩ := W.toWritten0
  obtain ⟨v1, v2, v3, v4, v5, v6, _, v7, _, _, _, _, _, _, _, v8, _, _, v9, v10⟩ := W'.toWritten0
  generalize run cfg (ops.map Writer.Spec.profiled) = s' at hsame' v1 v2 v3 v4 v5 v6 v7 v8 v9 v10
  generalize run cfg ops = s at hsame' w1 w2 w3 w4 w5 w6 w7 w8 w9 w10
  obtain ⟨a, b, c, d, e, rfl⟩ := hsame'
  have e1 : t'.procs = t.procs := Except.ok.inj (v1.symm.trans w1)
  have e2 : t'.nbins = t.nbins := Except.ok.inj (v2.symm.trans w2)
  have e3 : t'.nbinsfull = t.nbinsfull := v3.trans w3.symm
  have e4 : lay' = lay := Except.ok.inj (v4.symm.trans w4)
  subst e4
  rw [e1, cellsOf_same ⟨a, b, c, d, e, rfl⟩] at v5
  have e5 : cells' = cells := Except.ok.inj (v5.symm.trans w5)
  subst e5
  rw [e3] at v6
  rw [e2] at v7
  exact ⟨e1, e2, e3, Except.ok.inj (v6.symm.trans w6), Except.ok.inj (v7.symm.trans w7), v8.trans w8.symm, v9.trans w9.symm, v10.trans w10.symm, hok', fun _ _ _ _ _ => rfl⟩

variable (hbb : cfg.addBBB = false) (hit : ∀ l, (iter l).Perm l) (hit' : ∀ l, (iter' l).Perm l) (hset : Spec.settled ops)
  (hfull : t.nbins = t.nbinsfull) (C : Cov ℝ) (hC : (ops.filterMap Spec.covariance).getLast? = some C) (hn : C.n = t.nbins) (hpos : Spec.positive C)
  (xdef : List ℝ) (hdef : ∀ v ∈ xdef, v = 1) (neg : Bool)
include hbb hit hit' hset hfull hC hn hpos hdef

theorem files_aux : ∃ (W : Matrix (Fin t.nbins) (Fin t.nbins) ℝ) (W' : Matrix (Fin t'.nbins) (Fin t'.nbins) ℝ)
    (M : Matrix (Fin t.nbins) (Fin t.nbins) ℝ) (L : List String) (v : String → Fin t.nbins → ℝ),
    ofFileCov t .normal xdef neg = .ok { ofFile t .normal xdef neg with fit := .covariance, W := W } ∧
    ofFileCov t' .normal xdef neg = .ok { ofFile t' .normal xdef neg with fit := .covariance, W := W' } ∧
    Mᵀ = M ∧ (∀ x, x ≠ 0 → 0 < x ⬝ᵥ (M *ᵥ x)) ∧ (∀ m ∈ L, m ∉ t.systs) ∧ t'.systs.Perm (t.systs ++ L) ∧ t'.signals = t.signals ∧
    ∀ x, ∃ (o e : Fin t.nbins → ℝ) (k : ℝ),
      Fitter.loss { ofFile t .normal xdef neg with fit := .covariance, W := W } x = .ok (some (lnCov (outer M L v)⁻¹ o e + k)) ∧
      ∀ x', Spec.agree t t' (List.ofFn x) (List.ofFn x') → Fitter.loss { ofFile t' .normal xdef neg with fit := .covariance, W := W' } x' =
        .ok (some (lnCov M⁻¹ o (e + shifts L v (Spec.nuisance t' (List.ofFn x'))) + (L.map fun m => Spec.nuisance t' (List.ofFn x') m ^ 2 / 2).sum + k)) := by
  obtain ⟨e1, e2, e3, e4, e5, e6, e7, e8, hok', hvar⟩ := same_files F F' hok hst hw
  have hcon : Writer.Spec.consistent ops := fun b b' h h' hn _ _ => (hset.1 b b' h h' hn).2
  have hcon' : Writer.Spec.consistent (ops.map Writer.Spec.profiled) := by
    intro b b' h h' hn _ _
    obtain ⟨b1, h1, rfl⟩ := (asked_profiled ops b).1 h
    obtain ⟨b2, h2, rfl⟩ := (asked_profiled ops b').1 h'
    exact (hset.1 b1 b2 h1 h2 hn).2
  have hw' : ∀ it, Op.write it ∉ ops.map Writer.Spec.profiled := by
    intro it h
    obtain ⟨op, ho, h1⟩ := List.mem_map.1 h
    cases op with
    | write it' => exact hw it' ho
    | _ => cases h1
  have hcovOf : (Spec.covariance : Op ℝ → _) = covOf := by
    funext op
    cases op <;> rfl
  have hdc : (run cfg ops).dataCov = some C := by
    have := dataCov_last (cfg := cfg) ops hw {}
    rw [← hcovOf, hC] at this
    exact this
  have hC' : t'.fullCov = some C := by
    rw [fullCov_eq F' hbb hw' hit' (fun b hb => by obtain ⟨b', _, rfl⟩ := (asked_profiled ops b).1 hb; rfl), covariance_profiled, hC]
  obtain ⟨D, hD⟩ := fullCov_some F hdc
  obtain ⟨base, hbase, hsum⟩ := c16_cov_partial cfg F.dense hbb ops F.fresh iter hit t F.written D hD
  have hb : base = C := by
    rcases hbase with h | h
    · rw [hdc] at h; exact (Option.some.inj h).symm
    · rw [hdc] at h; cases h.1
  subst hb
  obtain ⟨v, hv, hDn, hval⟩ := hsum (hn.trans hfull)
  set L := (run cfg ops).covariance with hL
  have hLnd : L.Nodup := by
    obtain ⟨bs, B, _⟩ := bkSpec_run cfg ops
    exact B.nodup.2.2.2.1
  have hdisj : ∀ m ∈ L, m ∉ t.systs := by
    intro m h1 h2
    obtain ⟨b, g1, g2, g3⟩ := (mem_cov hok m).1 h1
    obtain ⟨b', g4, g5, g6⟩ := (mem_systs F hok hit hcon m).1 h2
    have := (hset.1 b b' g1 g4 (g2.trans g5.symm)).1
    rw [g3, g6] at this
    cases this
  have hnd := (c05_weights_partial cfg ops iter hit t F.written hcon).1
  have hnd' := (c05_weights_partial cfg _ iter' hit' t' F'.written hcon').1
  have hperm : t'.systs.Perm (t.systs ++ L) := by
    refine (List.perm_ext_iff_of_nodup hnd' (List.nodup_append.2 ⟨hnd, hLnd, fun a ha b hb h => hdisj b hb (h ▸ ha)⟩)).2 fun m => ?_
    rw [List.mem_append, mem_systs F' hok' hit' hcon', mem_systs F hok hit hcon, hL, mem_cov hok]
    constructor
    · rintro ⟨b, h1, h2, _⟩
      obtain ⟨b', h3, rfl⟩ := (asked_profiled ops b).1 h1
      cases hc : b'.toCov with
      | false => exact .inl ⟨b', h3, h2, hc⟩
      | true => exact .inr ⟨b', h3, h2, hc⟩
    · rintro (⟨b, h1, h2, _⟩ | ⟨b, h1, h2, _⟩)
      · exact ⟨_, (asked_profiled ops _).2 ⟨b, h1, rfl⟩, h2, rfl⟩
      · exact ⟨_, (asked_profiled ops _).2 ⟨b, h1, rfl⟩, h2, rfl⟩
  have hhalf : ∀ m ∈ L, ∀ c q i, varAt (run cfg ops) true c q m i = 0 := by
    intro m hm c q i
    obtain ⟨b, g1, g2, g3⟩ := (mem_cov hok m).1 hm
    unfold varAt Writer.Spec.bookedVar
    cases h : Writer.Spec.at3 (run cfg ops).logkhalf c q m with
    | none => cases Writer.Spec.at3 (run cfg ops).logkavg c q m <;> rfl
    | some e =>
      obtain ⟨b', g4, g5, g6⟩ := halves_run cfg ops h
      have := (hset.1 b b' g1 g4 (g2.trans g5.symm)).1
      rw [g3, g6] at this
      cases this
  set M : Matrix (Fin t.nbins) (Fin t.nbins) ℝ := Matrix.of fun b b' => base.val b b' with hM
  have hMs : Mᵀ = M := by
    ext i j
    exact hpos.1 j (by rw [hn]; exact j.2) i (by rw [hn]; exact i.2)
  have hMp : ∀ x, x ≠ 0 → 0 < x ⬝ᵥ (M *ᵥ x) := by
    intro x hx
    obtain ⟨i, hi⟩ := Function.ne_iff.1 hx
    have h := hpos.2 (fun k => if h : k < t.nbins then x ⟨k, h⟩ else 0) ⟨i, by rw [hn]; exact i.2, by rw [dif_pos i.2]; exact hi⟩
    rw [hn, ← Fin.sum_univ_eq_sum_range (fun i => ∑ j ∈ range t.nbins, (if h : i < t.nbins then x ⟨i, h⟩ else 0) * base.val i j * (if h : j < t.nbins then x ⟨j, h⟩ else 0))] at h
    refine h.trans_eq (sum_congr rfl fun i _ => ?_)
    show _ = x i * ∑ j, M i j * x j
    rw [← Fin.sum_univ_eq_sum_range (fun j => (if h : (i : Nat) < t.nbins then x ⟨i, h⟩ else 0) * base.val i j * (if h : j < t.nbins then x ⟨j, h⟩ else 0)), mul_sum]
    refine sum_congr rfl fun j _ => ?_
    rw [dif_pos i.2, dif_pos j.2]
    exact mul_assoc _ _ _
  have hW : (Matrix.of fun b b' : Fin t.nbins => D.val b b') = outer M L fun m b => v m b := by
    ext i j
    exact hval i j
  refine ⟨(outer M L fun m b => v m b)⁻¹, (Matrix.of fun b b' : Fin t'.nbins => base.val b b')⁻¹, M, L, fun m b => v m b, ?_, ?_, hMs, hMp, hdisj, hperm, e6, fun x => ?_⟩
  · exact ofFileCov_some hD (by rw [hDn, hfull]) hW _ _ _
  · exact ofFileCov_some hC' (by rw [hn, e2]) rfl _ _ _
  · obtain ⟨nexp, h1, h2⟩ := cov_loss F hst hit hcon xdef 1 (fun b p _ => initRates_one t.procs.length xdef hdef b p) (.inr rfl) neg ops (fun b hb _ => isCon_iff hset hb) (outer M L fun m b => v m b)⁻¹ x
    refine ⟨fun b => real (t.dataObs b), fun b => nexp b, _, h1, fun x' hx' => ?_⟩
    obtain ⟨nexp', h1', h2'⟩ := cov_loss F' hst hit' hcon' xdef 1 (fun b p _ => initRates_one t'.procs.length xdef hdef b p) (.inr rfl) neg ops (fun b hb _ => by
      obtain ⟨b', h3, rfl⟩ := (asked_profiled ops b).1 hb
      exact isCon_iff (b := b') hset h3) (Matrix.of fun b b' : Fin t'.nbins => base.val b b')⁻¹ x'
    refine h1'.trans ?_
    congr 2
    set θ' := Spec.nuisance t' (List.ofFn x') with hθ'
    have hpull : (t'.systs.map (pull ops θ')).sum = (t.systs.map (pull ops (Spec.nuisance t (List.ofFn x)))).sum + (L.map fun m => θ' m ^ 2 / 2).sum := by
      rw [(hperm.map _).sum_eq, List.map_append, List.sum_append]
      congr 1
      · congr 1
        refine List.map_congr_left fun m hm => ?_
        unfold pull
        rw [hx'.2 m hm]
      · congr 1
        refine List.map_congr_left fun m hm => ?_
        obtain ⟨b, g1, rfl, g3⟩ := (mem_cov hok m).1 hm
        exact if_pos ((isCon_iff hset g1).2 (hset.2 b g1 g3))
    have hne : ∀ b : Fin t.nbins, nexp' b = nexp b + shifts L (fun m b => v m b) θ' b := by
      intro b
      obtain ⟨_, htile, _⟩ := c02_layout_partial cfg ops F.fresh iter t F.written F.csr
      obtain ⟨c, a, e, i, hR, hi, hbi⟩ := tiles_cover htile b (Nat.zero_le _) (by have := b.2; omega)
      have g1 := h2 c a e hR i hi
      have g2 := h2' c a e (by rw [e7]; exact hR) i hi
      unfold shifts
      rw [hbi, g1, g2, e1, e4, one_mul, one_mul, add_assoc]
      congr 1
      · refine sum_congr rfl fun p _ => ?_
        rw [e6]
        split_ifs with hs
        · unfold Spec.strength
          have := hx'.1 _ hs
          rw [this]
        · rfl
      · rw [(hperm.map _).sum_eq, List.map_append, List.sum_append]
        congr 1
        · congr 1
          refine List.map_congr_left fun m hm => ?_
          congr 1
          refine List.map_congr_left fun q _ => ?_
          unfold term
          rw [hx'.2 m hm, e8, hvar false c q m i, hvar true c q m i]
        · congr 1
          refine List.map_congr_left fun m hm => ?_
          show _ = v m b * θ' m
          rw [hbi, hv m hm c a e hR i hi, ← List.sum_map_mul_right]
          congr 1
          refine List.map_congr_left fun q _ => ?_
          unfold term
          rw [hvar false c q m i, hvar true c q m i, contrib_varAt F, hhalf m hm, zero_mul, ite_self, add_zero]
    rw [hpull, lnCov_congr e2 base.val (fun b => real (t'.dataObs b)) nexp', e5]
    have hfun : (fun b : Fin t.nbins => nexp' b) = (fun b : Fin t.nbins => nexp b) + shifts L (fun m b => v m b) θ' := funext hne
    rw [hfun]
    show lnCov M⁻¹ _ _ + _ = _
    ring

end

theorem profile_aux (cfg : Writer.Cfg ℝ) (ops : List (Op ℝ)) (iter iter' : List String → List String) (t t' : Tensor ℝ)
    (F : Writer.Spec.file cfg ops iter t) (F' : Writer.Spec.file cfg (ops.map Writer.Spec.profiled) iter' t')
    (hok : Writer.Spec.allOk cfg {} ops) (hst : cfg.systType = .normal) (hw : ∀ it, Op.write it ∉ ops)
    (hbb : cfg.addBBB = false) (hit : ∀ l, (iter l).Perm l) (hit' : ∀ l, (iter' l).Perm l) (hset : Spec.settled ops)
    (hfull : t.nbins = t.nbinsfull) (C : Cov ℝ) (hC : (ops.filterMap Spec.covariance).getLast? = some C) (hn : C.n = t.nbins) (hpos : Spec.positive C)
    (xdef : List ℝ) (hdef : ∀ v ∈ xdef, v = 1) (neg : Bool) :
    ∃ G G', ofFileCov t .normal xdef neg = .ok G ∧ ofFileCov t' .normal xdef neg = .ok G' ∧ (∀ x, ∃ w, G.loss x = .ok (some w) ∧
      IsLeast {w | ∃ x', Spec.agree t t' (List.ofFn x) (List.ofFn x') ∧ G'.loss x' = .ok (some w)} w) ∧
      ∀ x' : Fin G'.n → ℝ, ∃ x : Fin G.n → ℝ, Spec.agree t t' (List.ofFn x) (List.ofFn x') := by
  obtain ⟨W, W', M, L, v, h1, h2, hs, hp, hdisj, hperm, hsig, h3⟩ := files_aux F F' hok hst hw hbb hit hit' hset hfull C hC hn hpos xdef hdef neg
  refine ⟨_, _, h1, h2, fun x => ?_, fun x' => ?_⟩
  swap
  · refine ⟨point t (fun i => (List.ofFn x').getD i 0) (Spec.nuisance t' (List.ofFn x')) (ofFile t .normal xdef neg).n, ?_, ?_⟩
    · intro p hp
      rw [point_signal t _ _ xdef neg hp, hsig]
    · intro m hm
      rw [point_nuisance t _ _ xdef neg hm]
  obtain ⟨o, e, k, h4, h5⟩ := h3 x
  obtain ⟨hle, θ, hθ⟩ := profile_form M L v hs hp o e
  refine ⟨_, h4, ?_, ?_⟩
  · set ψ : String → ℝ := fun m => if m ∈ t.systs then Spec.nuisance t (List.ofFn x) m else θ m with hψ
    have hag : Spec.agree t t' (List.ofFn x) (List.ofFn (point t' (fun i => (List.ofFn x).getD i 0) ψ (ofFile t' .normal xdef neg).n)) := by
      constructor
      · intro p hp
        rw [point_signal t' _ _ xdef neg (by rw [hsig]; exact hp), hsig]
      · intro m hm
        rw [point_nuisance t' _ _ xdef neg (hperm.mem_iff.2 (List.mem_append_left _ hm)), hψ]
        exact (if_pos hm).symm
    refine ⟨point t' (fun i => (List.ofFn x).getD i 0) ψ (ofFile t' .normal xdef neg).n, hag, ?_⟩
    rw [h5 _ hag]
    have hL : ∀ m ∈ L, Spec.nuisance t' (List.ofFn (point t' (fun i => (List.ofFn x).getD i 0) ψ (ofFile t' .normal xdef neg).n)) m = θ m := by
      intro m hm
      rw [point_nuisance t' _ _ xdef neg (hperm.mem_iff.2 (List.mem_append_right _ hm)), hψ]
      exact if_neg (hdisj m hm)
    generalize Spec.nuisance t' (List.ofFn (point t' (fun i => (List.ofFn x).getD i 0) ψ (ofFile t' .normal xdef neg).n)) = φ at hL
    have e1 : shifts L v φ = shifts L v θ := by
      funext i
      unfold shifts
      congr 1
      exact List.map_congr_left fun m hm => by rw [hL m hm]
    have e2 : (L.map fun m => φ m ^ 2 / 2) = L.map fun m => θ m ^ 2 / 2 := List.map_congr_left fun m hm => by rw [hL m hm]
    rw [e1, e2, hθ]
  · rintro w ⟨x', hx', hw'⟩
    rw [h5 x' hx'] at hw'
    rw [← Option.some.inj (Except.ok.inj hw')]
    exact add_le_add_left (hle _) k

/-- C112 (dense mode, normal variations, no masked channels, default strengths of one, first file): Accepted
calls with a positive definite covariance, written as they are and with `add_to_data_covariance` left out everywhere.  The
loss of the covariance fit to the first file is, at every point, the smallest value that the loss of the covariance fit to the
second file takes when the nuisances of the covariance vary and all other parameters, found by name, stay. -/
theorem c112_profile_partial (cfg : Writer.Cfg ℝ) (ops : List (Op ℝ)) (iter iter' : List String → List String) (t t' : Tensor ℝ)
    (F : Writer.Spec.file cfg ops iter t) (F' : Writer.Spec.file cfg (ops.map Writer.Spec.profiled) iter' t')
    (hok : Writer.Spec.allOk cfg {} ops) (hst : cfg.systType = .normal) (hw : ∀ it, Op.write it ∉ ops)
    (hbb : cfg.addBBB = false) (hit : ∀ l, (iter l).Perm l) (hit' : ∀ l, (iter' l).Perm l) (hset : Spec.settled ops)
    (hfull : t.nbins = t.nbinsfull) (C : Cov ℝ) (hC : (ops.filterMap Spec.covariance).getLast? = some C) (hn : C.n = t.nbins) (hpos : Spec.positive C)
    (xdef : List ℝ) (hdef : ∀ v ∈ xdef, v = 1) (neg : Bool) :
    ∃ G G', ofFileCov t .normal xdef neg = .ok G ∧ ofFileCov t' .normal xdef neg = .ok G' ∧ ∀ x, ∃ w, G.loss x = .ok (some w) ∧
      IsLeast {w | ∃ x', Spec.agree t t' (List.ofFn x) (List.ofFn x') ∧ G'.loss x' = .ok (some w)} w := by
  obtain ⟨G, G', h1, h2, h3, _⟩ := profile_aux cfg ops iter iter' t t' F F' hok hst hw hbb hit hit' hset hfull C hC hn hpos xdef hdef neg
  exact ⟨G, G', h1, h2, h3⟩

/-- C112 (the same restrictions): The smallest values of the two losses are the same, and one has a smallest value if the other has. -/
theorem c112_minimum_partial (cfg : Writer.Cfg ℝ) (ops : List (Op ℝ)) (iter iter' : List String → List String) (t t' : Tensor ℝ)
    (F : Writer.Spec.file cfg ops iter t) (F' : Writer.Spec.file cfg (ops.map Writer.Spec.profiled) iter' t')
    (hok : Writer.Spec.allOk cfg {} ops) (hst : cfg.systType = .normal) (hw : ∀ it, Op.write it ∉ ops)
    (hbb : cfg.addBBB = false) (hit : ∀ l, (iter l).Perm l) (hit' : ∀ l, (iter' l).Perm l) (hset : Spec.settled ops)
    (hfull : t.nbins = t.nbinsfull) (C : Cov ℝ) (hC : (ops.filterMap Spec.covariance).getLast? = some C) (hn : C.n = t.nbins) (hpos : Spec.positive C)
    (xdef : List ℝ) (hdef : ∀ v ∈ xdef, v = 1) (neg : Bool) :
    ∃ G G', ofFileCov t .normal xdef neg = .ok G ∧ ofFileCov t' .normal xdef neg = .ok G' ∧
      ∀ w, IsLeast {w | ∃ x, G.loss x = .ok (some w)} w ↔ IsLeast {w | ∃ x', G'.loss x' = .ok (some w)} w := by
  obtain ⟨G, G', h1, h2, h3, h4⟩ := profile_aux cfg ops iter iter' t t' F F' hok hst hw hbb hit hit' hset hfull C hC hn hpos xdef hdef neg
  refine ⟨G, G', h1, h2, fun w => ⟨?_, ?_⟩⟩
  · rintro ⟨⟨x, hx⟩, hl⟩
    obtain ⟨w', e1, ⟨x', _, e2⟩, _⟩ := h3 x
    rw [hx] at e1
    cases e1
    refine ⟨⟨x', e2⟩, ?_⟩
    rintro u ⟨y', hy'⟩
    obtain ⟨y, hy⟩ := h4 y'
    obtain ⟨w', e3, _, e4⟩ := h3 y
    exact (hl ⟨y, e3⟩).trans (e4 ⟨y', hy, hy'⟩)
  · rintro ⟨⟨x', hx'⟩, hl⟩
    obtain ⟨x, hx⟩ := h4 x'
    obtain ⟨w', e1, ⟨z', _, e2⟩, e3⟩ := h3 x
    have : w = w' := le_antisymm (hl ⟨z', e2⟩) (e3 ⟨x', hx, hx'⟩)
    subst this
    refine ⟨⟨x, e1⟩, ?_⟩
    rintro u ⟨y, hy⟩
    obtain ⟨w', e4, ⟨y', _, e5⟩, _⟩ := h3 y
    rw [hy] at e4
    cases e4
    exact hl ⟨y', e5⟩

/-! ### cases -/

namespace Ex

def cfgN : Writer.Cfg ℝ := ⟨Yields.num, false, .normal, true, false, fun a b => a.bins == b.bins⟩

open Writer.Ex in
/-- correlated data; a nuisance of two processes and the two nuisances of a symmetrised pair go into the covariance, a free, a constrained and an asymmetric one do not -/
def opsP : List (Op ℝ) := [.channel [ax 2] (some "a") false false,
  .process (hr [1, 2]) "q" "a" false none, .process (hr [1, 2]) "p" "a" true none, .data (hr [2, 3]) "a" none,
  .dataCov ⟨2, fun i j => if i = j then 2 else 1⟩,
  .syst (.single (hr [1, 1])) "n" "q" "a" 1 true .average true false {}, .normSyst "n" ["p"] "a" [.num 2] true .average {},
  .syst (.pair (hr [2, 3]) (hr [1, 1])) "s" "p" "a" 1 true .linear true false {},
  .syst (.single (hr [1, 1])) "o" "p" "a" 1 true .average false false { constrained := false },
  .normSyst "r" ["q"] "a" [.num 3] false .average {}, .syst (.pair (hr [2, 3]) (hr [1, 1])) "z" "p" "a" 1 true .none false false {}]

def viewP (l : List String) (t : Tensor ℝ) : Bool := t.procs == ["p", "q"] && t.systs == l && !t.symmetric && t.nbins == 2 && t.nbinsfull == 2

open Writer.Ex in
theorem goodP : goodB cfgN {} opsP = true ∧ okB (write cfgN id (run cfgN opsP)).2 (viewP ["o", "r", "z"]) = true ∧ allOkB cfgN {} opsP = true := by
  simp only [goodB, allOkB, run, runOps, opsP, step, addProcess, addData, fitsB, sizeB, optB,
    Option.getD_none, hr_vars _ 1 2 one_pos.le two_pos.le, hr_sumw2 _ 1 2 one_pos.le two_pos.le, hr_vars _ 2 3 two_pos.le three_pos.le,
    hr_vars _ 1 1 one_pos.le one_pos.le]
  refine ⟨?_, ?_, ?_⟩ <;> decide +kernel

open Writer.Ex in
theorem goodQ : goodB cfgN {} (opsP.map Writer.Spec.profiled) = true ∧
    okB (write cfgN id (run cfgN (opsP.map Writer.Spec.profiled))).2 (viewP ["o", "n", "r", "sSymAvg", "sSymDiff", "z"]) = true := by
  simp only [goodB, run, runOps, opsP, List.map_cons, List.map_nil, Writer.Spec.profiled, step, addProcess, addData, fitsB, sizeB, optB,
    Option.getD_none, hr_vars _ 1 2 one_pos.le two_pos.le, hr_sumw2 _ 1 2 one_pos.le two_pos.le, hr_vars _ 2 3 two_pos.le three_pos.le,
    hr_vars _ 1 1 one_pos.le one_pos.le]
  refine ⟨?_, ?_⟩ <;> decide +kernel

theorem askedP {b : Booking} (h : Writer.Spec.asked opsP b) : b = ⟨"n", true, {}⟩ ∨ b = ⟨"sSymDiff", true, {}⟩ ∨ b = ⟨"sSymAvg", true, {}⟩ ∨
    b = ⟨"o", false, { constrained := false }⟩ ∨ b = ⟨"r", false, {}⟩ ∨ b = ⟨"z", false, {}⟩ := by
  obtain ⟨op, ho, hb⟩ := h
  simp only [opsP, List.mem_cons, List.not_mem_nil, or_false] at ho
  rcases ho with rfl | rfl | rfl | rfl | rfl | rfl | rfl | rfl | rfl | rfl | rfl <;> simp [Writer.Spec.asks] at hb
  · exact .inl hb
  · exact .inl hb
  · rcases hb with h | h
    · exact .inr (.inl h)
    · exact .inr (.inr (.inl h))
  · exact .inr (.inr (.inr (.inl hb)))
  · exact .inr (.inr (.inr (.inr (.inl hb))))
  · exact .inr (.inr (.inr (.inr (.inr hb))))

theorem settledP : Spec.settled opsP := by
  refine ⟨fun b b' h h' hn => ?_, fun b h hc => ?_⟩
  · rcases askedP h with rfl | rfl | rfl | rfl | rfl | rfl <;> rcases askedP h' with rfl | rfl | rfl | rfl | rfl | rfl <;> first | exact ⟨rfl, rfl⟩ | exact absurd hn (by decide)
  · rcases askedP h with rfl | rfl | rfl | rfl | rfl | rfl <;> first | rfl | cases hc

theorem positive2 : Spec.positive ⟨2, fun i j => if i = j then 2 else 1⟩ := by
  refine ⟨fun i _ j _ => by simp only [eq_comm], ?_⟩
  rintro x ⟨i, hi, hx⟩
  simp only [sum_range_succ, range_zero, sum_empty]
  norm_num
  have h0 : 0 < x 0 ^ 2 + x 1 ^ 2 := by
    have hi' : i = 0 ∨ i = 1 := by simp only at hi; omega
    rcases hi' with rfl | rfl
    · have := sq_pos_of_ne_zero hx
      have := sq_nonneg (x 1)
      linarith
    · have := sq_pos_of_ne_zero hx
      have := sq_nonneg (x 0)
      linarith
  nlinarith [sq_nonneg (x 0 + x 1)]

end Ex

/-- The hypotheses of `c112_profile_partial` and `c112_minimum_partial` are met: three nuisances in the covariance, profiled in the other file,
beside a free, a constrained and an asymmetric one. -/
example : ∃ (t t' : Tensor ℝ) (G G' : Fitter), t.systs = ["o", "r", "z"] ∧ t'.systs = ["o", "n", "r", "sSymAvg", "sSymDiff", "z"] ∧
    ofFileCov t .normal [1] true = .ok G ∧ ofFileCov t' .normal [1] true = .ok G' ∧ ∀ x, ∃ w, G.loss x = .ok (some w) ∧
      IsLeast {w | ∃ x', Spec.agree t t' (List.ofFn x) (List.ofFn x') ∧ G'.loss x' = .ok (some w)} w := by
  obtain ⟨h1, h2, h3⟩ := Ex.goodP
  obtain ⟨t, ht, hv⟩ := Writer.Ex.okB_iff h2
  obtain ⟨g1, g2⟩ := Writer.Ex.goodB_iff _ _ _ h1
  obtain ⟨h1', h2'⟩ := Ex.goodQ
  obtain ⟨t', ht', hv'⟩ := Writer.Ex.okB_iff h2'
  obtain ⟨g1', g2'⟩ := Writer.Ex.goodB_iff _ _ _ h1'
  simp only [Ex.viewP, Bool.and_eq_true, beq_iff_eq] at hv hv'
  obtain ⟨⟨⟨⟨_, v1⟩, _⟩, v3⟩, v4⟩ := hv
  obtain ⟨G, G', e1, e2, e3⟩ := c112_profile_partial Ex.cfgN Ex.opsP id id t t' ⟨rfl, rfl, g1, g2, ht⟩ ⟨rfl, rfl, g1', g2', ht'⟩
    (Writer.Ex.allOkB_iff _ _ _ h3) rfl (by simp [Ex.opsP]) rfl (fun l => .refl l) (fun l => .refl l) Ex.settledP (v3.trans v4.symm)
    ⟨2, fun i j => if i = j then 2 else 1⟩ rfl v3.symm Ex.positive2 [1] (by simp) true
  exact ⟨t, t', G, G', v1, hv'.1.1.1.2, e1, e2, e3⟩

namespace Ex

open Writer.Ex in
/-- one nuisance of the covariance -/
def opsD : List (Op ℝ) := [.channel [ax 2] (some "a") false false, .process (hr [1, 2]) "p" "a" true none, .data (hr [2, 3]) "a" none,
  .dataCov ⟨2, fun i j => if i = j then 2 else 1⟩, .normSyst "n" ["p"] "a" [.num 2] true .average {}]

def viewD (l : List String) (t : Tensor ℝ) : Bool :=
  t.procs == ["p"] && t.signals == ["p"] && t.systs == l && t.symmetric && t.nbins == 2 && t.nbinsfull == 2 && readerFrom 0 t.channelInfo == [("a", 0, 2)]

open Writer.Ex in
theorem goodD : goodB cfgN {} opsD = true ∧ okB (write cfgN id (run cfgN opsD)).2 (viewD []) = true ∧ allOkB cfgN {} opsD = true := by
  simp only [goodB, allOkB, run, runOps, opsD, step, addProcess, addData, fitsB, sizeB, optB,
    Option.getD_none, hr_vars _ 1 2 one_pos.le two_pos.le, hr_sumw2 _ 1 2 one_pos.le two_pos.le, hr_vars _ 2 3 two_pos.le three_pos.le]
  refine ⟨?_, ?_, ?_⟩ <;> decide +kernel

open Writer.Ex in
theorem goodE : goodB cfgN {} (opsD.map Writer.Spec.profiled) = true ∧ okB (write cfgN id (run cfgN (opsD.map Writer.Spec.profiled))).2 (viewD ["n"]) = true := by
  simp only [goodB, run, runOps, opsD, List.map_cons, List.map_nil, Writer.Spec.profiled, step, addProcess, addData, fitsB, sizeB, optB,
    Option.getD_none, hr_vars _ 1 2 one_pos.le two_pos.le, hr_sumw2 _ 1 2 one_pos.le two_pos.le, hr_vars _ 2 3 two_pos.le three_pos.le]
  refine ⟨?_, ?_⟩ <;> decide +kernel

theorem tabD : Writer.Spec.at3 (run cfgN opsD).logkavg "a" "p" "n" = some (.dense [Logk.maskNorm 1 (1 * (1 * 2 - 1)), Logk.maskNorm 2 (1 * (2 * 2 - 2))]) ∧
    (run cfgN opsD).covariance = ["n"] ∧ (run cfgN opsD).dataObs.get? "a" = some [.fin 2, .fin 3] ∧
    (∃ ch, (run cfgN opsD).channels.get? "a" = some ch ∧ ch.masked = false) ∧ (run cfgN opsD).dataCov = some ⟨2, fun i j => if i = j then 2 else 1⟩ := by
  simp only [run, runOps, opsD, step, addProcess, addData,
    Option.getD_none, Writer.Ex.hr_sumw2 _ 1 2 one_pos.le two_pos.le, Writer.Ex.hr_vars _ 2 3 two_pos.le three_pos.le]
  exact ⟨rfl, rfl, rfl, ⟨_, rfl, rfl⟩, rfl⟩

theorem varD (i : Nat) (hi : i < 2) : varAt (run cfgN opsD) false "a" "p" "n" i = [1, 2].getD i 0 := by
  unfold varAt Writer.Spec.bookedVar
  rw [tabD.1]
  match i, hi with
  | 0, _ => show Logk.maskNorm 1 (1 * (1 * 2 - 1)) = (1 : ℝ); unfold Logk.maskNorm; norm_num
  | 1, _ => show Logk.maskNorm 2 (1 * (2 * 2 - 2)) = (2 : ℝ); unfold Logk.maskNorm; norm_num

theorem askedD {b : Booking} (h : Writer.Spec.asked opsD b) : b = ⟨"n", true, {}⟩ := by
  obtain ⟨op, ho, hb⟩ := h
  simp only [opsD, List.mem_cons, List.not_mem_nil, or_false] at ho
  rcases ho with rfl | rfl | rfl | rfl | rfl <;> simp [Writer.Spec.asks] at hb
  exact hb

theorem settledD : Spec.settled opsD := by
  refine ⟨fun b b' h h' _ => ?_, fun b h _ => ?_⟩
  · rw [askedD h, askedD h']; exact ⟨rfl, rfl⟩
  · rw [askedD h]

end Ex

/-- The code violates C112: with a default strength of two the templates of a profiled nuisance are scaled by it, what was added to the
covariance is not.  All other conditions of `c112_profile_partial` are met, and profiling gives less than the loss. -/
theorem c112_default_violated : ∃ (cfg : Writer.Cfg ℝ) (ops : List (Op ℝ)) (t t' : Tensor ℝ) (C : Cov ℝ) (xdef : List ℝ) (G G' : Fitter) (x : Fin G.n → ℝ) (x' : Fin G'.n → ℝ) (w w' : ℝ),
    Writer.Spec.file cfg ops id t ∧ Writer.Spec.file cfg (ops.map Writer.Spec.profiled) id t' ∧ Writer.Spec.allOk cfg {} ops ∧ cfg.systType = .normal ∧
    (∀ it, Op.write it ∉ ops) ∧ cfg.addBBB = false ∧ Spec.settled ops ∧ t.symmetric = true ∧ t.nbins = t.nbinsfull ∧
    (ops.filterMap Spec.covariance).getLast? = some C ∧ C.n = t.nbins ∧ Spec.positive C ∧
    ofFileCov t .normal xdef true = .ok G ∧ ofFileCov t' .normal xdef true = .ok G' ∧ Spec.agree t t' (List.ofFn x) (List.ofFn x') ∧
    G.loss x = .ok (some w) ∧ G'.loss x' = .ok (some w') ∧ w' < w := by
  obtain ⟨h1, h2, h3⟩ := Ex.goodD
  obtain ⟨t, ht, hv⟩ := Writer.Ex.okB_iff h2
  obtain ⟨g1, g2⟩ := Writer.Ex.goodB_iff _ _ _ h1
  obtain ⟨h1', h2'⟩ := Ex.goodE
  obtain ⟨t', ht', hv'⟩ := Writer.Ex.okB_iff h2'
  obtain ⟨g1', g2'⟩ := Writer.Ex.goodB_iff _ _ _ h1'
  simp only [Ex.viewD, Bool.and_eq_true, beq_iff_eq] at hv hv'
  obtain ⟨⟨⟨⟨⟨⟨v1, v2⟩, v3⟩, v4⟩, v5⟩, v6⟩, v7⟩ := hv
  obtain ⟨⟨⟨⟨⟨⟨u1, u2⟩, u3⟩, u4⟩, u5⟩, u6⟩, u7⟩ := hv'
  have F : Writer.Spec.file Ex.cfgN Ex.opsD id t := ⟨rfl, rfl, g1, g2, ht⟩
  have F' : Writer.Spec.file Ex.cfgN (Ex.opsD.map Writer.Spec.profiled) id t' := ⟨rfl, rfl, g1', g2', ht'⟩
  have hok := Writer.Ex.allOkB_iff _ _ _ h3
  have hw : ∀ it, Op.write it ∉ Ex.opsD := by simp [Ex.opsD]
  obtain ⟨e1, e2, e3, e4, e5, e6, e7, e8, hok', hvar⟩ := same_files F F' hok rfl hw
  obtain ⟨_, q2, q3, ⟨ch, q4, q5⟩, q6⟩ := Ex.tabD
  have hset := Ex.settledD
  have hcon : Writer.Spec.consistent Ex.opsD := fun b b' h h' hn _ _ => (hset.1 b b' h h' hn).2
  have hcon' : Writer.Spec.consistent (Ex.opsD.map Writer.Spec.profiled) := by
    intro b b' h h' hn _ _
    obtain ⟨b1, h1, rfl⟩ := (asked_profiled _ b).1 h
    obtain ⟨b2, h2, rfl⟩ := (asked_profiled _ b').1 h'
    exact (hset.1 b1 b2 h1 h2 hn).2
  -- data
  have hobs : ∀ i < 2, real (t.dataObs i) = [2, 3].getD i 0 := by
    intro i hi
    obtain ⟨_, _, _, _, hd, _⟩ := c02_layout_partial _ _ F.fresh id t F.written F.csr
    obtain ⟨l, w, k1, _, k2⟩ := hd "a" 0 2 (by rw [v7]; exact List.mem_singleton.2 rfl) ch q4 q5
    rw [q3] at k1
    cases k1
    have := (k2 i (by omega)).1
    rw [Nat.zero_add] at this
    rw [this]
    match i, hi with
    | 0, _ => rfl
    | 1, _ => rfl
  -- covariances
  obtain ⟨D, hD⟩ := fullCov_some F q6
  obtain ⟨base, hbase, hsum⟩ := c16_cov_partial _ F.dense rfl _ F.fresh id (fun l => .refl l) t F.written D hD
  have hb : base = ⟨2, fun i j => if i = j then 2 else 1⟩ := by
    rcases hbase with h | h
    · rw [q6] at h; exact (Option.some.inj h).symm
    · rw [q6] at h; cases h.1
  subst hb
  obtain ⟨v, hv, hDn, hval⟩ := hsum v6.symm
  rw [q2] at hv hval
  have hvv : ∀ i < 2, v "n" i = [1, 2].getD i 0 := by
    intro i hi
    have := hv "n" (List.mem_singleton.2 rfl) "a" 0 2 (by rw [v7]; exact List.mem_singleton.2 rfl) i (by omega)
    rw [Nat.zero_add, v1, List.map_singleton, List.sum_singleton, contrib_varAt F, Ex.varD i hi] at this
    exact this
  have hC' : t'.fullCov = some ⟨2, fun i j => if i = j then 2 else 1⟩ := by
    rw [fullCov_eq F' rfl (by simp [Ex.opsD, Writer.Spec.profiled]) (fun l => .refl l) (fun b hb => by obtain ⟨b', _, rfl⟩ := (asked_profiled _ b).1 hb; rfl), covariance_profiled]
    rfl
  have hρ : ∀ b, ∀ p < 1, (initRates 1 [2]).at b p = 2 := by
    intro b p hp
    have : p = 0 := by omega
    subst this
    rfl
  obtain ⟨nexp, k1, k2⟩ := cov_loss F rfl (fun l => .refl l) hcon [2] 2 (by rw [v1]; exact hρ) (.inl (by rw [v2]; simp)) true Ex.opsD (fun b hb _ => isCon_iff hset hb)
    (Matrix.of fun b b' : Fin t.nbins => D.val b b')⁻¹ (point t (fun _ => 0) (fun _ => 0) _)
  obtain ⟨nexp', k1', k2'⟩ := cov_loss F' rfl (fun l => .refl l) hcon' [2] 2 (by rw [u1]; exact hρ) (.inl (by rw [u2]; simp)) true Ex.opsD (fun b hb _ => by
      obtain ⟨b', h3, rfl⟩ := (asked_profiled _ b).1 hb
      exact isCon_iff (b := b') hset h3)
    (Matrix.of fun b b' : Fin t'.nbins => (fun i j : Nat => if i = j then (2 : ℝ) else 1) b b')⁻¹ (point t' (fun _ => 0) (fun _ => 1 / 2) _)
  have hs : Spec.strength t true (List.ofFn (point t (fun _ => 0) (fun _ => 0) (ofFile t .normal [2] true).n)) "p" = 0 := by
    unfold Spec.strength
    rw [if_pos rfl, point_signal t _ _ [2] true (by rw [v2]; exact List.mem_singleton.2 rfl)]
  have hs' : Spec.strength t' true (List.ofFn (point t' (fun _ => 0) (fun _ => 1 / 2) (ofFile t' .normal [2] true).n)) "p" = 0 := by
    unfold Spec.strength
    rw [if_pos rfl, point_signal t' _ _ [2] true (by rw [u2]; exact List.mem_singleton.2 rfl)]
  have hθ' : Spec.nuisance t' (List.ofFn (point t' (fun _ => 0) (fun _ => 1 / 2) (ofFile t' .normal [2] true).n)) "n" = 1 / 2 :=
    point_nuisance t' _ _ [2] true (by rw [u3]; exact List.mem_singleton.2 rfl)
  have hn : ∀ i < 2, nexp i = 0 := by
    intro i hi
    have := k2 "a" 0 2 (by rw [v7]; exact List.mem_singleton.2 rfl) i (by omega)
    rw [Nat.zero_add, v3, v1, v2] at this
    rw [this]
    simp only [List.length_singleton, sum_range_one, List.getD_cons_zero, List.mem_singleton, if_true, hs]
    simp
  have hn' : ∀ i < 2, nexp' i = [1, 2].getD i 0 := by
    intro i hi
    have := k2' "a" 0 2 (by rw [u7]; exact List.mem_singleton.2 rfl) i (by omega)
    rw [Nat.zero_add, u3, u1, u2] at this
    rw [this]
    simp only [List.length_singleton, sum_range_one, List.getD_cons_zero, List.mem_singleton, if_true, hs', List.map_singleton, List.sum_singleton, hθ', term, u4, hvar, Ex.varD i hi]
    ring
  refine ⟨Ex.cfgN, Ex.opsD, t, t', ⟨2, fun i j => if i = j then 2 else 1⟩, [2], _, _, _, _, _, _, F, F', hok, rfl, hw, rfl, hset, v4, v5.trans v6.symm, rfl, v5.symm, Ex.positive2,
    ofFileCov_some hD (by rw [hDn, v6, v5]) rfl _ _ _, ofFileCov_some hC' u5.symm rfl _ _ _, ⟨fun p hp => ?_, fun m hm => ?_⟩, k1, k1', ?_⟩
  · rw [point_signal t _ _ [2] true hp, point_signal t' _ _ [2] true (by rw [e6]; exact hp)]
  · rw [v3] at hm; cases hm
  · have hq : lnCov (Matrix.of fun b b' : Fin t.nbins => D.val b b')⁻¹ (fun b : Fin t.nbins => real (t.dataObs b)) (fun b : Fin t.nbins => nexp b) = 5 / 6 := by
      rw [lnCov_congr v5 D.val (fun b => real (t.dataObs b)) nexp]
      have hDm : (Matrix.of fun b b' : Fin 2 => D.val b b') = !![3, 3; 3, 6] := by
        ext i j
        rw [Matrix.of_apply, hval]
        simp only [List.map_singleton, List.sum_singleton, hvv i i.2, hvv j j.2]
        fin_cases i <;> fin_cases j <;> norm_num
      have hI : (!![3, 3; 3, 6] : Matrix (Fin 2) (Fin 2) ℝ)⁻¹ = !![2 / 3, -1 / 3; -1 / 3, 1 / 3] := by
        refine Matrix.inv_eq_right_inv ?_
        rw [Matrix.mul_fin_two, Matrix.one_fin_two]
        norm_num
      have ho : (fun b : Fin 2 => real (t.dataObs b)) - (fun b : Fin 2 => nexp b) = ![2, 3] := by
        funext b
        show real (t.dataObs b) - nexp b = _
        rw [hobs b b.2, hn b b.2]
        fin_cases b <;> simp
      unfold lnCov
      rw [hDm, hI, ho]
      simp [Matrix.mulVec, dotProduct, Fin.sum_univ_two]
      norm_num
    have hq' : lnCov (Matrix.of fun b b' : Fin t'.nbins => (fun i j : Nat => if i = j then (2 : ℝ) else 1) b b')⁻¹ (fun b : Fin t'.nbins => real (t'.dataObs b)) (fun b : Fin t'.nbins => nexp' b) = 1 / 3 := by
      rw [lnCov_congr u5 (fun i j => if i = j then (2 : ℝ) else 1) (fun b => real (t'.dataObs b)) nexp', e5]
      have hDm : (Matrix.of fun b b' : Fin 2 => if (b : Nat) = b' then (2 : ℝ) else 1) = !![2, 1; 1, 2] := by
        ext i j
        fin_cases i <;> fin_cases j <;> norm_num
      have hI : (!![2, 1; 1, 2] : Matrix (Fin 2) (Fin 2) ℝ)⁻¹ = !![2 / 3, -1 / 3; -1 / 3, 2 / 3] := by
        refine Matrix.inv_eq_right_inv ?_
        rw [Matrix.mul_fin_two, Matrix.one_fin_two]
        norm_num
      have ho : (fun b : Fin 2 => real (t.dataObs b)) - (fun b : Fin 2 => nexp' b) = ![1, 1] := by
        funext b
        show real (t.dataObs b) - nexp' b = _
        rw [hobs b b.2, hn' b b.2]
        fin_cases b <;> norm_num
      unfold lnCov
      rw [hDm, hI, ho]
      simp [Matrix.mulVec, dotProduct, Fin.sum_univ_two]
      norm_num
    rw [hq, hq', v3, u3]
    have hcn : isCon Ex.opsD "n" := ⟨⟨"n", true, {}⟩, ⟨_, List.mem_of_getLast? rfl, List.mem_singleton.2 rfl⟩, rfl, rfl⟩
    simp only [List.map_nil, List.sum_nil, List.map_singleton, List.sum_singleton, pull, if_pos hcn, hθ']
    norm_num

namespace Ex

open Writer.Ex in
theorem goodK : goodB cfgL {} opsD = true ∧ okB (write cfgL id (run cfgL opsD)).2 (viewD []) = true ∧ allOkB cfgL {} opsD = true := by
  simp only [goodB, allOkB, run, runOps, opsD, step, addProcess, addData, fitsB, sizeB, optB,
    Option.getD_none, hr_vars _ 1 2 one_pos.le two_pos.le, hr_sumw2 _ 1 2 one_pos.le two_pos.le, hr_vars _ 2 3 two_pos.le three_pos.le]
  refine ⟨?_, ?_, ?_⟩ <;> decide +kernel

open Writer.Ex in
theorem goodKP : goodB cfgL {} (opsD.map Writer.Spec.profiled) = true ∧ okB (write cfgL id (run cfgL (opsD.map Writer.Spec.profiled))).2 (viewD ["n"]) = true := by
  simp only [goodB, run, runOps, opsD, List.map_cons, List.map_nil, Writer.Spec.profiled, step, addProcess, addData, fitsB, sizeB, optB,
    Option.getD_none, hr_vars _ 1 2 one_pos.le two_pos.le, hr_sumw2 _ 1 2 one_pos.le two_pos.le, hr_vars _ 2 3 two_pos.le three_pos.le]
  refine ⟨?_, ?_⟩ <;> decide +kernel

theorem tabK : Writer.Spec.at3 (run cfgL opsD).logkavg "a" "p" "n" = some (.dense [Logk.maskNorm 1 (1 * (1 * 2 - 1)), Logk.maskNorm 2 (1 * (2 * 2 - 2))]) ∧
    (run cfgL opsD).covariance = ["n"] ∧ (run cfgL opsD).dataObs.get? "a" = some [.fin 2, .fin 3] ∧
    (∃ ch, (run cfgL opsD).channels.get? "a" = some ch ∧ ch.masked = false) ∧ (run cfgL opsD).dataCov = some ⟨2, fun i j => if i = j then 2 else 1⟩ := by
  simp only [run, runOps, opsD, step, addProcess, addData,
    Option.getD_none, Writer.Ex.hr_sumw2 _ 1 2 one_pos.le two_pos.le, Writer.Ex.hr_vars _ 2 3 two_pos.le three_pos.le]
  exact ⟨rfl, rfl, rfl, ⟨_, rfl, rfl⟩, rfl⟩

theorem tabKP : (run cfgL (opsD.map Writer.Spec.profiled)).dataObs.get? "a" = some [.fin 2, .fin 3] ∧
    (∃ ch, (run cfgL (opsD.map Writer.Spec.profiled)).channels.get? "a" = some ch ∧ ch.masked = false) := by
  simp only [run, runOps, opsD, List.map_cons, List.map_nil, Writer.Spec.profiled, step, addProcess, addData,
    Option.getD_none, Writer.Ex.hr_sumw2 _ 1 2 one_pos.le two_pos.le, Writer.Ex.hr_vars _ 2 3 two_pos.le three_pos.le]
  exact ⟨rfl, ⟨_, rfl, rfl⟩⟩

theorem varK (i : Nat) (hi : i < 2) : varAt (run cfgL opsD) false "a" "p" "n" i = [1, 2].getD i 0 := by
  unfold varAt Writer.Spec.bookedVar
  rw [tabK.1]
  match i, hi with
  | 0, _ => show Logk.maskNorm 1 (1 * (1 * 2 - 1)) = (1 : ℝ); unfold Logk.maskNorm; norm_num
  | 1, _ => show Logk.maskNorm 2 (1 * (2 * 2 - 2)) = (2 : ℝ); unfold Logk.maskNorm; norm_num

end Ex

/-- data of two bins -/
theorem obs_of {cfg : Writer.Cfg ℝ} {ops : List (Op ℝ)} {t : Tensor ℝ} (F : Writer.Spec.file cfg ops id t)
    (q3 : (run cfg ops).dataObs.get? "a" = some [.fin 2, .fin 3]) (q4 : ∃ ch, (run cfg ops).channels.get? "a" = some ch ∧ ch.masked = false)
    (v7 : readerFrom 0 t.channelInfo = [("a", 0, 2)]) : ∀ i < 2, real (t.dataObs i) = [2, 3].getD i 0 := by
  intro i hi
  obtain ⟨ch, q4, q5⟩ := q4
  obtain ⟨_, _, _, _, hd, _⟩ := c02_layout_partial _ _ F.fresh id t F.written F.csr
  obtain ⟨l, w, k1, _, k2⟩ := hd "a" 0 2 (by rw [v7]; exact List.mem_singleton.2 rfl) ch q4 q5
  rw [q3] at k1
  cases k1
  have := (k2 i (by omega)).1
  rw [Nat.zero_add] at this
  rw [this]
  match i, hi with
  | 0, _ => rfl
  | 1, _ => rfl

/-- without signal a log-normal file with one signal predicts nothing -/
theorem no_signal {cfg : Writer.Cfg ℝ} {ops : List (Op ℝ)} {t : Tensor ℝ} (F : Writer.Spec.file cfg ops id t) (hst : cfg.systType = .logNormal)
    (v1 : t.procs = ["p"]) (v2 : t.signals = ["p"]) (v7 : readerFrom 0 t.channelInfo = [("a", 0, 2)]) {nparams : Nat} {rinit r : Yields.Rates}
    {θ : Nat → ℝ} {nexp : Nat → ℝ} {y : Nat → Nat → ℝ} (h : t.yields cfg.systType false nparams rinit r θ = .ok (nexp, y)) {s : ℝ}
    (hr : ∀ g p proc, t.procs[p]? = some proc → r.at g p = if proc ∈ t.signals then s else 1) (hs : s = 0)
    (hsum : ∀ b, nexp b = ∑ p ∈ range t.procs.length, y b p) : ∀ i < 2, nexp i = 0 := by
  intro i hi
  have hp : t.procs[0]? = some "p" := by rw [v1]; rfl
  have hc := F.cell (chan := "a") (proc := "p") (i := i) (g := i) (p := 0) ⟨0, 2, by rw [v7]; exact List.mem_singleton.2 rfl, by omega, (Nat.zero_add i).symm, hp⟩
    false _ _ r (.inl hst) _ _ _ h
  rw [hsum, v1, List.length_singleton, sum_range_one, hc, hr _ _ _ hp, if_pos (by rw [v2]; exact List.mem_singleton.2 rfl), hs, hst]
  exact zero_mul _

/-- The code violates C112: with log-normal variations a nuisance in the covariance shifts the data by a fixed amount, a profiled one scales
the prediction.  All other conditions of `c112_profile_partial` are met, and with signal strength zero no value of the nuisance reaches the loss. -/
theorem c112_lognormal_violated : ∃ (cfg : Writer.Cfg ℝ) (ops : List (Op ℝ)) (t t' : Tensor ℝ) (C : Cov ℝ) (xdef : List ℝ) (G G' : Fitter) (x : Fin G.n → ℝ) (w : ℝ),
    Writer.Spec.file cfg ops id t ∧ Writer.Spec.file cfg (ops.map Writer.Spec.profiled) id t' ∧ Writer.Spec.allOk cfg {} ops ∧ cfg.systType = .logNormal ∧
    (∀ it, Op.write it ∉ ops) ∧ cfg.addBBB = false ∧ Spec.settled ops ∧ t.nbins = t.nbinsfull ∧
    (ops.filterMap Spec.covariance).getLast? = some C ∧ C.n = t.nbins ∧ Spec.positive C ∧ (∀ v ∈ xdef, v = 1) ∧
    ofFileCov t .logNormal xdef true = .ok G ∧ ofFileCov t' .logNormal xdef true = .ok G' ∧ G.loss x = .ok (some w) ∧
    (∃ x' : Fin G'.n → ℝ, Spec.agree t t' (List.ofFn x) (List.ofFn x')) ∧
    ∀ x' : Fin G'.n → ℝ, Spec.agree t t' (List.ofFn x) (List.ofFn x') → ∃ w', G'.loss x' = .ok (some w') ∧ w < w' := by
  obtain ⟨h1, h2, h3⟩ := Ex.goodK
  obtain ⟨t, ht, hv⟩ := Writer.Ex.okB_iff h2
  obtain ⟨g1, g2⟩ := Writer.Ex.goodB_iff _ _ _ h1
  obtain ⟨h1', h2'⟩ := Ex.goodKP
  obtain ⟨t', ht', hv'⟩ := Writer.Ex.okB_iff h2'
  obtain ⟨g1', g2'⟩ := Writer.Ex.goodB_iff _ _ _ h1'
  simp only [Ex.viewD, Bool.and_eq_true, beq_iff_eq] at hv hv'
  obtain ⟨⟨⟨⟨⟨⟨v1, v2⟩, v3⟩, v4⟩, v5⟩, v6⟩, v7⟩ := hv
  obtain ⟨⟨⟨⟨⟨⟨u1, u2⟩, u3⟩, u4⟩, u5⟩, u6⟩, u7⟩ := hv'
  have F : Writer.Spec.file Ex.cfgL Ex.opsD id t := ⟨rfl, rfl, g1, g2, ht⟩
  have F' : Writer.Spec.file Ex.cfgL (Ex.opsD.map Writer.Spec.profiled) id t' := ⟨rfl, rfl, g1', g2', ht'⟩
  obtain ⟨_, q2, q3, q4, q6⟩ := Ex.tabK
  have hset := Ex.settledD
  have hcon : Writer.Spec.consistent Ex.opsD := fun b b' h h' hn _ _ => (hset.1 b b' h h' hn).2
  have hcon' : Writer.Spec.consistent (Ex.opsD.map Writer.Spec.profiled) := by
    intro b b' h h' hn _ _
    obtain ⟨b1, h1, rfl⟩ := (asked_profiled _ b).1 h
    obtain ⟨b2, h2, rfl⟩ := (asked_profiled _ b').1 h'
    exact (hset.1 b1 b2 h1 h2 hn).2
  have hobs := obs_of F q3 q4 v7
  have hobs' := obs_of F' Ex.tabKP.1 Ex.tabKP.2 u7
  obtain ⟨D, hD⟩ := fullCov_some F q6
  obtain ⟨base, hbase, hsum⟩ := c16_cov_partial _ F.dense rfl _ F.fresh id (fun l => .refl l) t F.written D hD
  have hb : base = ⟨2, fun i j => if i = j then 2 else 1⟩ := by
    rcases hbase with h | h
    · rw [q6] at h; exact (Option.some.inj h).symm
    · rw [q6] at h; cases h.1
  subst hb
  obtain ⟨v, hv, hDn, hval⟩ := hsum v6.symm
  rw [q2] at hv hval
  have hvv : ∀ i < 2, v "n" i = [1, 2].getD i 0 := by
    intro i hi
    have := hv "n" (List.mem_singleton.2 rfl) "a" 0 2 (by rw [v7]; exact List.mem_singleton.2 rfl) i (by omega)
    rw [Nat.zero_add, v1, List.map_singleton, List.sum_singleton, contrib_varAt F, Ex.varK i hi] at this
    exact this
  have hC' : t'.fullCov = some ⟨2, fun i j => if i = j then 2 else 1⟩ := by
    rw [fullCov_eq F' rfl (by simp [Ex.opsD, Writer.Spec.profiled]) (fun l => .refl l) (fun b hb => by obtain ⟨b', _, rfl⟩ := (asked_profiled _ b).1 hb; rfl), covariance_profiled]
    rfl
  have hpt : ∀ sig θ, (List.ofFn (point t sig θ (ofFile t .logNormal [] true).n)).getD (t.signals.idxOf "p") 0 = sig 0 := by
    intro sig θ
    have := point_signal t sig θ [] true (p := "p") (by rw [v2]; exact List.mem_singleton.2 rfl)
    rw [show t.signals.idxOf "p" = 0 by rw [v2]; rfl] at this ⊢
    exact this
  obtain ⟨r, nexp, y, k1, k2, k3, k4⟩ := cov_loss_of F (fun l => .refl l) hcon .logNormal rfl [] true Ex.opsD (fun b hb _ => isCon_iff hset hb)
    (Matrix.of fun b b' : Fin t.nbins => D.val b b')⁻¹ (point t (fun _ => 0) (fun _ => 0) _)
  have hn := no_signal F rfl v1 v2 v7 k2 (s := 0) (fun g p proc hp => by
    rw [k3 g p proc hp]
    rw [v1] at hp
    have hp' : proc = "p" := by
      match p, hp with
      | 0, hp => exact (Option.some.inj hp).symm
    subst hp'
    unfold Spec.strength
    rw [if_pos rfl, hpt]) rfl k4
  refine ⟨Ex.cfgL, Ex.opsD, t, t', ⟨2, fun i j => if i = j then 2 else 1⟩, [], _, _, _, _, F, F', Writer.Ex.allOkB_iff _ _ _ h3, rfl, by simp [Ex.opsD], rfl, hset,
    v5.trans v6.symm, rfl, v5.symm, Ex.positive2, by simp, ofFileCov_some hD (by rw [hDn, v6, v5]) rfl _ _ _, ofFileCov_some hC' u5.symm rfl _ _ _, k1, ?_, fun x' hx' => ?_⟩
  · refine ⟨point t' (fun _ => 0) (fun _ => 0) _, fun p hp => ?_, fun m hm => ?_⟩
    · exact (point_signal t (fun _ => 0) (fun _ => 0) [] true hp).trans (point_signal t' (fun _ => 0) (fun _ => 0) [] true (by rw [u2, ← v2]; exact hp)).symm
    · rw [v3] at hm; cases hm
  · obtain ⟨r', nexp', y', k1', k2', k3', k4'⟩ := cov_loss_of F' (fun l => .refl l) hcon' .logNormal rfl [] true Ex.opsD (fun b hb _ => by
        obtain ⟨b', h3, rfl⟩ := (asked_profiled _ b).1 hb
        exact isCon_iff (b := b') hset h3)
      (Matrix.of fun b b' : Fin t'.nbins => (fun i j : Nat => if i = j then (2 : ℝ) else 1) b b')⁻¹ x'
    have hn' := no_signal F' rfl u1 u2 u7 k2' (s := 0) (fun g p proc hp => by
      rw [k3' g p proc hp]
      rw [u1] at hp
      have hp' : proc = "p" := by
        match p, hp with
        | 0, hp => exact (Option.some.inj hp).symm
      subst hp'
      have := hx'.1 "p" (by rw [v2]; exact List.mem_singleton.2 rfl)
      unfold Spec.strength
      rw [if_pos rfl, ← this, hpt]) rfl k4'
    refine ⟨_, k1', ?_⟩
    have hq : lnCov (Matrix.of fun b b' : Fin t.nbins => D.val b b')⁻¹ (fun b : Fin t.nbins => real (t.dataObs b)) (fun b : Fin t.nbins => nexp b) = 5 / 6 := by
      rw [lnCov_congr v5 D.val (fun b => real (t.dataObs b)) nexp]
      have hDm : (Matrix.of fun b b' : Fin 2 => D.val b b') = !![3, 3; 3, 6] := by
        ext i j
        rw [Matrix.of_apply, hval]
        simp only [List.map_singleton, List.sum_singleton, hvv i i.2, hvv j j.2]
        fin_cases i <;> fin_cases j <;> norm_num
      have hI : (!![3, 3; 3, 6] : Matrix (Fin 2) (Fin 2) ℝ)⁻¹ = !![2 / 3, -1 / 3; -1 / 3, 1 / 3] := by
        refine Matrix.inv_eq_right_inv ?_
        rw [Matrix.mul_fin_two, Matrix.one_fin_two]
        norm_num
      have ho : (fun b : Fin 2 => real (t.dataObs b)) - (fun b : Fin 2 => nexp b) = ![2, 3] := by
        funext b
        show real (t.dataObs b) - nexp b = _
        rw [hobs b b.2, hn b b.2]
        fin_cases b <;> simp
      unfold lnCov
      rw [hDm, hI, ho]
      simp [Matrix.mulVec, dotProduct, Fin.sum_univ_two]
      norm_num
    have hq' : lnCov (Matrix.of fun b b' : Fin t'.nbins => (fun i j : Nat => if i = j then (2 : ℝ) else 1) b b')⁻¹ (fun b : Fin t'.nbins => real (t'.dataObs b)) (fun b : Fin t'.nbins => nexp' b) = 7 / 3 := by
      rw [lnCov_congr u5 (fun i j => if i = j then (2 : ℝ) else 1) (fun b => real (t'.dataObs b)) nexp']
      have hDm : (Matrix.of fun b b' : Fin 2 => if (b : Nat) = b' then (2 : ℝ) else 1) = !![2, 1; 1, 2] := by
        ext i j
        fin_cases i <;> fin_cases j <;> norm_num
      have hI : (!![2, 1; 1, 2] : Matrix (Fin 2) (Fin 2) ℝ)⁻¹ = !![2 / 3, -1 / 3; -1 / 3, 2 / 3] := by
        refine Matrix.inv_eq_right_inv ?_
        rw [Matrix.mul_fin_two, Matrix.one_fin_two]
        norm_num
      have ho : (fun b : Fin 2 => real (t'.dataObs b)) - (fun b : Fin 2 => nexp' b) = ![2, 3] := by
        funext b
        show real (t'.dataObs b) - nexp' b = _
        rw [hobs' b b.2, hn' b b.2]
        fin_cases b <;> simp
      unfold lnCov
      rw [hDm, hI, ho]
      simp [Matrix.mulVec, dotProduct, Fin.sum_univ_two]
      norm_num
    rw [hq, hq', v3, u3]
    have hcn : isCon Ex.opsD "n" := ⟨⟨"n", true, {}⟩, ⟨_, List.mem_of_getLast? rfl, List.mem_singleton.2 rfl⟩, rfl, rfl⟩
    simp only [List.map_nil, List.sum_nil, List.map_singleton, List.sum_singleton, pull, if_pos hcn]
    nlinarith [sq_nonneg (Spec.nuisance t' (List.ofFn x') "n")]

/-- The code violates C112: a nuisance asked for without constraint gets one in the covariance.  Whether a call with `add_to_data_covariance`
asks for a constraint makes no difference to any file, whatever the calls before and after it. -/
theorem c112_free_violated (cfg : Writer.Cfg ℝ) (pre post : List (Op ℝ)) (iter : List String → List String) (o : SystOpts) (b : Bool) :
    (∀ x name proc chan k mirror symm diff, write cfg iter (run cfg (pre ++ .syst x name proc chan k mirror symm true diff o :: post)) =
      write cfg iter (run cfg (pre ++ .syst x name proc chan k mirror symm true diff { o with constrained := b } :: post))) ∧
    ∀ name procs chan unc symm, write cfg iter (run cfg (pre ++ .normSyst name procs chan unc true symm o :: post)) =
      write cfg iter (run cfg (pre ++ .normSyst name procs chan unc true symm { o with constrained := b } :: post)) := by
  have key : ∀ op op' : Op ℝ, step cfg op = step cfg op' → run cfg (pre ++ op :: post) = run cfg (pre ++ op' :: post) := by
    intro op op' h
    unfold run
    rw [runOps_append, runOps_append]
    show runOps cfg (step cfg op _).1 post = runOps cfg (step cfg op' _).1 post
    rw [h]
  obtain ⟨h1, h2⟩ := step_free cfg o b
  exact ⟨fun x name proc chan k mirror symm diff => by rw [key _ _ (h1 x name proc chan k mirror symm diff)],
    fun name procs chan unc symm => by rw [key _ _ (h2 name procs chan unc symm)]⟩

/-- A case of `c112_free_violated`: the nuisance of `c112_default_violated` asked for without constraint, with the file of one with constraint. -/
example : ∃ t, (write Ex.cfgN id (run Ex.cfgN (Ex.opsD.take 4 ++ [.normSyst "n" ["p"] "a" [.num 2] true .average { constrained := false }]))).2 = .ok t ∧
    (write Ex.cfgN id (run Ex.cfgN Ex.opsD)).2 = .ok t ∧ t.fullCov ≠ none := by
  obtain ⟨t, ht, _⟩ := Writer.Ex.okB_iff Ex.goodD.2.1
  obtain ⟨g1, g2⟩ := Writer.Ex.goodB_iff _ _ _ Ex.goodD.1
  refine ⟨t, ?_, ht, ?_⟩
  · rw [(c112_free_violated Ex.cfgN (Ex.opsD.take 4) [] id { constrained := false } true).2]
    exact ht
  · obtain ⟨D, hD⟩ := fullCov_some ⟨rfl, rfl, g1, g2, ht⟩ Ex.tabD.2.2.2.2
    rw [hD]
    exact Option.some_ne_none _

end

end Verif.FileFit
