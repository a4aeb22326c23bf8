import Verif.Model.Yields
import Verif.Props.Interp
import Mathlib.Algebra.BigOperators.Group.List.Lemmas
import Mathlib.Analysis.SpecialFunctions.Pow.Real
import Mathlib.Tactic.IntervalCases
import Mathlib.Tactic.Ring
import Mathlib.Tactic.Linarith
import Mathlib.Tactic.FieldSimp
import Mathlib.Tactic.NormNum
import Mathlib.Tactic.Positivity

/-!
C07 (templates recovered at ±1), C08 (symmetrisation), C09 (signs), C10 (sparse = dense evaluation).
-/

set_option linter.unusedSectionVars false

namespace Verif.Yields

open Finset Logk

/-! ### C08 -/

section C08
variable {V : Type} [Field V] [LinearOrder V] [IsStrictOrderedRing V] (N : Num V)

/-- C08: average is the mean of the two log-variations. -/
theorem c08_average (up down : V) :
    2 * (computeAsym N .average up down).avg = up + down ∧
    (computeAsym N .average up down).symDiff = none ∧ (computeAsym N .average up down).halfdiff = none := by
  refine ⟨?_, rfl, rfl⟩
  simp only [computeAsym]; ring

/-- C08: conservative keeps one of the two, the one of larger magnitude. -/
theorem c08_conservative (up down : V) :
    ((computeAsym N .conservative up down).avg = up ∨ (computeAsym N .conservative up down).avg = down) ∧
    |up| ≤ |(computeAsym N .conservative up down).avg| ∧ |down| ≤ |(computeAsym N .conservative up down).avg| ∧
    (computeAsym N .conservative up down).symDiff = none ∧ (computeAsym N .conservative up down).halfdiff = none := by
  simp only [computeAsym]
  split_ifs with h
  · exact ⟨.inl rfl, le_rfl, h.le, trivial, trivial⟩
  · exact ⟨.inr rfl, not_lt.1 h, le_rfl, trivial, trivial⟩

/-- C08: linear splits the pair into two nuisances whose sum and difference are the original variations. -/
theorem c08_linear (up down : V) :
    ∃ d, (computeAsym N .linear up down).symDiff = some d ∧ (computeAsym N .linear up down).halfdiff = none ∧
      (computeAsym N .linear up down).avg + d = up ∧ (computeAsym N .linear up down).avg - d = down := by
  refine ⟨_, rfl, rfl, ?_, ?_⟩ <;> simp only [computeAsym] <;> ring

/-- C08: quadratic splits the pair the same way with the difference enlarged by `√3`. -/
theorem c08_quadratic (h3 : N.sqrt3 * N.sqrt3 = 3) (up down : V) :
    ∃ d, (computeAsym N .quadratic up down).symDiff = some d ∧ (computeAsym N .quadratic up down).halfdiff = none ∧
      (computeAsym N .quadratic up down).avg + d / N.sqrt3 = up ∧
      (computeAsym N .quadratic up down).avg - d / N.sqrt3 = down := by
  have hne : N.sqrt3 ≠ 0 := by
    intro h; rw [h, mul_zero] at h3; exact absurd h3 (by norm_num)
  refine ⟨_, rfl, rfl, ?_, ?_⟩ <;> simp only [computeAsym] <;> field_simp <;> ring

/-- C08: without symmetrisation the average and half difference encode the pair. -/
theorem c08_none (up down : V) :
    ∃ d, (computeAsym N .none up down).halfdiff = some d ∧ (computeAsym N .none up down).symDiff = none ∧
      (computeAsym N .none up down).avg + d = up ∧ (computeAsym N .none up down).avg - d = down := by
  refine ⟨_, rfl, rfl, ?_, ?_⟩ <;> simp only [computeAsym] <;> ring

/-- C08: symmetric inputs (equal variations on both sides) are left unchanged by every mode. -/
theorem c08_symmetric_unchanged (m : Symm) (v : V) :
    (computeAsym N m v v).avg = v ∧ (∀ d, (computeAsym N m v v).symDiff = some d → d = 0) ∧
    (∀ d, (computeAsym N m v v).halfdiff = some d → d = 0) := by
  cases m <;> simp [computeAsym, ← two_mul]

end C08

/-- the reals satisfy the hypothesis of `c08_quadratic` -/
example : num.sqrt3 * num.sqrt3 = 3 := by
  simp only [num]; exact Real.mul_self_sqrt (by norm_num)

/-! ### Evaluating a single nuisance -/

/-- parameter point with nuisance `j` at `v` and all others at zero -/
def Spec.single (j : Nat) (v : ℝ) (c : Nat) : ℝ := if c = j then v else 0

theorem mtheta_single_sym (s : Shape) (hs : s.symmetric = true) (j : Nat) (v : ℝ) (c : Nat) :
    mtheta s (Spec.single j v) c = if c = j then v else 0 := by
  simp [mtheta, hs, Spec.single]

theorem alpha_zero : Interp.alpha 0 = 0 := by
  simp [Interp.alpha, Interp.alphaRaw]

theorem alpha_one : Interp.alpha 1 = 1 := by
  simp [Interp.alpha, Interp.alphaRaw]; norm_num

theorem alpha_neg_one : Interp.alpha (-1) = -1 := by
  simp [Interp.alpha, Interp.alphaRaw]; norm_num

/-- at `±1` the contraction over all columns picks average plus/minus half difference of that nuisance -/
theorem logsnorm_single (s : Shape) (d : Dense) (j : Nat) (hj : j < s.nsyst) (σ : ℝ) (hσ : σ = 1 ∨ σ = -1) (b p : Nat) :
    d.logsnorm s (Spec.single j σ) b p =
      if s.symmetric then σ * d.logk b p 0 j else σ * d.logk b p 0 j + d.logk b p 1 j := by
  have hα : σ * Interp.alpha σ = 1 := by
    rcases hσ with rfl | rfl
    · rw [alpha_one]; norm_num
    · rw [alpha_neg_one]; norm_num
  unfold Dense.logsnorm
  by_cases hs : s.symmetric = true
  · rw [if_pos hs]
    have hn : s.ncol = s.nsyst := by simp [Shape.ncol, hs]
    rw [hn, sum_eq_single j]
    · rw [mtheta_single_sym s hs, if_pos rfl]; simp [Dense.mlogk, hs]; ring
    · intro c _ hc; rw [mtheta_single_sym s hs, if_neg hc, mul_zero]
    · intro h; exact absurd (mem_range.2 hj) h
  · rw [if_neg hs]
    have hn : s.ncol = s.nsyst + s.nsyst := by simp [Shape.ncol, hs]; ring
    rw [hn, sum_range_add]
    have hpos : 0 < s.nsyst := by omega
    congr 1
    · rw [sum_eq_single j]
      · simp only [mtheta, Dense.mlogk, hs, Nat.div_eq_of_lt hj, Nat.mod_eq_of_lt hj, Spec.single]; simp; ring
      · intro c hc hcj
        rw [mem_range] at hc
        simp only [mtheta, Dense.mlogk, hs, Nat.div_eq_of_lt hc, Nat.mod_eq_of_lt hc, Spec.single, if_neg hcj]; simp
      · intro h; exact absurd (mem_range.2 hj) h
    · rw [sum_eq_single j]
      · have h1 : (s.nsyst + j) / s.nsyst = 1 := by
          rw [Nat.add_div_left _ hpos, Nat.div_eq_of_lt hj]
        have h2 : (s.nsyst + j) % s.nsyst = j := by rw [Nat.add_mod_left, Nat.mod_eq_of_lt hj]
        simp only [mtheta, Dense.mlogk, hs, h1, h2, Spec.single, if_true]
        simp [hα]
      · intro c hc hcj
        rw [mem_range] at hc
        have h1 : (s.nsyst + c) / s.nsyst = 1 := by
          rw [Nat.add_div_left _ hpos, Nat.div_eq_of_lt hc]
        have h2 : (s.nsyst + c) % s.nsyst = c := by rw [Nat.add_mod_left, Nat.mod_eq_of_lt hc]
        simp only [mtheta, Dense.mlogk, hs, h1, h2, Spec.single, if_neg hcj]
        simp
      · intro h; exact absurd (mem_range.2 hj) h

/-! ### C07 -/

/-- What the writer stores in one cell of an asymmetric tensor for a nuisance added with templates `up`, `down` and no
symmetrisation (tensorwriter.py:1223-1262, 371-387, 1594): `logkdown` is minus the down log-variation. -/
noncomputable def stored (t : SystType) (norm up down : ℝ) : Res (ℝ × ℝ) := do
  let u ← getLogk num t 1 up norm
  let dn ← getLogk num t 1 down norm
  let a := computeAsym num .none u (-dn)
  pure (maskNorm norm a.avg, maskNorm norm (a.halfdiff.getD 0))

/-- C07, log-normal: at `+1` (`-1`) the prediction of a cell is the up (down) template times the rate factor. -/
theorem c07_log_normal (s : Shape) (hs : s.symmetric = false) (hl : s.logNormal = true) (d : Dense) (nparams : Nat)
    (rinit r : Rates) (j : Nat) (hj : j < s.nsyst) (b p : Nat) (up down : ℝ) (hup : 0 < up) (hdown : 0 < down)
    (hnorm : 0 < d.norm b p) (hst : stored .logNormal (d.norm b p) up down = .ok (d.logk b p 0 j, d.logk b p 1 j)) :
    (d.scaled s nparams rinit).yield s r (Spec.single j 1) b p = r.at b p * up ∧
    (d.scaled s nparams rinit).yield s r (Spec.single j (-1)) b p = r.at b p * down := by
  have hd : d.scaled s nparams rinit = d := by simp [Dense.scaled, hl]
  rw [hd]
  simp only [stored, getLogk, bind, Except.bind, pure, Except.pure, computeAsym, maskNorm, hnorm.ne', if_false,
    mul_pos hnorm hup, mul_pos hnorm hdown, if_true, Except.ok.injEq, Prod.mk.injEq, Option.getD_some] at hst
  obtain ⟨h1, h2⟩ := hst
  simp only [num, one_mul] at h1 h2
  unfold Dense.yield
  rw [if_pos hl, if_pos hl, logsnorm_single s d j hj 1 (.inl rfl), logsnorm_single s d j hj (-1) (.inr rfl)]
  simp only [hs, Bool.false_eq_true, if_false, ← h1, ← h2]
  constructor
  · rw [show (1 : ℝ) * (1 / 2 * (Real.log (up / d.norm b p) + -Real.log (down / d.norm b p))) +
      1 / 2 * (Real.log (up / d.norm b p) - -Real.log (down / d.norm b p)) = Real.log (up / d.norm b p) by ring,
      Real.exp_log (by positivity)]
    field_simp
  · rw [show (-1 : ℝ) * (1 / 2 * (Real.log (up / d.norm b p) + -Real.log (down / d.norm b p))) +
      1 / 2 * (Real.log (up / d.norm b p) - -Real.log (down / d.norm b p)) = Real.log (down / d.norm b p) by ring,
      Real.exp_log (by positivity)]
    field_simp

/-- C07, normal (missing: parameter points away from the default of the rate model, see `c07_normal_rate_violated`):
at the default rate factor the prediction of a cell at `+1` (`-1`) is the up (down) template times that factor. -/
theorem c07_normal_partial (s : Shape) (hs : s.symmetric = false) (hl : s.logNormal = false) (d : Dense) (nparams : Nat)
    (rinit r : Rates) (hr : ∀ b p, r.at b p = if nparams = 0 then 1 else rinit.at b p)
    (j : Nat) (hj : j < s.nsyst) (b p : Nat) (up down : ℝ)
    (hnorm : d.norm b p ≠ 0) (hst : stored .normal (d.norm b p) up down = .ok (d.logk b p 0 j, d.logk b p 1 j)) :
    (d.scaled s nparams rinit).yield s r (Spec.single j 1) b p = r.at b p * up ∧
    (d.scaled s nparams rinit).yield s r (Spec.single j (-1)) b p = r.at b p * down := by
  simp only [stored, getLogk, bind, Except.bind, pure, Except.pure, computeAsym, maskNorm, hnorm, if_false,
    Except.ok.injEq, Prod.mk.injEq, Option.getD_some] at hst
  obtain ⟨h1, h2⟩ := hst
  unfold Dense.yield
  rw [logsnorm_single s _ j hj 1 (.inl rfl), logsnorm_single s _ j hj (-1) (.inr rfl), hr]
  by_cases hn : nparams = 0
  · simp only [Dense.scaled, hn, or_true, if_true, hs, hl, Bool.false_eq_true, if_false, ← h1, ← h2]
    constructor <;> ring
  · simp only [Dense.scaled, hn, hl, hs, Bool.false_eq_true, or_false, if_false, ← h1, ← h2]
    constructor <;> ring

def exShape (ln : Bool) : Shape := ⟨1, 1, 1, 1, false, ln⟩
noncomputable def exDense : Dense := ⟨fun _ _ => 10, fun _ _ k _ => if k = 0 then 1 / 2 else 3 / 2⟩

theorem exDense_stored : stored .normal (exDense.norm 0 0) 12 11 = .ok (exDense.logk 0 0 0 0, exDense.logk 0 0 1 0) := by
  simp only [stored, exDense, getLogk, bind, Except.bind, pure, Except.pure, computeAsym, maskNorm]
  norm_num

/-- the hypotheses of `c07_normal_partial` are met by a bin of content 10 with templates 12 and 11 -/
example : ((exDense.scaled (exShape false) 1 ⟨1, fun _ _ => 1⟩).yield (exShape false) ⟨1, fun _ _ => 1⟩
    (Spec.single 0 1) 0 0) = 12 := by
  have := (c07_normal_partial (exShape false) rfl rfl exDense 1 ⟨1, fun _ _ => 1⟩ ⟨1, fun _ _ => 1⟩ (by simp [Rates.at])
    0 (by simp [exShape]) 0 0 12 11 (by simp [exDense]) exDense_stored).1
  rw [this]; simp [Rates.at]

/-- the hypotheses of `c07_log_normal` are met by the same bin, with the signal strength at 3 -/
example : ∃ d : Dense, d.yield (exShape true) ⟨1, fun _ _ => 3⟩ (Spec.single 0 1) 0 0 = 36 ∧
    d.yield (exShape true) ⟨1, fun _ _ => 3⟩ (Spec.single 0 (-1)) 0 0 = 33 := by
  obtain ⟨a, h, hst⟩ : ∃ a h, stored .logNormal 10 12 11 = .ok (a, h) := by
    simp only [stored, getLogk, bind, Except.bind, pure, Except.pure]; exact ⟨_, _, rfl⟩
  have := c07_log_normal (exShape true) rfl rfl ⟨fun _ _ => 10, fun _ _ k _ => if k = 0 then a else h⟩ 0 ⟨1, fun _ _ => 1⟩
    ⟨1, fun _ _ => 3⟩ 0 (by simp [exShape]) 0 0 12 11 (by norm_num) (by norm_num) (by norm_num) (by simpa using hst)
  refine ⟨_, this.1.trans ?_, this.2.trans ?_⟩ <;> simp [Rates.at] <;> norm_num

/-- C07 is violated for the normal type away from the default rate: with the signal strength at 2 the varied prediction
is 22 instead of twice the up template 24. -/
theorem c07_normal_rate_violated :
    stored .normal (exDense.norm 0 0) 12 11 = .ok (exDense.logk 0 0 0 0, exDense.logk 0 0 1 0) ∧
    (exDense.scaled (exShape false) 1 ⟨1, fun _ _ => 1⟩).yield (exShape false) ⟨1, fun _ _ => 2⟩ (Spec.single 0 1) 0 0
      = 22 ∧ (2 : ℝ) * 12 ≠ 22 := by
  refine ⟨exDense_stored, ?_, by norm_num⟩
  unfold Dense.yield
  rw [logsnorm_single _ _ 0 (by simp [exShape]) 1 (.inl rfl)]
  simp [exShape, Dense.scaled, exDense, Rates.at]
  norm_num

/-- C07 is violated in bins without nominal content: the variation is dropped and the prediction stays zero. -/
theorem c07_zero_nominal_violated (t : SystType) (ht : t ≠ .other) (s : Shape) (hs : s.symmetric = false)
    (d : Dense) (r : Rates) (j : Nat) (hj : j < s.nsyst) (b p : Nat)
    (up down : ℝ) (hnorm : d.norm b p = 0)
    (hst : stored t (d.norm b p) up down = .ok (d.logk b p 0 j, d.logk b p 1 j)) :
    d.yield s r (Spec.single j 1) b p = 0 := by
  rw [hnorm] at hst
  have h : d.logk b p 0 j = 0 ∧ d.logk b p 1 j = 0 := by
    cases t <;> simp [stored, getLogk, bind, Except.bind, pure, Except.pure, maskNorm] at hst ht
    · exact ⟨hst.1.symm, hst.2.symm⟩
    · exact ⟨hst.1.symm, hst.2.symm⟩
  unfold Dense.yield
  rw [logsnorm_single s d j hj 1 (.inl rfl)]
  simp [hs, h.1, h.2, hnorm]

/-! ### C09 -/

/-- C09: for the log-normal type the yield of a cell has the sign of its nominal content for every nuisance value and
every positive rate factor; empty cells stay empty. -/
theorem c09_sign (s : Shape) (hl : s.logNormal = true) (d : Dense) (r : Rates) (hr : ∀ b p, 0 < r.at b p)
    (θ : Nat → ℝ) (b p : Nat) :
    (0 < d.yield s r θ b p ↔ 0 < d.norm b p) ∧ (d.yield s r θ b p = 0 ↔ d.norm b p = 0) ∧
    (d.yield s r θ b p < 0 ↔ d.norm b p < 0) := by
  unfold Dense.yield
  rw [if_pos hl, ← mul_assoc]
  have h : 0 < r.at b p * Real.exp (d.logsnorm s θ b p) := mul_pos (hr b p) (Real.exp_pos _)
  refine ⟨mul_pos_iff_of_pos_left h, ?_, ?_⟩
  · simp [h.ne']
  · constructor
    · intro h'; by_contra hc; exact absurd h' (not_lt.2 (mul_nonneg h.le (not_lt.1 hc)))
    · exact mul_neg_of_pos_of_neg h

/-- C09: a varied template that is zero or of the opposite sign gives the floor `log(0.001)` (a factor 1/1000),
otherwise exactly the log-ratio, i.e. the factor that maps nominal to varied. -/
theorem c09_floor (kfac syst norm : ℝ) :
    ∃ v, getLogk num .logNormal kfac syst norm = .ok v ∧
      (¬ 0 < norm * syst → Real.exp v = 1 / 1000) ∧
      (0 < norm * syst → Real.exp v = (syst / norm) ^ kfac ∧ (kfac = 1 → Real.exp v * norm = syst)) := by
  refine ⟨_, rfl, fun h => ?_, fun h => ?_⟩
  · rw [if_neg h, num, Real.exp_log (by norm_num)]; norm_num
  · rw [if_pos h]
    have hpos : 0 < syst / norm := by
      rcases mul_pos_iff.1 h with ⟨h1, h2⟩ | ⟨h1, h2⟩
      · exact div_pos h2 h1
      · exact div_pos_of_neg_of_neg h2 h1
    have hn : norm ≠ 0 := fun h0 => by simp [h0] at h
    constructor
    · rw [Real.rpow_def_of_pos hpos, mul_comm]; rfl
    · rintro rfl
      simp only [num, one_mul]
      rw [Real.exp_log hpos]
      field_simp

example : ∃ (s : Shape) (r : Rates), s.logNormal = true ∧ ∀ b p, 0 < r.at b p :=
  ⟨exShape true, ⟨1, fun _ _ => 2⟩, rfl, by simp [Rates.at]⟩

/-! ### C10 -/

/-- The sparse tensors hold the same content as the dense ones: every norm entry once, at its place, with its value;
every other cell of the dense tensors is zero (norm and variations); the variations of an entry are those of its cell. -/
structure Spec.SameContent (s : Shape) (t : Sparse) (d : Dense) : Prop where
  nodup : (t.norm.map fun e => (e.1, e.2.1)).Nodup
  bounds : ∀ e ∈ t.norm, e.1 < s.nbinsfull ∧ e.2.1 < s.nproc
  norm : ∀ b p v, (b, p, v) ∈ t.norm → d.norm b p = v
  empty : ∀ b p, (∀ v, (b, p, v) ∉ t.norm) → d.norm b p = 0 ∧ ∀ c < s.ncol, d.mlogk s b p c = 0
  logk : ∀ i b p v, t.norm[i]? = some (b, p, v) → ∀ c < s.ncol,
    d.mlogk s b p c = ((t.logk.filter fun e => e.1 == i && e.2.1 == c).map (·.2.2)).sum
  cols : ∀ e ∈ t.logk, e.2.1 < s.ncol

theorem sum_filter_cols (es : List (Nat × Nat × ℝ)) (n : Nat) (f : Nat → ℝ) (i : Nat) (h : ∀ e ∈ es, e.2.1 < n) :
    ((es.filter fun e => e.1 == i).map fun e => e.2.2 * f e.2.1).sum =
      ∑ c ∈ range n, ((es.filter fun e => e.1 == i && e.2.1 == c).map (·.2.2)).sum * f c := by
  induction es with
  | nil => simp
  | cons e es ih =>
    have ih := ih fun e he => h e (List.mem_cons_of_mem _ he)
    have he := h e (by simp)
    by_cases hi : (e.1 == i) = true
    · rw [List.filter_cons, if_pos hi, List.map_cons, List.sum_cons, ih]
      have : e.2.2 * f e.2.1 = ∑ c ∈ range n, (if e.2.1 = c then e.2.2 * f c else 0) := by
        rw [sum_ite_eq, if_pos (mem_range.2 he)]
      rw [this, ← sum_add_distrib]
      refine sum_congr rfl fun c _ => ?_
      rw [List.filter_cons]
      by_cases hc : e.2.1 = c
      · rw [if_pos hc, if_pos (by simpa using ⟨by simpa using hi, hc⟩), List.map_cons, List.sum_cons]; ring
      · rw [if_neg hc, if_neg (by simp [hc]), zero_add]
    · rw [List.filter_cons, if_neg hi, ih]
      refine sum_congr rfl fun c _ => ?_
      rw [List.filter_cons, if_neg (by simp [hi])]

theorem logsnorm_eq (s : Shape) (t : Sparse) (d : Dense) (h : Spec.SameContent s t d) (θ : Nat → ℝ) (i b p : Nat) (v : ℝ)
    (hi : t.norm[i]? = some (b, p, v)) : t.logsnorm s θ i = d.logsnorm s θ b p := by
  unfold Sparse.logsnorm Dense.logsnorm
  rw [sum_filter_cols t.logk s.ncol (mtheta s θ) i h.cols]
  refine sum_congr rfl fun c hc => ?_
  rw [h.logk i b p v hi c (mem_range.1 hc)]

theorem mem_values (s : Shape) (t : Sparse) (d : Dense) (h : Spec.SameContent s t d) (r : Rates) (θ : Nat → ℝ) :
    t.values s r θ = t.norm.map fun e => (e.1, e.2.1, d.yield s r θ e.1 e.2.1) := by
  unfold Sparse.values
  refine List.ext_getElem (by simp) fun i h1 h2 => ?_
  simp only [List.length_map] at h2
  simp only [List.getElem_map, List.getElem_zipIdx, Nat.zero_add]
  have hi : t.norm[i]? = some ((t.norm[i]).1, (t.norm[i]).2.1, (t.norm[i]).2.2) := by rw [List.getElem?_eq_getElem]
  rw [logsnorm_eq s t d h θ i _ _ _ hi]
  have hn := h.norm _ _ _ (List.mem_of_getElem? hi)
  unfold Dense.yield
  rw [hn]
  split_ifs
  · congr 2; ring
  · rfl

/-- the dense yield vanishes where the sparse tensor has no entry -/
theorem yield_zero (s : Shape) (t : Sparse) (d : Dense) (h : Spec.SameContent s t d) (r : Rates) (θ : Nat → ℝ) (b p : Nat)
    (hbp : ∀ v, (b, p, v) ∉ t.norm) : d.yield s r θ b p = 0 := by
  obtain ⟨h1, h2⟩ := h.empty b p hbp
  have h3 : d.logsnorm s θ b p = 0 := by
    unfold Dense.logsnorm
    exact sum_eq_zero fun c hc => by rw [h2 c (mem_range.1 hc), zero_mul]
  unfold Dense.yield
  rw [h1, h3]
  simp

theorem sum_single (l : List (Nat × Nat × ℝ)) (hn : (l.map fun e => (e.1, e.2.1)).Nodup) (f : Nat → Nat → ℝ) (b p : Nat) :
    (((l.map fun e => (e.1, e.2.1, f e.1 e.2.1)).filter fun e => e.1 == b && e.2.1 == p).map (·.2.2)).sum =
      if (b, p) ∈ l.map (fun e => (e.1, e.2.1)) then f b p else 0 := by
  induction l with
  | nil => simp
  | cons e l ih =>
    simp only [List.map_cons, List.nodup_cons] at hn
    have ih := ih hn.2
    simp only [List.map_cons, List.filter_cons, List.mem_cons]
    by_cases hc : (b, p) = (e.1, e.2.1)
    · obtain ⟨rfl, rfl⟩ := Prod.mk.inj hc
      rw [if_pos (by simp), List.map_cons, List.sum_cons, ih, if_neg hn.1, if_pos (.inl rfl), add_zero]
    · have hc' : ¬ ((e.1 == b && e.2.1 == p) = true) := by
        intro h
        obtain ⟨h1, h2⟩ := Bool.and_eq_true_iff.1 h
        exact hc (by rw [eq_of_beq h1, eq_of_beq h2])
      rw [if_neg hc', ih]
      by_cases hm : (b, p) ∈ l.map fun e => (e.1, e.2.1)
      · rw [if_pos hm, if_pos (.inr hm)]
      · rw [if_neg hm, if_neg (by rintro (h | h); exacts [hc h, hm h])]

theorem sum_bin (l : List (Nat × Nat × ℝ)) (b n : Nat) (h : ∀ e ∈ l, e.2.1 < n) :
    ((l.filter fun e => e.1 == b).map (·.2.2)).sum =
      ∑ p ∈ range n, ((l.filter fun e => e.1 == b && e.2.1 == p).map (·.2.2)).sum := by
  have := sum_filter_cols l n (fun _ => 1) b h
  simpa using this

/-- C10: with the same content, the sparse and the dense computation give the same yields in every bin and for every
process, and the same per-bin totals, for both systematic types, symmetric and asymmetric tensors, and with or without
masked bins. -/
theorem c10_yields_partial (s : Shape) (t : Sparse) (d : Dense)
    (h : Spec.SameContent s t d) (full : Bool) (r : Rates)
    (hr : r.rows = 1 ∨ (r.rows = s.nbinsfull ∧ (full = true ∨ s.nbinsfull = s.nbins))) (θ : Nat → ℝ) :
    ∃ n n' y y', d.compute s full r θ = .ok (n, y) ∧ t.compute s full r θ = .ok (n', y') ∧
      ∀ b < s.rowsOut full, n b = n' b ∧ ∀ p < s.nproc, y b p = y' b p := by
  have hcell : ∀ b < s.rowsOut full, ∀ p, (((if !full && s.nbinsfull ≠ s.nbins then
      (t.values s r θ).filter fun e => e.1 < s.nbins else t.values s r θ).filter
      fun e => e.1 == b && e.2.1 == p).map (·.2.2)).sum = d.yield s r θ b p := by
    intro b hb p
    have hfil : ((if !full && s.nbinsfull ≠ s.nbins then
      (t.values s r θ).filter fun e => e.1 < s.nbins else t.values s r θ).filter
      fun e => e.1 == b && e.2.1 == p) = (t.values s r θ).filter fun e => e.1 == b && e.2.1 == p := by
      split_ifs with hc
      · rw [List.filter_filter]
        refine List.filter_congr fun e _ => ?_
        simp only [Bool.and_eq_true, Bool.not_eq_true', decide_eq_true_eq] at hc
        have : s.rowsOut full = s.nbins := by simp [Shape.rowsOut, hc.1, hc.2]
        rw [this] at hb
        by_cases he : e.1 = b
        · subst he; simp [hb]
        · simp [he]
      · rfl
    rw [hfil, mem_values s t d h, sum_single _ h.nodup (fun b p => d.yield s r θ b p)]
    split_ifs with hm
    · rfl
    · refine (yield_zero s t d h r θ b p fun v hv => hm ?_).symm
      exact List.mem_map.2 ⟨_, hv, rfl⟩
  have hd : r.rows = 1 ∨ r.rows = s.rowsOut full := by
    rcases hr with h1 | ⟨h1, h2⟩
    · exact .inl h1
    · right; rw [h1]; unfold Shape.rowsOut; rcases h2 with h2 | h2 <;> simp [h2]
  refine ⟨_, _, _, _, by rw [Dense.compute, if_pos hd], by rw [Sparse.compute, if_pos (hr.imp_right And.left)], ?_⟩
  intro b hb
  refine ⟨?_, fun p _ => (hcell b hb p).symm⟩
  rw [sum_bin _ b s.nproc]
  · exact sum_congr rfl fun p _ => (hcell b hb p).symm
  · intro e he
    have : e ∈ t.values s r θ := by
      split_ifs at he
      · exact (List.mem_filter.1 he).1
      · exact he
    rw [mem_values s t d h] at this
    obtain ⟨e', he', rfl⟩ := List.mem_map.1 this
    exact (h.bounds e' he').2

/-- C10: the scaling of the variations of the normal type by the default rate factor keeps the content the same. -/
theorem c10_scaled (s : Shape) (t : Sparse) (d : Dense) (h : Spec.SameContent s t d) (nparams : Nat) (rinit : Rates) :
    Spec.SameContent s (t.scaled s nparams rinit) (d.scaled s nparams rinit) := by
  by_cases hc : s.logNormal ∨ nparams = 0
  · simpa [Sparse.scaled, Dense.scaled, hc] using h
  · have hml : ∀ b p c, (d.scaled s nparams rinit).mlogk s b p c = d.mlogk s b p c * rinit.at b p := by
      intro b p c; simp only [Dense.scaled, hc, if_false, Dense.mlogk]; split_ifs <;> rfl
    have hnd : (d.scaled s nparams rinit).norm = d.norm := by simp [Dense.scaled, hc]
    have hnt : (t.scaled s nparams rinit).norm = t.norm := by simp [Sparse.scaled, hc]
    refine ⟨by rw [hnt]; exact h.nodup, by rw [hnt]; exact h.bounds, ?_, ?_, ?_, ?_⟩
    · rw [hnt, hnd]; exact h.norm
    · rw [hnt, hnd]
      intro b p hbp
      obtain ⟨h1, h2⟩ := h.empty b p hbp
      exact ⟨h1, fun c hc => by rw [hml, h2 c hc, zero_mul]⟩
    · rw [hnt]
      intro i b p v hi c hcol
      rw [hml, h.logk i b p v hi c hcol]
      simp only [Sparse.scaled, hc, if_false]
      rw [List.filter_map, List.map_map, ← List.sum_map_mul_right]
      congr 1
      refine List.map_congr_left fun e he => ?_
      have := (List.mem_filter.1 he).2
      simp only [Bool.and_eq_true, beq_iff_eq] at this
      simp only [Function.comp_apply, this.1, hi]
    · intro e he
      simp only [Sparse.scaled, hc, if_false] at he
      obtain ⟨e', he', rfl⟩ := List.mem_map.1 he
      exact h.cols e' he'

/-- C10 is violated with masked channels and a rate model that returns one row per fitted bin (e.g. the ABCD models):
the dense computation of the fitted bins succeeds, the sparse one raises. -/
theorem c10_masked_rates_violated : ∃ (s : Shape) (t : Sparse) (d : Dense) (r : Rates) (θ : Nat → ℝ),
    Spec.SameContent s t d ∧ (∃ y, d.compute s false r θ = .ok y) ∧ t.compute s false r θ = .error .value := by
  refine ⟨⟨2, 3, 1, 0, true, true⟩, ⟨[], []⟩, ⟨fun _ _ => 0, fun _ _ _ _ => 0⟩, ⟨2, fun _ _ => 1⟩, fun _ => 0, ?_, ?_, ?_⟩
  · refine ⟨by simp, by simp, by simp, ?_, by simp, by simp⟩
    intro b p _; exact ⟨rfl, fun c _ => by simp [Dense.mlogk]⟩
  · exact ⟨_, by rw [Dense.compute, if_pos]; simp [Shape.rowsOut]⟩
  · rw [Sparse.compute, if_neg]; simp

/-- a tensor with two bins, two processes and one asymmetric nuisance; one cell is empty -/
noncomputable def exSparse : Sparse :=
  ⟨[(0, 0, 10), (0, 1, 5), (1, 1, 7)], [(0, 0, 1 / 10), (2, 0, 1 / 5), (2, 1, 1 / 20)]⟩
noncomputable def exDense2 : Dense :=
  ⟨fun b p => if b = 0 ∧ p = 0 then 10 else if b = 0 ∧ p = 1 then 5 else if b = 1 ∧ p = 1 then 7 else 0,
    fun b p k _ => if b = 0 ∧ p = 0 ∧ k = 0 then 1 / 10 else if b = 1 ∧ p = 1 then (if k = 0 then 1 / 5 else 1 / 20) else 0⟩

example : Spec.SameContent ⟨2, 2, 2, 1, false, true⟩ exSparse exDense2 := by
  refine ⟨by simp [exSparse], by simp [exSparse], ?_, ?_, ?_, by simp [exSparse, Shape.ncol]⟩
  · intro b p v h
    simp only [exSparse, List.mem_cons, Prod.mk.injEq, List.not_mem_nil, or_false] at h
    rcases h with ⟨rfl, rfl, rfl⟩ | ⟨rfl, rfl, rfl⟩ | ⟨rfl, rfl, rfl⟩ <;> simp [exDense2]
  · intro b p h
    have h1 := h 10; have h2 := h 5; have h3 := h 7
    simp only [exSparse, List.mem_cons, Prod.mk.injEq, List.not_mem_nil, or_false, not_or] at h1 h2 h3
    have a1 : ¬ (b = 0 ∧ p = 0) := fun hh => h1.1 ⟨hh.1, hh.2, trivial⟩
    have a2 : ¬ (b = 0 ∧ p = 1) := fun hh => h2.2.1 ⟨hh.1, hh.2, trivial⟩
    have a3 : ¬ (b = 1 ∧ p = 1) := fun hh => h3.2.2 ⟨hh.1, hh.2, trivial⟩
    refine ⟨by simp only [exDense2, a1, a2, a3, if_false], fun c _ => ?_⟩
    have a4 : ¬ (b = 0 ∧ p = 0 ∧ c / 1 = 0) := fun hh => a1 ⟨hh.1, hh.2.1⟩
    simp only [Dense.mlogk, exDense2, a3, a4, if_false, Bool.false_eq_true]
  · intro i b p v hi c hc
    simp only [Shape.ncol, Bool.false_eq_true, if_false] at hc
    have hi3 : i < 3 := by
      obtain ⟨h, -⟩ := List.getElem?_eq_some_iff.1 hi; simpa [exSparse] using h
    interval_cases i <;> simp [exSparse] at hi <;> obtain ⟨rfl, rfl, rfl⟩ := hi <;> interval_cases c <;>
      simp [exSparse, exDense2, Dense.mlogk]

end Verif.Yields
