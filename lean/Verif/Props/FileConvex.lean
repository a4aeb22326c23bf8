import Mathlib.Analysis.Convex.Extrema
import Mathlib.Analysis.Convex.SpecificFunctions.Basic
import Verif.Props.FileAdditive

/-!
C114 The loss of a file with additive, symmetric variations is convex, so that the minimum that is found is the smallest value.
-/

namespace Verif.FileFit

open Verif.Writer Verif.LinearFit Verif.FitParams Finset

noncomputable section

namespace Spec

/-- no variation is given by two templates without symmetrisation -/
def symmetrised (ops : List (Op ℝ)) : Prop :=
  ∀ h h' name p c k mirror toCov diff o, Op.syst (.pair h h') name p c k mirror .none toCov diff o ∉ ops

/-- the strengths and nuisances for which all bins of the fitted channels expect events -/
def Additive.domain (A : Additive) : Set ((String → ℝ) × (String → ℝ)) :=
  {v | ∀ c ∈ A.chans, ∀ i < c.2, 0 < A.expected v.1 v.2 c.1 i}

end Spec

/-! ### convexity on paper -/

theorem sum_comb {a b : ℝ} {l : List String} {f g h : String → ℝ} (e : ∀ p ∈ l, f p = a * g p + b * h p) :
    (l.map f).sum = a * (l.map g).sum + b * (l.map h).sum := by
  rw [List.map_congr_left e, List.sum_map_add, List.sum_map_mul_left, List.sum_map_mul_left]

theorem sum_below {α : Type} {a b : ℝ} {l : List α} {f g h : α → ℝ} (e : ∀ p ∈ l, f p ≤ a * g p + b * h p) :
    (l.map f).sum ≤ a * (l.map g).sum + b * (l.map h).sum := by
  rw [← List.sum_map_mul_left, ← List.sum_map_mul_left, ← List.sum_map_add]
  exact List.sum_le_sum e

theorem sum_strict {α : Type} {a b : ℝ} {l : List α} {f g h : α → ℝ} (e : ∀ p ∈ l, f p ≤ a * g p + b * h p) (e' : ∃ p ∈ l, f p < a * g p + b * h p) :
    (l.map f).sum < a * (l.map g).sum + b * (l.map h).sum := by
  rw [← List.sum_map_mul_left, ← List.sum_map_mul_left, ← List.sum_map_add]
  exact List.sum_lt_sum f _ e e'

section
variable {A : Spec.Additive} (hlin : ∀ c n, (c, n) ∈ A.chans → ∀ p, ∀ m ∈ A.nuisances, ∀ i < n, ∃ s, ∀ θ, A.shift c p m i θ = s * θ)
include hlin

theorem expected_comb {c : String} {n i : Nat} (hc : (c, n) ∈ A.chans) (hi : i < n) {a b : ℝ} (hab : a + b = 1) {μ μ1 μ2 θ θ1 θ2 : String → ℝ}
    (hμ : ∀ p, μ p = a * μ1 p + b * μ2 p) (hθ : ∀ m, θ m = a * θ1 m + b * θ2 m) :
    A.expected μ θ c i = a * A.expected μ1 θ1 c i + b * A.expected μ2 θ2 c i := by
  unfold Spec.Additive.expected
  have e1 : (A.signals.map fun p => μ p * A.nominal c p i).sum = a * (A.signals.map fun p => μ1 p * A.nominal c p i).sum +
      b * (A.signals.map fun p => μ2 p * A.nominal c p i).sum := sum_comb fun p _ => by rw [hμ]; ring
  have e3 : ((A.signals ++ A.backgrounds).map fun p => (A.nuisances.map fun m => A.shift c p m i (θ m)).sum).sum =
      a * ((A.signals ++ A.backgrounds).map fun p => (A.nuisances.map fun m => A.shift c p m i (θ1 m)).sum).sum +
      b * ((A.signals ++ A.backgrounds).map fun p => (A.nuisances.map fun m => A.shift c p m i (θ2 m)).sum).sum := by
    refine sum_comb fun p _ => sum_comb fun m hm => ?_
    obtain ⟨s, hs⟩ := hlin c n hc p m hm i hi
    rw [hs, hs, hs, hθ]
    ring
  rw [e1, e3]
  have : b = 1 - a := by linarith
  subst this
  ring

theorem nll_comb (hobs : ∀ c n, (c, n) ∈ A.chans → ∀ i < n, 0 ≤ A.obs c i) {a b : ℝ} (ha : 0 ≤ a) (hb : 0 ≤ b) (hab : a + b = 1)
    {μ μ1 μ2 θ θ1 θ2 : String → ℝ} (hμ : ∀ p, μ p = a * μ1 p + b * μ2 p) (hθ : ∀ m, θ m = a * θ1 m + b * θ2 m)
    (h1 : (μ1, θ1) ∈ A.domain) (h2 : (μ2, θ2) ∈ A.domain) :
    (μ, θ) ∈ A.domain ∧ A.nll μ θ ≤ a * A.nll μ1 θ1 + b * A.nll μ2 θ2 := by
  have hE := fun c n (hc : (c, n) ∈ A.chans) i (hi : i < n) => expected_comb hlin hc hi hab hμ hθ
  constructor
  · intro c hc i hi
    show 0 < A.expected μ θ c.1 i
    rw [hE c.1 c.2 hc i hi]
    have k1 : 0 < A.expected μ1 θ1 c.1 i := h1 c hc i hi
    have k2 : 0 < A.expected μ2 θ2 c.1 i := h2 c hc i hi
    rcases ha.lt_or_eq with h | h
    · exact add_pos_of_pos_of_nonneg (mul_pos h k1) (mul_nonneg hb k2.le)
    · rw [← h] at hab ⊢
      rw [zero_add] at hab
      rw [hab]; linarith
  · unfold Spec.Additive.nll
    have e1 : (A.chans.map fun c => ∑ i ∈ range c.2, (A.expected μ θ c.1 i - A.obs c.1 i * Real.log (A.expected μ θ c.1 i))).sum ≤
        a * (A.chans.map fun c => ∑ i ∈ range c.2, (A.expected μ1 θ1 c.1 i - A.obs c.1 i * Real.log (A.expected μ1 θ1 c.1 i))).sum +
        b * (A.chans.map fun c => ∑ i ∈ range c.2, (A.expected μ2 θ2 c.1 i - A.obs c.1 i * Real.log (A.expected μ2 θ2 c.1 i))).sum := by
      refine sum_below fun c hc => ?_
      rw [mul_sum, mul_sum, ← sum_add_distrib]
      refine sum_le_sum fun i hi => ?_
      have hi' := mem_range.1 hi
      rw [hE c.1 c.2 hc i hi']
      have k1 : 0 < A.expected μ1 θ1 c.1 i := h1 c hc i hi'
      have k2 : 0 < A.expected μ2 θ2 c.1 i := h2 c hc i hi'
      have hl := strictConcaveOn_log_Ioi.concaveOn.2 (Set.mem_Ioi.2 k1) (Set.mem_Ioi.2 k2) ha hb hab
      simp only [smul_eq_mul] at hl
      have := mul_le_mul_of_nonneg_left hl (hobs c.1 c.2 hc i hi')
      linarith
    have e2 : (A.nuisances.map fun m => if A.constrained m then θ m ^ 2 / 2 else 0).sum ≤
        a * (A.nuisances.map fun m => if A.constrained m then θ1 m ^ 2 / 2 else 0).sum +
        b * (A.nuisances.map fun m => if A.constrained m then θ2 m ^ 2 / 2 else 0).sum := by
      refine sum_below fun m _ => ?_
      split_ifs
      · rw [hθ]
        have : b = 1 - a := by linarith
        subst this
        nlinarith [mul_nonneg (mul_nonneg ha hb) (sq_nonneg (θ1 m - θ2 m))]
      · simp
    linarith

/-- between two points that differ in a constrained nuisance or in the expected events of a bin with data the likelihood is strictly below the average -/
theorem nll_mid (hobs : ∀ c n, (c, n) ∈ A.chans → ∀ i < n, 0 ≤ A.obs c i) {μ μ1 μ2 θ θ1 θ2 : String → ℝ}
    (hμ : ∀ p, μ p = 1 / 2 * μ1 p + 1 / 2 * μ2 p) (hθ : ∀ m, θ m = 1 / 2 * θ1 m + 1 / 2 * θ2 m)
    (h1 : (μ1, θ1) ∈ A.domain) (h2 : (μ2, θ2) ∈ A.domain)
    (hne : (∃ m ∈ A.nuisances, A.constrained m = true ∧ θ1 m ≠ θ2 m) ∨
      ∃ c ∈ A.chans, ∃ i < c.2, 0 < A.obs c.1 i ∧ A.expected μ1 θ1 c.1 i ≠ A.expected μ2 θ2 c.1 i) :
    A.nll μ θ < 1 / 2 * A.nll μ1 θ1 + 1 / 2 * A.nll μ2 θ2 := by
  have hhalf : (0 : ℝ) < 1 / 2 := by norm_num
  have hone : (1 / 2 : ℝ) + 1 / 2 = 1 := by norm_num
  have hE := fun c n (hc : (c, n) ∈ A.chans) i (hi : i < n) => expected_comb hlin hc hi hone hμ hθ
  unfold Spec.Additive.nll
  have hbin : ∀ c ∈ A.chans, ∀ i < c.2, A.expected μ θ c.1 i - A.obs c.1 i * Real.log (A.expected μ θ c.1 i) ≤
      1 / 2 * (A.expected μ1 θ1 c.1 i - A.obs c.1 i * Real.log (A.expected μ1 θ1 c.1 i)) +
      1 / 2 * (A.expected μ2 θ2 c.1 i - A.obs c.1 i * Real.log (A.expected μ2 θ2 c.1 i)) := by
    intro c hc i hi
    rw [hE c.1 c.2 hc i hi]
    have hl := strictConcaveOn_log_Ioi.concaveOn.2 (Set.mem_Ioi.2 (h1 c hc i hi)) (Set.mem_Ioi.2 (h2 c hc i hi)) hhalf.le hhalf.le hone
    simp only [smul_eq_mul] at hl
    have := mul_le_mul_of_nonneg_left hl (hobs c.1 c.2 hc i hi)
    linarith
  have hchan : ∀ c ∈ A.chans, ∑ i ∈ range c.2, (A.expected μ θ c.1 i - A.obs c.1 i * Real.log (A.expected μ θ c.1 i)) ≤
      1 / 2 * (∑ i ∈ range c.2, (A.expected μ1 θ1 c.1 i - A.obs c.1 i * Real.log (A.expected μ1 θ1 c.1 i))) +
      1 / 2 * (∑ i ∈ range c.2, (A.expected μ2 θ2 c.1 i - A.obs c.1 i * Real.log (A.expected μ2 θ2 c.1 i))) := by
    intro c hc
    rw [mul_sum, mul_sum, ← sum_add_distrib]
    exact sum_le_sum fun i hi => hbin c hc i (mem_range.1 hi)
  have hpull : ∀ m ∈ A.nuisances, (if A.constrained m then θ m ^ 2 / 2 else 0) ≤
      1 / 2 * (if A.constrained m then θ1 m ^ 2 / 2 else 0) + 1 / 2 * (if A.constrained m then θ2 m ^ 2 / 2 else 0) := by
    intro m _
    split_ifs
    · rw [hθ]
      nlinarith [sq_nonneg (θ1 m - θ2 m)]
    · simp
  rcases hne with ⟨m, hm, hcm, hd⟩ | ⟨c, hc, i, hi, ho, hd⟩
  · have e1 := sum_below hchan
    have e2 : (A.nuisances.map fun m => if A.constrained m then θ m ^ 2 / 2 else 0).sum <
        1 / 2 * (A.nuisances.map fun m => if A.constrained m then θ1 m ^ 2 / 2 else 0).sum +
        1 / 2 * (A.nuisances.map fun m => if A.constrained m then θ2 m ^ 2 / 2 else 0).sum := by
      refine sum_strict hpull ⟨m, hm, ?_⟩
      rw [if_pos hcm, if_pos hcm, if_pos hcm, hθ]
      have : 0 < (θ1 m - θ2 m) ^ 2 := by
        have : θ1 m - θ2 m ≠ 0 := sub_ne_zero.2 hd
        positivity
      nlinarith
    linarith
  · have e2 := sum_below hpull
    have e1 : (A.chans.map fun c => ∑ i ∈ range c.2, (A.expected μ θ c.1 i - A.obs c.1 i * Real.log (A.expected μ θ c.1 i))).sum <
        1 / 2 * (A.chans.map fun c => ∑ i ∈ range c.2, (A.expected μ1 θ1 c.1 i - A.obs c.1 i * Real.log (A.expected μ1 θ1 c.1 i))).sum +
        1 / 2 * (A.chans.map fun c => ∑ i ∈ range c.2, (A.expected μ2 θ2 c.1 i - A.obs c.1 i * Real.log (A.expected μ2 θ2 c.1 i))).sum := by
      refine sum_strict hchan ⟨c, hc, ?_⟩
      rw [mul_sum, mul_sum, ← sum_add_distrib]
      refine sum_lt_sum (fun i hi => hbin c hc i (mem_range.1 hi)) ⟨i, mem_range.2 hi, ?_⟩
      rw [hE c.1 c.2 hc i hi]
      have hl := strictConcaveOn_log_Ioi.2 (Set.mem_Ioi.2 (h1 c hc i hi)) (Set.mem_Ioi.2 (h2 c hc i hi)) hd hhalf hhalf hone
      simp only [smul_eq_mul] at hl
      have := mul_lt_mul_of_pos_left hl ho
      linarith
    linarith

end

/-! ### files -/

theorem getD_comb {n : Nat} (x y : Fin n → ℝ) (a b : ℝ) (k : Nat) :
    (List.ofFn (a • x + b • y)).getD k 0 = a * (List.ofFn x).getD k 0 + b * (List.ofFn y).getD k 0 := by
  simp only [List.getD_eq_getElem?_getD, List.getElem?_ofFn]
  split_ifs
  · simp
  · simp

theorem linear_shift {b : Bool} {ops : List (Op ℝ)} {A : Spec.Additive} (E : Spec.Sums b ops A) (hsym : Spec.symmetrised ops) (δ : String → ℝ) :
    ∀ c n, (c, n) ∈ (A.stored δ).chans → ∀ p, ∀ m ∈ (A.stored δ).nuisances, ∀ i < n, ∃ s, ∀ θ, (A.stored δ).shift c p m i θ = s * θ := by
  intro c n hc p m hm i hi
  have key : ∃ s, ∀ θ, A.shift c p m i θ = s * θ := by
    by_cases hto : ∃ op ∈ ops, Writer.Spec.touches c p m op
    · obtain ⟨op, ho, hto⟩ := hto
      have hs := E.shifts c n hc p m hm op ho hto i hi
      cases op with
      | channel | data | dataCov | pseudo | process | write => exact hs.elim
      | syst x name p' c' k mirror symm toCov diff o =>
        cases x with
        | single h =>
          obtain ⟨_, u, _, h3⟩ := hs
          exact ⟨_, h3⟩
        | pair h h' =>
          obtain ⟨_, u, d, _, _, h3⟩ := hs
          cases symm with
          | none => exact (hsym _ _ _ _ _ _ _ _ _ _ ho).elim
          | average | conservative | linear | quadratic => exact ⟨_, h3⟩
      | normSyst name procs c' unc toCov symm o =>
        obtain ⟨_, ⟨_, us, _, _, _, u, _, h3⟩ | ⟨u, d, _, _, _, _, h4, h3⟩⟩ := hs
        · exact ⟨_, h3⟩
        · rcases h4 with rfl | rfl <;> exact ⟨_, h3⟩
    · exact ⟨0, fun θ => by rw [E.silent c (List.mem_map.2 ⟨_, hc, rfl⟩) p m (fun op h1 h2 => hto ⟨op, h1, h2⟩), zero_mul]⟩
  obtain ⟨s, hs⟩ := key
  refine ⟨if A.nominal c p i = 0 then 0 else δ p * s, fun θ => ?_⟩
  show (if A.nominal c p i = 0 then 0 else δ p * A.shift c p m i θ) = _
  rw [hs]
  split_ifs
  · rw [zero_mul]
  · ring

/-- the points at which the fit of a file expects events in every bin -/
def domain (t : Tensor ℝ) (A : Spec.Additive) (xdef : List ℝ) : Set (Fin (ofFile t .normal xdef true).n → ℝ) :=
  {x | (Spec.strength t true (List.ofFn x), Spec.nuisance t (List.ofFn x)) ∈ (A.stored (Spec.default t xdef)).domain}

/-- C114 (dense mode): A file written by accepted calls with the normal type and symmetric variations, fitted with signal strengths of either sign: the loss
is convex on the points at which events are expected in every bin. -/
theorem c114_convex (cfg : Writer.Cfg ℝ) (ops : List (Op ℝ)) (iter : List String → List String) (t : Tensor ℝ) (A : Spec.Additive)
    (F : Writer.Spec.file cfg ops iter t) (hok : Writer.Spec.allOk cfg {} ops) (hst : cfg.systType = .normal)
    (hit : ∀ l, (iter l).Perm l) (hcon : Writer.Spec.consistent ops) (E : Spec.Sums cfg.allowNeg ops A) (hsym : Spec.symmetrised ops)
    (hobs : ∀ c n, (c, n) ∈ A.chans → ∀ i < n, 0 ≤ A.obs c i) (xdef : List ℝ) (hdef : xdef.length = t.signals.length) :
    ∃ f, (∀ x, (ofFile t .normal xdef true).loss x = .ok (some (f x))) ∧ ConvexOn ℝ (domain t A xdef) f := by
  obtain ⟨C, h⟩ := c113_stored cfg ops iter t A F hok hst hit hcon E xdef hdef true
  have key : ∀ x ∈ domain t A xdef, ∀ y ∈ domain t A xdef, ∀ a b : ℝ, 0 ≤ a → 0 ≤ b → a + b = 1 → _ := fun x hx y hy a b ha hb hab =>
    nll_comb (linear_shift E hsym (Spec.default t xdef)) hobs ha hb hab
      (μ := Spec.strength t true (List.ofFn (a • x + b • y))) (θ := Spec.nuisance t (List.ofFn (a • x + b • y)))
      (μ1 := Spec.strength t true (List.ofFn x)) (μ2 := Spec.strength t true (List.ofFn y))
      (θ1 := Spec.nuisance t (List.ofFn x)) (θ2 := Spec.nuisance t (List.ofFn y))
      (fun p => getD_comb x y a b _) (fun m => getD_comb x y a b _) hx hy
  refine ⟨_, h, fun x hx y hy a b ha hb hab => (key x hx y hy a b ha hb hab).1, fun x hx y hy a b ha hb hab => ?_⟩
  have h3 := add_le_add_left (key x hx y hy a b ha hb hab).2 C
  refine h3.trans (le_of_eq ?_)
  simp only [smul_eq_mul]
  have : b = 1 - a := by linarith
  subst this
  ring

/-- C114 (dense mode): Under the same conditions a point that no point nearby improves is not improved by any other point. -/
theorem c114_minimum (cfg : Writer.Cfg ℝ) (ops : List (Op ℝ)) (iter : List String → List String) (t : Tensor ℝ) (A : Spec.Additive)
    (F : Writer.Spec.file cfg ops iter t) (hok : Writer.Spec.allOk cfg {} ops) (hst : cfg.systType = .normal)
    (hit : ∀ l, (iter l).Perm l) (hcon : Writer.Spec.consistent ops) (E : Spec.Sums cfg.allowNeg ops A) (hsym : Spec.symmetrised ops)
    (hobs : ∀ c n, (c, n) ∈ A.chans → ∀ i < n, 0 ≤ A.obs c i) (xdef : List ℝ) (hdef : xdef.length = t.signals.length)
    (f : (Fin (ofFile t .normal xdef true).n → ℝ) → ℝ) (hf : ∀ x, (ofFile t .normal xdef true).loss x = .ok (some (f x)))
    (x : Fin (ofFile t .normal xdef true).n → ℝ) (hx : x ∈ domain t A xdef) (ε : ℝ) (hε : 0 < ε)
    (hloc : ∀ y ∈ domain t A xdef, (∀ i, |y i - x i| < ε) → f x ≤ f y) : ∀ y ∈ domain t A xdef, f x ≤ f y := by
  obtain ⟨g, hg, hconv⟩ := c114_convex cfg ops iter t A F hok hst hit hcon E hsym hobs xdef hdef
  have hfg : f = g := funext fun x => Option.some.inj (Except.ok.inj ((hf x).symm.trans (hg x)))
  subst hfg
  have hmin : IsLocalMinOn f (domain t A xdef) x := by
    refine Filter.mem_of_superset (inter_mem_nhdsWithin _ (Metric.ball_mem_nhds x hε)) fun y hy => hloc y hy.1 fun i => ?_
    have := (dist_le_pi_dist y x i).trans_lt (Metric.mem_ball.1 hy.2)
    rwa [Real.dist_eq] at this
  exact fun y hy => IsMinOn.of_isLocalMinOn_of_convexOn hx hmin hconv hy

/-- C114 (dense mode): Under the same conditions two minima agree in every constrained nuisance and in the expected events of every bin that has data. -/
theorem c114_unique (cfg : Writer.Cfg ℝ) (ops : List (Op ℝ)) (iter : List String → List String) (t : Tensor ℝ) (A : Spec.Additive)
    (F : Writer.Spec.file cfg ops iter t) (hok : Writer.Spec.allOk cfg {} ops) (hst : cfg.systType = .normal)
    (hit : ∀ l, (iter l).Perm l) (hcon : Writer.Spec.consistent ops) (E : Spec.Sums cfg.allowNeg ops A) (hsym : Spec.symmetrised ops)
    (hobs : ∀ c n, (c, n) ∈ A.chans → ∀ i < n, 0 ≤ A.obs c i) (xdef : List ℝ) (hdef : xdef.length = t.signals.length)
    (f : (Fin (ofFile t .normal xdef true).n → ℝ) → ℝ) (hf : ∀ x, (ofFile t .normal xdef true).loss x = .ok (some (f x)))
    (x y : Fin (ofFile t .normal xdef true).n → ℝ) (hx : x ∈ domain t A xdef) (hy : y ∈ domain t A xdef)
    (hminx : ∀ z ∈ domain t A xdef, f x ≤ f z) (hminy : ∀ z ∈ domain t A xdef, f y ≤ f z) :
    (∀ m ∈ A.nuisances, A.constrained m = true → Spec.nuisance t (List.ofFn x) m = Spec.nuisance t (List.ofFn y) m) ∧
    ∀ c n, (c, n) ∈ A.chans → ∀ i < n, 0 < A.obs c i →
      (A.stored (Spec.default t xdef)).expected (Spec.strength t true (List.ofFn x)) (Spec.nuisance t (List.ofFn x)) c i =
      (A.stored (Spec.default t xdef)).expected (Spec.strength t true (List.ofFn y)) (Spec.nuisance t (List.ofFn y)) c i := by
  obtain ⟨C, h⟩ := c113_stored cfg ops iter t A F hok hst hit hcon E xdef hdef true
  have hval : ∀ x, f x = _ := fun x => Option.some.inj (Except.ok.inj ((hf x).symm.trans (h x)))
  have key := nll_mid (A := A.stored (Spec.default t xdef)) (linear_shift E hsym (Spec.default t xdef)) hobs
      (μ := Spec.strength t true (List.ofFn ((1 / 2 : ℝ) • x + (1 / 2 : ℝ) • y))) (θ := Spec.nuisance t (List.ofFn ((1 / 2 : ℝ) • x + (1 / 2 : ℝ) • y)))
      (μ1 := Spec.strength t true (List.ofFn x)) (μ2 := Spec.strength t true (List.ofFn y))
      (θ1 := Spec.nuisance t (List.ofFn x)) (θ2 := Spec.nuisance t (List.ofFn y))
      (fun p => getD_comb x y _ _ _) (fun m => getD_comb x y _ _ _) hx hy
  have hmid : (1 / 2 : ℝ) • x + (1 / 2 : ℝ) • y ∈ domain t A xdef :=
    (nll_comb (linear_shift E hsym (Spec.default t xdef)) hobs (by norm_num) (by norm_num) (by norm_num)
      (fun p => getD_comb x y _ _ _) (fun m => getD_comb x y _ _ _) hx hy).1
  have k1 := hminx _ hmid
  have k2 := hminy _ hmid
  rw [hval, hval] at k1 k2
  constructor
  · intro m hm hcm
    by_contra hd
    have := key (.inl ⟨m, hm, hcm, hd⟩)
    linarith
  · intro c n hc i hi ho
    by_contra hd
    have := key (.inr ⟨(c, n), hc, i, hi, ho, hd⟩)
    linarith

/-! ### concrete cases -/

namespace Ex

theorem obsZ : ∀ c n, (c, n) ∈ (paperZ 1).chans → ∀ i < n, 0 ≤ (paperZ 1).obs c i := by
  intro c n hc i hi
  simp only [paperZ, List.mem_singleton, Prod.mk.injEq] at hc
  obtain ⟨rfl, rfl⟩ := hc
  show (0 : ℝ) ≤ [2, 4].getD i 0
  match i, hi with
  | 0, _ => exact two_pos.le
  | 1, _ => exact four_pos.le

/-- a bin fits best when the expected events are the observed ones -/
theorem bin_best {o e : ℝ} (ho : 0 < o) (he : 0 < e) : o - o * Real.log o ≤ e - o * Real.log e := by
  have h := Real.log_le_sub_one_of_pos (div_pos he ho)
  rw [Real.log_div he.ne' ho.ne'] at h
  have h2 := mul_le_mul_of_nonneg_left h ho.le
  have h3 : o * (e / o - 1) = e - o := by field_simp
  rw [h3] at h2
  linarith

end Ex

/-- The hypotheses of `c114_convex`, `c114_minimum` and `c114_unique` are met by a file with a signal, a background and a variation: the point with strength one
and no pull, where the expected events are the observed ones, is in the domain and is a minimum, and every minimum has no pull. -/
example : ∃ t f, t.procs = ["p", "q"] ∧ (∀ x, (ofFile t .normal [1] true).loss x = .ok (some (f x))) ∧ ConvexOn ℝ (domain t (Ex.paperZ 1) [1]) f ∧
    (∃ x ∈ domain t (Ex.paperZ 1) [1], ∀ z ∈ domain t (Ex.paperZ 1) [1], f x ≤ f z) ∧
    ∀ y ∈ domain t (Ex.paperZ 1) [1], (∀ z ∈ domain t (Ex.paperZ 1) [1], f y ≤ f z) → Spec.nuisance t (List.ofFn y) "n" = 0 := by
  obtain ⟨h1, h2, h3⟩ := Ex.goodZ (z := 1) (.inr rfl)
  obtain ⟨t, ht, hv⟩ := Writer.Ex.okB_iff h2
  obtain ⟨g1, g2⟩ := Writer.Ex.goodB_iff _ _ _ h1
  simp only [Ex.viewZ, Bool.and_eq_true, beq_iff_eq] at hv
  obtain ⟨⟨v1, v2⟩, v3⟩ := hv
  have F : Writer.Spec.file Ex.cfgN (Ex.opsZ 1) id t := ⟨rfl, rfl, g1, g2, ht⟩
  have hok := Writer.Ex.allOkB_iff _ _ _ h3
  have hsym : Spec.symmetrised (Ex.opsZ 1) := by simp [Spec.symmetrised, Ex.opsZ]
  have hl : [(1 : ℝ)].length = t.signals.length := by rw [v3]; rfl
  obtain ⟨f, hf, hc⟩ := c114_convex Ex.cfgN (Ex.opsZ 1) id t (Ex.paperZ 1) F hok rfl (fun l => .refl l) (Ex.consistentZ 1) (Ex.sumsZ 1) hsym Ex.obsZ [1] hl
  have k1 : Spec.nuisance t (List.ofFn (point t (fun _ => 1) (fun _ => 0) (ofFile t .normal [1] true).n)) "n" = 0 :=
    point_nuisance t _ _ [1] true (by rw [v2]; exact List.mem_singleton.2 rfl)
  have k2 : Spec.strength t true (List.ofFn (point t (fun _ => 1) (fun _ => 0) (ofFile t .normal [1] true).n)) "p" = 1 := by
    unfold Spec.strength
    rw [if_pos rfl, point_signal t _ _ [1] true (by rw [v3]; exact List.mem_singleton.2 rfl)]
  have hx : point t (fun _ => 1) (fun _ => 0) (ofFile t .normal [1] true).n ∈ domain t (Ex.paperZ 1) [1] := by
    intro c hc i hi
    have hc' : c = ("a", 2) := List.mem_singleton.1 hc
    subst hc'
    match i, hi with
    | 0, _ => simp [Spec.Additive.expected, Spec.Additive.stored, Ex.paperZ, k1, k2]
    | 1, _ => simp [Spec.Additive.expected, Spec.Additive.stored, Ex.paperZ, k2]
  have hmin : ∀ z ∈ domain t (Ex.paperZ 1) [1], f (point t (fun _ => 1) (fun _ => 0) (ofFile t .normal [1] true).n) ≤ f z := by
    obtain ⟨C, hC⟩ := c113_stored _ _ id t _ F hok rfl (fun l => .refl l) (Ex.consistentZ 1) (Ex.sumsZ 1) [1] hl true
    have hval : ∀ x, f x = _ := fun x => Option.some.inj (Except.ok.inj ((hf x).symm.trans (hC x)))
    intro z hz
    rw [hval, hval]
    have hE : ∀ μ θ, ((Ex.paperZ 1).stored (Spec.default t [1])).nll μ θ =
        (((Ex.paperZ 1).stored (Spec.default t [1])).expected μ θ "a" 0 - 2 * Real.log (((Ex.paperZ 1).stored (Spec.default t [1])).expected μ θ "a" 0)) +
        (((Ex.paperZ 1).stored (Spec.default t [1])).expected μ θ "a" 1 - 4 * Real.log (((Ex.paperZ 1).stored (Spec.default t [1])).expected μ θ "a" 1)) +
        θ "n" ^ 2 / 2 := by
      intro μ θ
      generalize hB : (Ex.paperZ 1).stored (Spec.default t [1]) = B
      have b1 : B.chans = [("a", 2)] := by rw [← hB]; rfl
      have b2 : B.nuisances = ["n"] := by rw [← hB]; rfl
      have b3 : B.constrained "n" = true := by rw [← hB]; rfl
      have b4 : B.obs "a" 0 = 2 := by rw [← hB]; rfl
      have b5 : B.obs "a" 1 = 4 := by rw [← hB]; rfl
      unfold Spec.Additive.nll
      simp [b1, b2, b3, b4, b5, sum_range_succ]
      ring
    have e0 : ((Ex.paperZ 1).stored (Spec.default t [1])).expected (Spec.strength t true (List.ofFn (point t (fun _ => 1) (fun _ => 0) (ofFile t .normal [1] true).n)))
        (Spec.nuisance t (List.ofFn (point t (fun _ => 1) (fun _ => 0) (ofFile t .normal [1] true).n))) "a" 0 = 2 := by
      simp [Spec.Additive.expected, Spec.Additive.stored, Ex.paperZ, k1, k2]
      norm_num
    have e1 : ((Ex.paperZ 1).stored (Spec.default t [1])).expected (Spec.strength t true (List.ofFn (point t (fun _ => 1) (fun _ => 0) (ofFile t .normal [1] true).n)))
        (Spec.nuisance t (List.ofFn (point t (fun _ => 1) (fun _ => 0) (ofFile t .normal [1] true).n))) "a" 1 = 4 := by
      simp [Spec.Additive.expected, Spec.Additive.stored, Ex.paperZ, k2]
      norm_num
    rw [hE, hE, e0, e1, k1]
    have z0 := Ex.bin_best two_pos (hz ("a", 2) (List.mem_singleton.2 rfl) 0 (by decide))
    have z1 := Ex.bin_best four_pos (hz ("a", 2) (List.mem_singleton.2 rfl) 1 (by decide))
    have z2 := sq_nonneg (Spec.nuisance t (List.ofFn z) "n")
    simp only at z0 z1
    linarith
  refine ⟨t, f, v1, hf, hc, ⟨_, hx, hmin⟩, fun y hy hminy => ?_⟩
  rw [← (c114_unique Ex.cfgN (Ex.opsZ 1) id t (Ex.paperZ 1) F hok rfl (fun l => .refl l) (Ex.consistentZ 1) (Ex.sumsZ 1) hsym Ex.obsZ [1] hl f hf _ y hx hy hmin hminy).1
    "n" (List.mem_singleton.2 rfl) rfl, k1]

namespace Ex

open Writer.Ex in
/-- a signal and two templates of a variation that both have an event more in the first bin -/
def opsY : List (Op ℝ) := [.channel [ax 2] (some "a") false false, .process (hr [1, 2]) "p" "a" true none, .data (hr [3, 3]) "a" none,
  .syst (.pair (hr [2, 2]) (hr [2, 2])) "n" "p" "a" 1 true .none false false {}]

def viewY (t : Tensor ℝ) : Bool := t.systs == ["n"] && t.signals == ["p"]

open Writer.Ex in
theorem goodY : goodB cfgN {} opsY = true ∧ okB (write cfgN id (run cfgN opsY)).2 viewY = true ∧ allOkB cfgN {} opsY = true := by
  simp only [goodB, allOkB, run, runOps, opsY, step, addProcess, addData, fitsB, sizeB, optB,
    Option.getD_none, hr_vars _ 1 2 one_pos.le two_pos.le, hr_sumw2 _ 1 2 one_pos.le two_pos.le, hr_vars _ 3 3 three_pos.le three_pos.le,
    hr_vars _ 2 2 two_pos.le two_pos.le]
  refine ⟨?_, ?_, ?_⟩ <;> decide +kernel

/-- the analysis on paper -/
def paperY : Spec.Additive where
  chans := [("a", 2)]
  signals := ["p"]
  backgrounds := []
  nuisances := ["n"]
  constrained := fun _ => true
  obs := fun _ i => [3, 3].getD i 0
  nominal := fun _ p i => if p = "p" then [1, 2].getD i 0 else 0
  shift := fun _ p m i θ => if p = "p" ∧ m = "n" then
    Spec.paired .none (m == "n" ++ "SymDiff") (1 * ([2, 2].getD i 0 - [1, 2].getD i 0)) (1 * ([2, 2].getD i 0 - [1, 2].getD i 0)) θ else 0

theorem sumsY  : Spec.Sums true opsY paperY where
  named := by simp [opsY]
  canonical := by
    intro h p c s v hm flow
    simp only [opsY, List.mem_cons, List.not_mem_nil, or_false, reduceCtorEq, false_or, Op.process.injEq] at hm
    obtain ⟨rfl, _⟩ := hm
    simp [Writer.Ex.hr, HIn.flatCsr]
  chansOnce := by simp [paperY]
  chans := by
    simp [opsY, paperY]
    rintro _ n rfl
    exact Iff.rfl
  signalsOnce := by simp [paperY]
  signals := by simp [opsY, paperY]
  backgroundsOnce := by simp [paperY]
  backgrounds := by simp [opsY, paperY]
  nuisancesOnce := by simp [paperY]
  nuisances := by
    intro m
    simp [opsY, paperY, Writer.Spec.asked, Writer.Spec.asks]
    simp only [eq_comm]
  constrained := by simp [opsY, paperY, Writer.Spec.asked, Writer.Spec.asks]
  obs := by
    intro h c v hm i x hx
    simp only [opsY, List.mem_cons, List.not_mem_nil, or_false, reduceCtorEq, false_or, Op.data.injEq] at hm
    obtain ⟨rfl, _⟩ := hm
    exact vals_hr hx
  nominal := by
    intro c _ h p s v hm i x hx
    simp only [opsY, List.mem_cons, List.not_mem_nil, or_false, reduceCtorEq, false_or, Op.process.injEq] at hm
    obtain ⟨rfl, rfl, _⟩ := hm
    rw [vals_hr hx]; rfl
  absent := by
    intro c hc p hp i
    rcases List.mem_singleton.1 (show c ∈ ["a"] from hc) with rfl
    refine if_neg ?_
    rintro rfl
    exact hp (Writer.Ex.hr [1, 2]) true none (by simp [opsY])
  once := by
    rintro c p m l op r e h o ho
    have : opsY.Pairwise fun o o' => Writer.Spec.touches c p m o → ¬ Writer.Spec.touches c p m o' := by
      simp [opsY, Writer.Spec.touches]
    rw [e] at this
    exact (List.pairwise_cons.1 (List.pairwise_append.1 this).2.1).1 o ho h
  silent := by
    intro c hc p m hno i θ
    rcases List.mem_singleton.1 (show c ∈ ["a"] from hc) with rfl
    refine if_neg ?_
    rintro ⟨rfl, rfl⟩
    simp [opsY, Writer.Spec.touches, Writer.Spec.booksName] at hno
  shifts := by
    intro c n hcn p m hm op ho hto i hi
    simp only [paperY, List.mem_singleton, Prod.mk.injEq] at hcn
    obtain ⟨rfl, rfl⟩ := hcn
    simp only [opsY, List.mem_cons, List.not_mem_nil, or_false] at ho
    rcases ho with rfl | rfl | rfl | rfl <;>
      simp only [Writer.Spec.touches, Writer.Spec.booksName] at hto
    obtain ⟨_, rfl, rfl⟩ := hto
    exact ⟨rfl, [2, 2].getD i 0, [2, 2].getD i 0, ⟨_, hr_vals hi, rfl⟩, ⟨_, hr_vals hi, rfl⟩, fun θ => rfl⟩

theorem consistentY  : Writer.Spec.consistent opsY := by
  intro b b' h h' e h1 h2
  have := sumsY.constrained b h h1
  rw [← this, e, sumsY.constrained b' h' h2]

/-- values of the likelihood on paper -/
theorem valuesY {δ μ θ : String → ℝ} (hδ : δ "p" = 1) (hμ : μ "p" = 1) :
    (θ "n" = 0 → (paperY.stored δ).nll μ θ = 3 - 3 * Real.log 2) ∧
    (θ "n" = 1 ∨ θ "n" = -1 → (μ, θ) ∈ (paperY.stored δ).domain ∧ (paperY.stored δ).nll μ θ = 9 / 2 - 6 * Real.log 2) := by
  refine ⟨fun h => ?_, fun h => ⟨fun c hc i hi => ?_, ?_⟩⟩
  · simp [Spec.Additive.nll, Spec.Additive.expected, Spec.Additive.stored, paperY, sum_range_succ, hμ, h, Spec.paired]
    ring
  · have hc' : c = ("a", 2) := List.mem_singleton.1 hc
    subst hc'
    match i, hi with
    | 0, _ => rcases h with h | h <;> simp [Spec.Additive.expected, Spec.Additive.stored, paperY, hδ, hμ, h, Spec.paired, Spec.smooth] <;> norm_num
    | 1, _ => simp [Spec.Additive.expected, Spec.Additive.stored, paperY, hμ, Spec.paired]
  · rcases h with h | h <;>
      simp [Spec.Additive.nll, Spec.Additive.expected, Spec.Additive.stored, paperY, sum_range_succ, hδ, hμ, h, Spec.paired, Spec.smooth] <;> norm_num <;> ring

end Ex

/-- C114: Symmetric variations cannot be left out of the conditions: two templates that lie on the same side of the nominal one, not symmetrised, give a loss
that is not convex.  All other conditions of `c114_convex` are met. -/
theorem c114_asymmetric : ∃ (cfg : Writer.Cfg ℝ) (ops : List (Op ℝ)) (t : Tensor ℝ) (A : Spec.Additive),
    Writer.Spec.file cfg ops id t ∧ Writer.Spec.allOk cfg {} ops ∧ cfg.systType = .normal ∧ Writer.Spec.consistent ops ∧ Spec.Sums cfg.allowNeg ops A ∧
    (∀ c n, (c, n) ∈ A.chans → ∀ i < n, 0 ≤ A.obs c i) ∧ t.signals.length = 1 ∧
    ∀ f, (∀ x, (ofFile t .normal [1] true).loss x = .ok (some (f x))) → ¬ ConvexOn ℝ (domain t A [1]) f := by
  obtain ⟨h1, h2, h3⟩ := Ex.goodY
  obtain ⟨t, ht, hv⟩ := Writer.Ex.okB_iff h2
  obtain ⟨g1, g2⟩ := Writer.Ex.goodB_iff _ _ _ h1
  simp only [Ex.viewY, Bool.and_eq_true, beq_iff_eq] at hv
  obtain ⟨v2, v3⟩ := hv
  have F : Writer.Spec.file Ex.cfgN Ex.opsY id t := ⟨rfl, rfl, g1, g2, ht⟩
  have hok := Writer.Ex.allOkB_iff _ _ _ h3
  refine ⟨_, _, t, _, F, hok, rfl, Ex.consistentY, Ex.sumsY, ?_, by rw [v3]; rfl, fun f hf hconv => ?_⟩
  · intro c n hc i hi
    simp only [Ex.paperY, List.mem_singleton, Prod.mk.injEq] at hc
    obtain ⟨rfl, rfl⟩ := hc
    show (0 : ℝ) ≤ [3, 3].getD i 0
    match i, hi with
    | 0, _ => exact three_pos.le
    | 1, _ => exact three_pos.le
  obtain ⟨C, hC⟩ := c113_stored _ _ id t _ F hok rfl (fun l => .refl l) Ex.consistentY Ex.sumsY [1] (by rw [v3]; rfl) true
  have hval : ∀ x, f x = _ := fun x => Option.some.inj (Except.ok.inj ((hf x).symm.trans (hC x)))
  have hδ : Spec.default t [1] "p" = 1 := by
    unfold Spec.default
    rw [v3]; rfl
  have hn : ∀ θ : ℝ, Spec.nuisance t (List.ofFn (point t (fun _ => 1) (fun _ => θ) (ofFile t .normal [1] true).n)) "n" = θ := fun θ =>
    point_nuisance t _ _ [1] true (by rw [v2]; exact List.mem_singleton.2 rfl)
  have hs : ∀ θ : ℝ, Spec.strength t true (List.ofFn (point t (fun _ => 1) (fun _ => θ) (ofFile t .normal [1] true).n)) "p" = 1 := fun θ => by
    unfold Spec.strength
    rw [if_pos rfl, point_signal t _ _ [1] true (by rw [v3]; exact List.mem_singleton.2 rfl)]
  have d1 : point t (fun _ => 1) (fun _ => 1) (ofFile t .normal [1] true).n ∈ domain t Ex.paperY [1] := ((Ex.valuesY hδ (hs 1)).2 (.inl (hn 1))).1
  have d2 : point t (fun _ => 1) (fun _ => -1) (ofFile t .normal [1] true).n ∈ domain t Ex.paperY [1] := ((Ex.valuesY hδ (hs (-1))).2 (.inr (hn (-1)))).1
  have hmid := hconv.2 d1 d2 (show (0 : ℝ) ≤ 1 / 2 by norm_num) (show (0 : ℝ) ≤ 1 / 2 by norm_num) (by norm_num)
  rw [hval, hval, hval, ((Ex.valuesY hδ (hs 1)).2 (.inl (hn 1))).2, ((Ex.valuesY hδ (hs (-1))).2 (.inr (hn (-1)))).2,
    (Ex.valuesY hδ ?_).1 ?_] at hmid
  · have h6 := Real.log_lt_sub_one_of_pos (x := 1 / 2) (by norm_num) (by norm_num)
    rw [one_div, Real.log_inv] at h6
    simp only [smul_eq_mul] at hmid
    linarith
  · refine (getD_comb _ _ _ _ _).trans ?_
    have k1 := hs 1
    have k2 := hs (-1)
    unfold Spec.strength at k1 k2
    rw [if_pos rfl] at k1 k2
    rw [k1, k2]
    norm_num
  · refine (getD_comb _ _ _ _ _).trans ?_
    have k1 := hn 1
    have k2 := hn (-1)
    unfold Spec.nuisance at k1 k2
    rw [k1, k2]
    norm_num

end

end Verif.FileFit
