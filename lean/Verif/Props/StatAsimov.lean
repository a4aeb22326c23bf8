import Verif.Props.FileAsimov
import Verif.Props.FileStat

/-!
C109 The Asimov fit of a written file closes with the statistical uncertainty of the templates too: the fit gives the requested
strengths back.
-/

namespace Verif.FileFit

open Verif.Writer Verif.LinearFit Verif.FitParams Verif.BBB Finset

noncomputable section

/-! ### specification -/

namespace Spec

/-- expected events where the likelihood is a number, in the bins without a parameter of their own -/
def Analysis.soundRest (A : Analysis) (V : String → String → Nat → ℝ) (kind : Kind) (μ₀ μ θ : String → ℝ) : Prop :=
  ∀ c n, (c, n) ∈ A.chans → ∀ i < n, ¬ A.uncertain V kind c i →
    0 ≤ A.expected μ θ c i ∧ (A.expected μ₀ (fun _ => 0) c i = 0 ∨ 0 < A.expected μ θ c i)

end Spec

/-! ### on paper -/

section
variable {A : Spec.Analysis} {V : String → String → Nat → ℝ} {kind : Kind}

theorem sum_yields (hdis : ∀ p ∈ A.backgrounds, p ∉ A.signals) (μ θ : String → ℝ) (c : String) (i : Nat) :
    (A.procs.map fun p => A.yieldOf μ θ c p i).sum = A.expected μ θ c i := by
  unfold Spec.Analysis.procs Spec.Analysis.expected
  rw [List.map_append, List.sum_append]
  congr 2
  · exact List.map_congr_left fun p hp => by unfold Spec.Analysis.yieldOf; rw [if_pos hp]
  · exact List.map_congr_left fun p hp => by unfold Spec.Analysis.yieldOf; rw [if_neg (hdis p hp), one_mul]

theorem moved_center (hdis : ∀ p ∈ A.backgrounds, p ∉ A.signals) (μ θ : String → ℝ) (c : String) (i : Nat) :
    A.moved V kind μ θ (center kind) c i = A.expected μ θ c i := by
  unfold Spec.Analysis.moved
  split_ifs with h
  · cases kind with
    | gamma | normMult =>
      rw [← sum_yields hdis]
      refine congrArg List.sum (List.map_congr_left fun p _ => ?_)
      simp [center]
    | normAdd => simp [center]
  · rfl

theorem equivalent_pos (hpos : ∀ c p i, 0 ≤ V c p i) {c : String} {i : Nat} (h : A.uncertain V kind c i) (hk : kind ≠ .normAdd) :
    0 < A.equivalent V c i := by
  have h1 : 0 ≤ A.variance V c i := (sum_nonneg_zero fun p _ => hpos c p i).1
  exact div_pos (pow_two_pos_of_ne_zero (h.2 hk)) (lt_of_le_of_ne h1 (Ne.symm h.1))

/-- what is known of the parameter of a bin has its minimum at the centre -/
theorem pull_center (hpos : ∀ c p i, 0 ≤ V c p i) {b : ℝ} {c : String} {i : Nat} (hb : A.uncertain V kind c i → kind = .gamma → 0 < b) :
    A.pull V kind (center kind) c i ≤ A.pull V kind b c i ∧
      (A.uncertain V kind c i → A.pull V kind b c i = A.pull V kind (center kind) c i → b = center kind) := by
  unfold Spec.Analysis.pull
  split_ifs with h
  · have hb := hb h
    cases kind with
    | gamma =>
      have hK := equivalent_pos hpos h (by simp)
      have h1 := Real.log_le_sub_one_of_pos (hb rfl)
      simp only [center, Real.log_one, sub_zero]
      refine ⟨mul_le_mul_of_nonneg_left (by linarith) hK.le, fun _ he => ?_⟩
      have he' : b - Real.log b = 1 := mul_left_cancel₀ hK.ne' he
      by_contra hne
      have := Real.log_lt_sub_one_of_pos (hb rfl) hne
      linarith
    | normMult =>
      have hK := equivalent_pos hpos h (by simp)
      simp only [center]
      refine ⟨?_, fun _ he => ?_⟩
      · have := mul_nonneg hK.le (sq_nonneg (b - 1))
        norm_num
        linarith
      · have h2 : A.equivalent V c i * (b - 1) ^ 2 = 0 := by linarith [he, show A.equivalent V c i * (1 - 1 : ℝ) ^ 2 / 2 = 0 by norm_num]
        have h3 := (mul_eq_zero.1 h2).resolve_left hK.ne'
        have := pow_eq_zero_iff two_ne_zero |>.1 h3
        linarith
    | normAdd =>
      simp only [center]
      refine ⟨by have := sq_nonneg b; linarith [show (0 : ℝ) ^ 2 / 2 = 0 by norm_num], fun _ he => ?_⟩
      have h3 : b ^ 2 = 0 := by linarith [he, show (0 : ℝ) ^ 2 / 2 = 0 by norm_num]
      exact pow_eq_zero_iff two_ne_zero |>.1 h3
  · exact ⟨le_rfl, fun h' => absurd h' h⟩

/-- No point has a smaller likelihood than the one the data are made with. -/
theorem stat_gap (hdis : ∀ p ∈ A.backgrounds, p ∉ A.signals) (hpos : ∀ c p i, 0 ≤ V c p i) {μ₀ μ θ : String → ℝ} {β : String → Nat → ℝ}
    (h0 : ∀ c n, (c, n) ∈ A.chans → ∀ i < n, 0 ≤ A.expected μ₀ (fun _ => 0) c i)
    (hx : A.soundRest V kind μ₀ μ θ) (hβ : ∀ c n, (c, n) ∈ A.chans → ∀ i < n, (A.asimov μ₀).possible V kind μ θ (β c i) c i) :
    (A.asimov μ₀).nllStat V kind μ₀ (fun _ => 0) (fun _ _ => center kind) ≤ (A.asimov μ₀).nllStat V kind μ θ β ∧
      ((A.asimov μ₀).nllStat V kind μ θ β = (A.asimov μ₀).nllStat V kind μ₀ (fun _ => 0) (fun _ _ => center kind) →
        (∀ m ∈ A.nuisances, A.constrained m = true → θ m = 0) ∧
        ∀ c n, (c, n) ∈ A.chans → ∀ i < n, A.expected μ θ c i = A.expected μ₀ (fun _ => 0) c i) := by
  have hok : ∀ c n, (c, n) ∈ A.chans → ∀ i < n, 0 ≤ A.moved V kind μ θ (β c i) c i ∧
      (A.expected μ₀ (fun _ => 0) c i = 0 ∨ 0 < A.moved V kind μ θ (β c i) c i) := by
    intro c n hc i hi
    by_cases hu : A.uncertain V kind c i
    · rcases (hβ c n hc i hi hu).1 with h | ⟨h1, h2⟩
      · exact ⟨h.le, .inr h⟩
      · exact ⟨h2, .inl h1⟩
    · unfold Spec.Analysis.moved
      rw [if_neg hu]
      exact hx c n hc i hi hu
  have hp : ∀ c n, (c, n) ∈ A.chans → ∀ i < n, _ := fun c n hc i hi =>
    pull_center (A := A) (kind := kind) hpos (c := c) (i := i) (b := β c i) fun hu hk => (hβ c n hc i hi hu).2 hk
  set g : String → Nat → ℝ := fun c i => poissonBin (A.expected μ₀ (fun _ => 0) c i) (A.moved V kind μ θ (β c i) c i) +
    (A.pull V kind (β c i) c i - A.pull V kind (center kind) c i) with hg
  have hn : ∀ c n, (c, n) ∈ A.chans → ∀ i < n, 0 ≤ g c i := fun c n hc i hi =>
    add_nonneg (c19_nonneg _ _ (h0 c n hc i hi) (hok c n hc i hi).1 (hok c n hc i hi).2) (sub_nonneg.2 (hp c n hc i hi).1)
  have n1 := sum_nonneg_zero (l := A.chans) (f := fun c => ∑ i ∈ range c.2, g c.1 i)
    (fun c hc => sum_nonneg fun i hi => hn c.1 c.2 hc i (mem_range.1 hi))
  have n2 := sum_nonneg_zero (l := A.nuisances) (f := fun m => if A.constrained m then θ m ^ 2 / 2 else 0) (fun m hm => by
      split_ifs
      · positivity
      · exact le_rfl)
  have hself : ∀ c n, (c, n) ∈ A.chans → ∀ i < n, poissonBin (A.expected μ₀ (fun _ => 0) c i) (A.expected μ₀ (fun _ => 0) c i) = 0 := fun c n hc i hi =>
    (c19_zero_iff _ _ (h0 c n hc i hi) (h0 c n hc i hi) ((h0 c n hc i hi).eq_or_lt.imp Eq.symm id)).2 rfl
  have hsum : (A.asimov μ₀).nllStat V kind μ θ β = (A.asimov μ₀).nllStat V kind μ₀ (fun _ => 0) (fun _ _ => center kind) +
      ((A.chans.map fun c => ∑ i ∈ range c.2, g c.1 i).sum + (A.nuisances.map fun m => if A.constrained m then θ m ^ 2 / 2 else 0).sum) := by
    have e1 : ∀ c ∈ A.chans, (∑ i ∈ range c.2, (A.moved V kind μ θ (β c.1 i) c.1 i -
          A.expected μ₀ (fun _ => 0) c.1 i * Real.log (A.moved V kind μ θ (β c.1 i) c.1 i) + A.pull V kind (β c.1 i) c.1 i)) =
        (∑ i ∈ range c.2, (A.moved V kind μ₀ (fun _ => 0) (center kind) c.1 i - A.expected μ₀ (fun _ => 0) c.1 i *
          Real.log (A.moved V kind μ₀ (fun _ => 0) (center kind) c.1 i) + A.pull V kind (center kind) c.1 i)) + ∑ i ∈ range c.2, g c.1 i := by
      intro c hc
      rw [← sum_add_distrib]
      refine sum_congr rfl fun i hi => ?_
      have hs := hself c.1 c.2 hc i (mem_range.1 hi)
      rw [poissonBin_eq] at hs
      rw [hg, moved_center hdis]
      dsimp only
      rw [poissonBin_eq]
      linarith
    have e2 : (A.nuisances.map fun m => if A.constrained m then ((fun _ => 0 : String → ℝ) m) ^ 2 / 2 else 0).sum = 0 :=
      List.sum_eq_zero fun v hv => by
        obtain ⟨m, _, rfl⟩ := List.mem_map.1 hv
        simp
    have e3 := congrArg List.sum (List.map_congr_left e1)
    rw [List.sum_map_add] at e3
    have e3' : (A.asimov μ₀).nllStat V kind μ θ β = _ + (A.nuisances.map fun m => if A.constrained m then θ m ^ 2 / 2 else 0).sum :=
      congrArg (· + (A.nuisances.map fun m => if A.constrained m then θ m ^ 2 / 2 else 0).sum) e3
    have e4 : (A.asimov μ₀).nllStat V kind μ₀ (fun _ => 0) (fun _ _ => center kind) = (A.chans.map fun c => _).sum + 0 :=
      congrArg (_ + ·) e2
    rw [e3', e4, add_zero, add_assoc]
    rfl
  refine ⟨by rw [hsum]; linarith [n1.1, n2.1], fun he => ?_⟩
  have z1 : (A.chans.map fun c => ∑ i ∈ range c.2, g c.1 i).sum = 0 := by linarith [n1.1, n2.1, hsum.symm.trans he]
  have z2 : (A.nuisances.map fun m => if A.constrained m then θ m ^ 2 / 2 else 0).sum = 0 := by linarith [n1.1, n2.1, hsum.symm.trans he]
  refine ⟨fun m hm hc => ?_, fun c n hc i hi => ?_⟩
  · have := n2.2.1 z2 m hm
    rw [if_pos hc] at this
    exact pow_eq_zero_iff two_ne_zero |>.1 (by linarith)
  · have h1 := (sum_eq_zero_iff_of_nonneg fun i hi => hn c n hc i (mem_range.1 hi)).1 (n1.2.1 z1 (c, n) hc) i (mem_range.2 hi)
    have h2 := c19_nonneg _ _ (h0 c n hc i hi) (hok c n hc i hi).1 (hok c n hc i hi).2
    have h3 := hp c n hc i hi
    have h4 : g c i = _ + _ := rfl
    have h5 : poissonBin (A.expected μ₀ (fun _ => 0) c i) (A.moved V kind μ θ (β c i) c i) = 0 := by linarith [h3.1, h1, h4]
    have h6 := (c19_zero_iff _ _ (h0 c n hc i hi) (hok c n hc i hi).1 (hok c n hc i hi).2).1 h5
    rw [← h6]
    by_cases hu : A.uncertain V kind c i
    · rw [h3.2 hu (by linarith [h1, h4]), moved_center hdis]
    · unfold Spec.Analysis.moved
      rw [if_neg hu]

/-- with the same expectation the likelihood is the same -/
theorem stat_same (hdis : ∀ p ∈ A.backgrounds, p ∉ A.signals) {μ₀ μ θ : String → ℝ} (hθ : ∀ m ∈ A.nuisances, A.constrained m = true → θ m = 0)
    (he : ∀ c n, (c, n) ∈ A.chans → ∀ i < n, A.expected μ θ c i = A.expected μ₀ (fun _ => 0) c i) :
    (A.asimov μ₀).nllStat V kind μ θ (fun _ _ => center kind) = (A.asimov μ₀).nllStat V kind μ₀ (fun _ => 0) (fun _ _ => center kind) := by
  have hd' : ∀ p ∈ (A.asimov μ₀).backgrounds, p ∉ (A.asimov μ₀).signals := hdis
  unfold Spec.Analysis.nllStat
  simp only [moved_center hd']
  congr 2
  · refine List.map_congr_left fun c hc => sum_congr rfl fun i hi => ?_
    have : (A.asimov μ₀).expected μ θ c.1 i = (A.asimov μ₀).expected μ₀ (fun _ => 0) c.1 i := he c.1 c.2 hc i (mem_range.1 hi)
    rw [this]
  · refine List.map_congr_left fun m hm => ?_
    by_cases hc : A.constrained m = true
    · have : θ m = 0 := hθ m hm hc
      rw [this]
    · have : ¬ (A.asimov μ₀).constrained m = true := hc
      rw [if_neg this, if_neg this]

theorem center_possible (hdis : ∀ p ∈ A.backgrounds, p ∉ A.signals) {μ₀ μ θ : String → ℝ} {c : String} {i : Nat}
    (h0 : 0 ≤ A.expected μ₀ (fun _ => 0) c i) (he : A.expected μ θ c i = A.expected μ₀ (fun _ => 0) c i) :
    (A.asimov μ₀).possible V kind μ θ (center kind) c i := by
  intro _
  have hm : (A.asimov μ₀).moved V kind μ θ (center kind) c i = A.expected μ₀ (fun _ => 0) c i := (moved_center (A := A) hdis μ θ c i).trans he
  rw [hm]
  refine ⟨h0.eq_or_lt.elim (fun h => .inr ⟨h.symm, h0⟩) .inl, ?_⟩
  rintro rfl
  exact one_pos

end

/-! ### the file -/

section
variable {cfg : Cfg ℝ} {ops : List (Op ℝ)} {iter : List String → List String} {t : Tensor ℝ} {A : Spec.Analysis}
  (F : Writer.Spec.file cfg ops iter t) (hok : Writer.Spec.allOk cfg {} ops) (D : Spec.Describes cfg.allowNeg ops A)
include F hok D

theorem apart : ∀ p ∈ A.backgrounds, p ∉ A.signals := by
  intro p hb hs
  obtain ⟨bkgs, h1, n3, p1, p2⟩ := procs_split F hok D
  exact n3 p (p1.mem_iff.2 hs) p (p2.mem_iff.2 hb) rfl

variable (hit : ∀ l, (iter l).Perm l) (hcon : Writer.Spec.consistent ops)
include hit hcon

/-- what the command for Asimov data computes, with template statistics -/
theorem asimov_stat (hst : cfg.systType = .logNormal) (kind : Kind) (xdef : List ℝ) (neg : Bool) :
    ∃ d, (ofFileStat t .logNormal xdef neg kind).asimov (ofFile t .logNormal xdef neg).x0 = .ok d ∧ d.2 = [] ∧
      ∀ c n a e, (c, n) ∈ A.chans → (c, a, e) ∈ readerFrom 0 t.channelInfo → ∀ i < n,
        d.1 (a + i) = A.expected (Spec.strength t neg xdef) (fun _ => 0) c i := by
  obtain ⟨r, nexp, y, h1, h2, h3⟩ := fit_yields F .logNormal hst xdef neg (ofFile t .logNormal xdef neg).x0
  obtain ⟨r', nexp', y', h1', -, -⟩ := fit_yields_of F true .logNormal hst xdef neg (ofFile t .logNormal xdef neg).x0
  obtain ⟨hperm, hnd⟩ := systs_perm F hok D hit hcon
  have hx := (start_values t xdef neg).1
  have hθ : ∀ j < t.systs.length, (ofFile t .logNormal xdef neg).theta (ofFile t .logNormal xdef neg).x0 j = (fun _ => (0 : ℝ)) (t.systs.getD j "") := by
    intro j hj
    have h := theta_at .logNormal xdef neg hnd (ofFile t .logNormal xdef neg).x0 j hj
    rw [(start_values t xdef neg).2] at h
    refine Eq.trans ?_ h
    exact dif_pos hj
  set G := (ofFileStat t .logNormal xdef neg kind).reset (ofFile t .logNormal xdef neg).x0 with hG
  have e1 : G.expected true (ofFile t .logNormal xdef neg).x0 = .ok (G.unprofiled nexp' y') := by
    unfold Fitter.expected
    have : G.yields true (G.params (ofFile t .logNormal xdef neg).x0) (G.theta (ofFile t .logNormal xdef neg).x0) = .ok (nexp', y') := h1'
    rw [this]
  have e2 : G.expected false (ofFile t .logNormal xdef neg).x0 = .ok (G.unprofiled nexp y) := by
    unfold Fitter.expected
    have : G.yields false (G.params (ofFile t .logNormal xdef neg).x0) (G.theta (ofFile t .logNormal xdef neg).x0) = .ok (nexp, y) := h1
    rw [this]
  refine ⟨(G.unprofiled nexp y, []), ?_, rfl, fun c n a e hc hR i hi => ?_⟩
  · unfold Fitter.asimov
    dsimp only
    rw [e1]
    dsimp only
    rw [e2]
    have e3 : G.expectAll (G.unprofiled nexp' y') G.regs = .ok [] := rfl
    rw [e3]
    dsimp only
    exact if_neg fun h => nomatch h.1
  · have e4 : G.unprofiled nexp y (a + i) = ∑ p : Fin t.procs.length, y (a + i) p :=
      lite_applied_default ((ofFileStat t .logNormal xdef neg kind).liteBin (statOf t kind) y (a + i)) kind
    show G.unprofiled nexp y (a + i) = _
    rw [e4, ← sum_yields (apart F hok D)]
    refine sum_procs F hok D _ (fun p => A.yieldOf (Spec.strength t neg xdef) (fun _ => 0) c p i) fun p proc hp => ?_
    rw [cell_eq F hok D hit hcon hst hc hR hi hp (θn := fun _ => 0) hθ h2, h3 _ _ _ hp]
    obtain ⟨_, _, _, p1, _⟩ := procs_split F hok D
    unfold Spec.Analysis.yieldOf
    by_cases hs : proc ∈ t.signals
    · rw [if_pos hs, if_pos (p1.mem_iff.1 hs), hx proc hs]
    · rw [if_neg hs, if_neg fun h => hs (p1.mem_iff.2 h)]

end

/-! ### theorems -/

/-- C109: With template statistics too, the data of the Asimov fit are what the calls describe for the requested signal strengths with
all nuisances at zero and the templates as they are: the loss of that fit is the likelihood on paper with these data, at its
minimum over the parameters of the template statistics. -/
theorem c109_asimov (cfg : Writer.Cfg ℝ) (ops : List (Op ℝ)) (iter : List String → List String) (t : Tensor ℝ) (A : Spec.Analysis)
    (F : Writer.Spec.file cfg ops iter t) (hok : Writer.Spec.allOk cfg {} ops) (hst : cfg.systType = .logNormal)
    (hit : ∀ l, (iter l).Perm l) (hcon : Writer.Spec.consistent ops) (D : Spec.Describes cfg.allowNeg ops A)
    (V : String → String → Nat → ℝ) (hV : Spec.Variances A V ops) (hvar : ∀ c p i, 0 ≤ V c p i) (kind : Kind) (neg : Bool) (xdef : List ℝ)
    (expect : List (String × ℝ)) (hexp : ParamModels.setParamDefault Real.sqrt t.signals t.signals.length neg expect = .ok xdef)
    (hneg : neg = true ∨ ∀ p ∈ A.signals, 0 ≤ SatTest.Spec.requested expect p)
    (hpos : ∀ c n, (c, n) ∈ A.chans → ∀ i < n, 0 ≤ A.expected (SatTest.Spec.requested expect) (fun _ => 0) c i) :
    ∃ d, (ofFileStat t .logNormal xdef neg kind).asimov (ofFile t .logNormal xdef neg).x0 = .ok d ∧
      ∃ C, ∀ x : Fin (ofFile t .logNormal xdef neg).n → ℝ, A.present V kind (Spec.strength t neg (List.ofFn x)) (Spec.nuisance t (List.ofFn x)) →
      ∃ v, ((ofFileStat t .logNormal xdef neg kind).prepared (ofFile t .logNormal xdef neg).x0 d).loss x = .ok (some v) ∧
        (∃ β : String → Nat → ℝ, (∀ c n, (c, n) ∈ A.chans → ∀ i < n, (A.asimov (SatTest.Spec.requested expect)).possible V kind
            (Spec.strength t neg (List.ofFn x)) (Spec.nuisance t (List.ofFn x)) (β c i) c i) ∧
          v = (A.asimov (SatTest.Spec.requested expect)).nllStat V kind (Spec.strength t neg (List.ofFn x)) (Spec.nuisance t (List.ofFn x)) β + C) ∧
        ∀ β : String → Nat → ℝ, (∀ c n, (c, n) ∈ A.chans → ∀ i < n, (A.asimov (SatTest.Spec.requested expect)).possible V kind
            (Spec.strength t neg (List.ofFn x)) (Spec.nuisance t (List.ofFn x)) (β c i) c i) →
          v ≤ (A.asimov (SatTest.Spec.requested expect)).nllStat V kind (Spec.strength t neg (List.ofFn x)) (Spec.nuisance t (List.ofFn x)) β + C := by
  obtain ⟨⟨obs, rs⟩, h1, h2, h3⟩ := asimov_stat F hok D hit hcon hst kind xdef neg
  obtain rfl : rs = [] := h2
  refine ⟨_, h1, ?_⟩
  have hprep : (ofFileStat t .logNormal xdef neg kind).prepared (ofFile t .logNormal xdef neg).x0 (obs, []) =
      withData (ofFileStat t .logNormal xdef neg kind) obs (ofFile t .logNormal xdef neg).varnobs := by
    cases kind <;> rfl
  have := stat_data F hok D hit hcon hst hV hvar kind xdef neg obs (ofFile t .logNormal xdef neg).varnobs
    (A.expected (SatTest.Spec.requested expect) fun _ => 0)
    (fun c n a e hc hR i hi => (h3 c n a e hc hR i hi).trans (expected_congr (default_strength F hok D hexp hneg) c i)) hpos
  cases kind <;> exact this

/-- C109: The Asimov fit closes with template statistics.  If the requested strengths give no negative expectation and leave the processes
with a variance in every bin with a parameter, the loss at the start values is smaller than or equal to that of every other point where
it is a number, and equal exactly where all constrained nuisances are zero and every fitted bin has the same expectation. -/
theorem c109_closure (cfg : Writer.Cfg ℝ) (ops : List (Op ℝ)) (iter : List String → List String) (t : Tensor ℝ) (A : Spec.Analysis)
    (F : Writer.Spec.file cfg ops iter t) (hok : Writer.Spec.allOk cfg {} ops) (hst : cfg.systType = .logNormal)
    (hit : ∀ l, (iter l).Perm l) (hcon : Writer.Spec.consistent ops) (D : Spec.Describes cfg.allowNeg ops A)
    (V : String → String → Nat → ℝ) (hV : Spec.Variances A V ops) (hvar : ∀ c p i, 0 ≤ V c p i) (kind : Kind) (neg : Bool) (xdef : List ℝ)
    (expect : List (String × ℝ)) (hexp : ParamModels.setParamDefault Real.sqrt t.signals t.signals.length neg expect = .ok xdef)
    (hneg : neg = true ∨ ∀ p ∈ A.signals, 0 ≤ SatTest.Spec.requested expect p)
    (hpos : ∀ c n, (c, n) ∈ A.chans → ∀ i < n, 0 ≤ A.expected (SatTest.Spec.requested expect) (fun _ => 0) c i)
    (hpres : A.present V kind (SatTest.Spec.requested expect) fun _ => 0) :
    ∃ d v₀, (ofFileStat t .logNormal xdef neg kind).asimov (ofFile t .logNormal xdef neg).x0 = .ok d ∧
      ((ofFileStat t .logNormal xdef neg kind).prepared (ofFile t .logNormal xdef neg).x0 d).loss (ofFile t .logNormal xdef neg).x0 = .ok (some v₀) ∧
      ∀ x : Fin (ofFile t .logNormal xdef neg).n → ℝ, A.present V kind (Spec.strength t neg (List.ofFn x)) (Spec.nuisance t (List.ofFn x)) →
        A.soundRest V kind (SatTest.Spec.requested expect) (Spec.strength t neg (List.ofFn x)) (Spec.nuisance t (List.ofFn x)) →
        ∃ v, ((ofFileStat t .logNormal xdef neg kind).prepared (ofFile t .logNormal xdef neg).x0 d).loss x = .ok (some v) ∧ v₀ ≤ v ∧
          (v = v₀ ↔ (∀ m ∈ A.nuisances, A.constrained m = true → Spec.nuisance t (List.ofFn x) m = 0) ∧
            ∀ c n, (c, n) ∈ A.chans → ∀ i < n, A.expected (Spec.strength t neg (List.ofFn x)) (Spec.nuisance t (List.ofFn x)) c i =
              A.expected (SatTest.Spec.requested expect) (fun _ => 0) c i) := by
  have hdis := apart F hok D
  obtain ⟨d, h1, C, h2⟩ := c109_asimov cfg ops iter t A F hok hst hit hcon D V hV hvar kind neg xdef expect hexp hneg hpos
  have hx : ∀ p ∈ A.signals, Spec.strength t neg (List.ofFn (ofFile t .logNormal xdef neg).x0) p = SatTest.Spec.requested expect p := fun p hp => by
    obtain ⟨bkgs, e, -, hps, -⟩ := procs_split F hok D
    rw [(start_values t xdef neg).1 p (hps.mem_iff.2 hp), default_strength F hok D hexp hneg p hp]
  have hyld : ∀ c p i, A.yieldOf (Spec.strength t neg (List.ofFn (ofFile t .logNormal xdef neg).x0)) (fun _ => 0) c p i =
      A.yieldOf (SatTest.Spec.requested expect) (fun _ => 0) c p i := by
    intro c p i
    unfold Spec.Analysis.yieldOf
    split_ifs with hs
    · rw [hx p hs]
    · rfl
  obtain ⟨v₀, k1, ⟨β₀, k2, k3⟩, k4⟩ := h2 (ofFile t .logNormal xdef neg).x0 (by
    rw [(start_values t xdef neg).2]
    unfold Spec.Analysis.present
    simp only [hyld]
    exact hpres)
  rw [(start_values t xdef neg).2] at k2 k3 k4
  have hv₀ : v₀ = (A.asimov (SatTest.Spec.requested expect)).nllStat V kind (SatTest.Spec.requested expect) (fun _ => 0) (fun _ _ => center kind) + C := by
    refine le_antisymm ?_ ?_
    · rw [← stat_same hdis (μ := Spec.strength t neg (List.ofFn (ofFile t .logNormal xdef neg).x0)) (θ := fun _ => 0) (fun _ _ _ => rfl)
        fun c n hc i hi => expected_congr hx c i]
      exact k4 (fun _ _ => center kind) fun c n hc i hi => center_possible hdis (hpos c n hc i hi) (expected_congr hx c i)
    · rw [k3]
      have hs : A.soundRest V kind (SatTest.Spec.requested expect) (Spec.strength t neg (List.ofFn (ofFile t .logNormal xdef neg).x0)) fun _ => 0 := by
        intro c n hc i hi _
        rw [expected_congr hx]
        exact ⟨hpos c n hc i hi, (hpos c n hc i hi).eq_or_lt.imp Eq.symm id⟩
      linarith [(stat_gap hdis hvar hpos hs k2).1]
  refine ⟨d, v₀, h1, k1, fun x hp hs => ?_⟩
  obtain ⟨v, g1, ⟨β, g2, g3⟩, g4⟩ := h2 x hp
  obtain ⟨m1, m2⟩ := stat_gap hdis hvar hpos hs g2
  refine ⟨v, g1, by rw [hv₀, g3]; linarith, fun he => m2 (by rw [hv₀, g3] at he; linarith), fun ⟨q1, q2⟩ => ?_⟩
  refine le_antisymm ?_ (by rw [hv₀, g3]; linarith)
  rw [hv₀, ← stat_same hdis q1 q2]
  exact g4 (fun _ _ => center kind) fun c n hc i hi => center_possible hdis (hpos c n hc i hi) (q2 c n hc i hi)

/-- C109: The Asimov fit gives the requested strengths back, with template statistics.  If all nuisances are constrained and the nominal
signals are independent, a point with the smallest loss has the requested strength of every signal and every nuisance at zero. -/
theorem c109_unique (cfg : Writer.Cfg ℝ) (ops : List (Op ℝ)) (iter : List String → List String) (t : Tensor ℝ) (A : Spec.Analysis)
    (F : Writer.Spec.file cfg ops iter t) (hok : Writer.Spec.allOk cfg {} ops) (hst : cfg.systType = .logNormal)
    (hit : ∀ l, (iter l).Perm l) (hcon : Writer.Spec.consistent ops) (D : Spec.Describes cfg.allowNeg ops A)
    (V : String → String → Nat → ℝ) (hV : Spec.Variances A V ops) (hvar : ∀ c p i, 0 ≤ V c p i) (kind : Kind) (neg : Bool) (xdef : List ℝ)
    (expect : List (String × ℝ)) (hexp : ParamModels.setParamDefault Real.sqrt t.signals t.signals.length neg expect = .ok xdef)
    (hneg : neg = true ∨ ∀ p ∈ A.signals, 0 ≤ SatTest.Spec.requested expect p)
    (hpos : ∀ c n, (c, n) ∈ A.chans → ∀ i < n, 0 ≤ A.expected (SatTest.Spec.requested expect) (fun _ => 0) c i)
    (hpres : A.present V kind (SatTest.Spec.requested expect) fun _ => 0)
    (hall : ∀ m ∈ A.nuisances, A.constrained m = true) (hind : A.independent) :
    ∃ d v₀, (ofFileStat t .logNormal xdef neg kind).asimov (ofFile t .logNormal xdef neg).x0 = .ok d ∧
      ((ofFileStat t .logNormal xdef neg kind).prepared (ofFile t .logNormal xdef neg).x0 d).loss (ofFile t .logNormal xdef neg).x0 = .ok (some v₀) ∧
      ∀ x : Fin (ofFile t .logNormal xdef neg).n → ℝ, A.present V kind (Spec.strength t neg (List.ofFn x)) (Spec.nuisance t (List.ofFn x)) →
        A.soundRest V kind (SatTest.Spec.requested expect) (Spec.strength t neg (List.ofFn x)) (Spec.nuisance t (List.ofFn x)) →
        ∃ v, ((ofFileStat t .logNormal xdef neg kind).prepared (ofFile t .logNormal xdef neg).x0 d).loss x = .ok (some v) ∧ v₀ ≤ v ∧
          (v = v₀ ↔ (∀ p ∈ A.signals, Spec.strength t neg (List.ofFn x) p = SatTest.Spec.requested expect p) ∧
            ∀ m ∈ A.nuisances, Spec.nuisance t (List.ofFn x) m = 0) := by
  obtain ⟨d, v₀, h1, h2, h3⟩ := c109_closure cfg ops iter t A F hok hst hit hcon D V hV hvar kind neg xdef expect hexp hneg hpos hpres
  refine ⟨d, v₀, h1, h2, fun x hx hr => ?_⟩
  obtain ⟨v, h4, h5, h6⟩ := h3 x hx hr
  exact ⟨v, h4, h5, h6.trans (same_point D hall hind)⟩

/-! ### cases -/

namespace Ex

theorem variancesU : Spec.Variances paperU varL opsU where
  given := by
    intro c _ h p s v hm i x hx
    simp only [opsU, List.mem_cons, List.not_mem_nil, or_false, reduceCtorEq, false_or, Op.process.injEq] at hm
    have hp : p = "p" ∨ p = "q" := by rcases hm with ⟨_, rfl, _⟩ | ⟨_, rfl, _⟩ | ⟨_, rfl, _⟩ <;> simp
    have hh : h = Writer.Ex.hr [1, 2] := by rcases hm with ⟨rfl, _⟩ | ⟨rfl, _⟩ | ⟨rfl, _⟩ <;> rfl
    have hv : v = none := by rcases hm with ⟨_, _, _, _, rfl⟩ | ⟨_, _, _, _, rfl⟩ | ⟨_, _, _, _, rfl⟩ <;> rfl
    subst hh hv
    have : x = .fin ([1, 2].getD i 0) := vals_hr (flow := false) hx
    rw [this, varL, if_pos hp]
  absent := by
    intro c hc p hp i
    exact describesU.absent c hc p hp i

theorem varL_nonneg (c p : String) (i : Nat) : 0 ≤ varL c p i := by
  unfold varL
  split_ifs
  · match i with
    | 0 => norm_num
    | 1 => norm_num
    | i + 2 => simp
  · exact le_rfl

theorem uncertainU (kind : Kind) (i : Nat) (hi : i < 2) : paperU.uncertain varL kind "a" i := by
  match i, hi with
  | 0, _ => constructor <;> simp [Spec.Analysis.variance, Spec.Analysis.simulated, Spec.Analysis.procs, paperU, paper, varL]
  | 1, _ => constructor <;> simp [Spec.Analysis.variance, Spec.Analysis.simulated, Spec.Analysis.procs, paperU, paper, varL]

end Ex

/-- The hypotheses of `c109_asimov`, `c109_closure` and `c109_unique` are met, for every kind of template statistics and at every point of the
fit: a signal strength of 2 asked for with squared parameters, three constrained nuisances and a parameter for every bin; the fit
gives 2 back. -/
example (kind : Kind) : ∃ t d v₀, t.signals = ["p"] ∧ t.systs.length = 3 ∧
    (ofFileStat t .logNormal [Real.sqrt 2] false kind).asimov (ofFile t .logNormal [Real.sqrt 2] false).x0 = .ok d ∧
    Ex.paperU.uncertain Ex.varL kind "a" 1 ∧
    ∀ x : Fin (ofFile t .logNormal [Real.sqrt 2] false).n → ℝ,
      ∃ v, ((ofFileStat t .logNormal [Real.sqrt 2] false kind).prepared (ofFile t .logNormal [Real.sqrt 2] false).x0 d).loss x = .ok (some v) ∧ v₀ ≤ v ∧
        (v = v₀ → Spec.strength t false (List.ofFn x) "p" = 2) := by
  obtain ⟨h1, h2, h3⟩ := Ex.goodU
  obtain ⟨t, ht, hv⟩ := Writer.Ex.okB_iff h2
  obtain ⟨g1, g2⟩ := Writer.Ex.goodB_iff _ _ _ h1
  simp only [Ex.viewU, Bool.and_eq_true, beq_iff_eq] at hv
  have hreq : SatTest.Spec.requested [("p", (2 : ℝ))] "p" = 2 := rfl
  have hexp : ParamModels.setParamDefault Real.sqrt t.signals t.signals.length false [("p", (2 : ℝ))] = .ok [Real.sqrt 2] := by
    rw [hv.1]; rfl
  obtain ⟨d, v₀, c1, -, c3⟩ := c109_unique Ex.cfgL Ex.opsU id t Ex.paperU ⟨rfl, rfl, g1, g2, ht⟩ (Writer.Ex.allOkB_iff _ _ _ h3) rfl
    (fun l => .refl l) Ex.consistentU Ex.describesU Ex.varL Ex.variancesU Ex.varL_nonneg kind false [Real.sqrt 2] [("p", 2)] hexp
    (.inr fun p hp => by
      rcases List.mem_singleton.1 (show p ∈ ["p"] from hp) with rfl
      rw [hreq]; norm_num)
    (fun c n hc i hi => by
      obtain ⟨rfl, rfl⟩ := Prod.mk.inj (List.mem_singleton.1 (show (c, n) ∈ [("a", 2)] from hc))
      rw [Ex.expectU i hi, hreq]
      match i, hi with
      | 0, _ => norm_num
      | 1, _ => norm_num)
    (Ex.presentL kind _ _ (by rw [hreq]; norm_num))
    (fun _ _ => rfl)
    (fun a ha p hp => by
      rcases List.mem_singleton.1 (show p ∈ ["p"] from hp) with rfl
      have := ha "a" 2 (List.mem_singleton.2 rfl) 0 (by norm_num)
      simpa [Ex.paperU, Ex.paper] using this)
  refine ⟨t, d, v₀, hv.1, hv.2, c1, Ex.uncertainU kind 1 (by norm_num), fun x => ?_⟩
  obtain ⟨v, e1, e2, e3⟩ := c3 x (Ex.presentL kind _ _ (sq_nonneg _)) (by
    intro c n hc i hi hu
    obtain ⟨rfl, rfl⟩ := Prod.mk.inj (List.mem_singleton.1 (show (c, n) ∈ [("a", 2)] from hc))
    exact absurd (Ex.uncertainU kind i hi) hu)
  exact ⟨v, e1, e2, fun h => (e3.1 h).1 "p" (List.mem_singleton.2 rfl)⟩

end

end Verif.FileFit
