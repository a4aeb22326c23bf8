import Verif.Props.Expected
import Verif.Props.FileFit

/-!
C106 The Asimov fit of a written file closes: the data are what the calls describe for the requested signal strengths, and the fit
gives these strengths back.
-/

namespace Verif.FileFit

open Verif.Writer Verif.LinearFit Verif.FitParams Finset

noncomputable section

/-! ### specification -/

namespace Spec

/-- the analysis with the expectation for signal strengths `μ` in place of the observed events -/
def Analysis.asimov (A : Analysis) (μ : String → ℝ) : Analysis := { A with obs := A.expected μ fun _ => 0 }

/-- expected events where the likelihood is a number: positive unless nothing is observed -/
def Analysis.sound (A : Analysis) (μ₀ μ θ : String → ℝ) : Prop := ∀ c n, (c, n) ∈ A.chans → ∀ i < n,
  0 ≤ A.expected μ θ c i ∧ (A.expected μ₀ (fun _ => 0) c i = 0 ∨ 0 < A.expected μ θ c i)

/-- No combination of the signals is empty in all fitted bins. -/
def Analysis.independent (A : Analysis) : Prop := ∀ a : String → ℝ,
  (∀ c n, (c, n) ∈ A.chans → ∀ i < n, (A.signals.map fun p => a p * A.nominal c p i).sum = 0) → ∀ p ∈ A.signals, a p = 0

/-- A nuisance does nothing where it is zero. -/
def Analysis.centred (A : Analysis) : Prop := ∀ c n, (c, n) ∈ A.chans → ∀ i < n, ∀ p m, m ∈ A.nuisances →
  A.nominal c p i ≠ 0 → A.response c p m i 0 = 0

end Spec

theorem expected_congr {A : Spec.Analysis} {μ μ' θ : String → ℝ} (h : ∀ p ∈ A.signals, μ p = μ' p) (c : String) (i : Nat) :
    A.expected μ θ c i = A.expected μ' θ c i := by
  unfold Spec.Analysis.expected
  rw [List.map_congr_left fun p hp => by rw [h p hp]]

theorem nll_congr {A : Spec.Analysis} {μ₀ μ₀' μ θ : String → ℝ} (h : ∀ p ∈ A.signals, μ₀ p = μ₀' p) :
    (A.asimov μ₀).nll μ θ = (A.asimov μ₀').nll μ θ := by
  have : A.asimov μ₀ = A.asimov μ₀' := by
    unfold Spec.Analysis.asimov
    congr 1
    funext c i
    exact expected_congr h c i
  rw [this]

theorem responds_zero {p m : String} {i : Nat} {x : ℝ} {f : ℝ → ℝ} {op : Op ℝ} (h : Spec.Responds p m i x f op) : f 0 = 0 := by
  have hp : ∀ symm diff U D, Spec.paired symm diff U D 0 = 0 := by
    intro symm diff U D
    cases symm <;> simp [Spec.paired]
  unfold Spec.Responds at h
  split at h
  · obtain ⟨_, u, _, h⟩ := h; rw [h]; simp
  · obtain ⟨_, u, d, _, _, h⟩ := h; rw [h, hp]
  · obtain ⟨_, ⟨_, us, _, _, _, u, _, h⟩ | ⟨u, d, _, _, _, _, _, h⟩⟩ := h
    · rw [h]; simp
    · rw [h, hp]
  · exact h.elim

theorem centred_of {neg : Bool} {ops : List (Op ℝ)} {A : Spec.Analysis} (D : Spec.Describes neg ops A) : A.centred := by
  intro c n hc i hi p m hm hx
  by_cases ht : ∃ op ∈ ops, Writer.Spec.touches c p m op
  · obtain ⟨op, h1, h2⟩ := ht
    exact responds_zero (D.responds c n hc p m hm op h1 h2 i hi hx)
  · push Not at ht
    exact D.silent c (List.mem_map.2 ⟨_, hc, rfl⟩) p m ht i 0

theorem varied_zero {A : Spec.Analysis} (h : A.centred) {θ : String → ℝ} (hθ : ∀ m ∈ A.nuisances, θ m = 0) {c p : String} {n i : Nat}
    (hc : (c, n) ∈ A.chans) (hi : i < n) : A.varied θ c p i = A.nominal c p i := by
  unfold Spec.Analysis.varied
  by_cases hx : A.nominal c p i = 0
  · rw [hx, zero_mul]
  · rw [List.map_congr_left (g := fun _ => (0 : ℝ)) fun m hm => by rw [hθ m hm]; exact h c n hc i hi p m hm hx]
    simp

theorem sum_nonneg_zero {α : Type*} {l : List α} {f : α → ℝ} (h : ∀ a ∈ l, 0 ≤ f a) :
    0 ≤ (l.map f).sum ∧ ((l.map f).sum = 0 ↔ ∀ a ∈ l, f a = 0) := by
  induction l with
  | nil => simp
  | cons a l ih =>
    obtain ⟨h1, h2⟩ := ih fun b hb => h b (List.mem_cons_of_mem _ hb)
    have h0 := h a (List.mem_cons_self ..)
    rw [List.map_cons, List.sum_cons]
    refine ⟨add_nonneg h0 h1, ?_⟩
    rw [add_eq_zero_iff_of_nonneg h0 h1, h2]
    simp

/-- distance of an expectation from the Asimov data, with the constraints -/
def gap (A : Spec.Analysis) (μ₀ μ θ : String → ℝ) : ℝ :=
  (A.chans.map fun c => ∑ i ∈ range c.2, poissonBin (A.expected μ₀ (fun _ => 0) c.1 i) (A.expected μ θ c.1 i)).sum +
    (A.nuisances.map fun m => if A.constrained m then θ m ^ 2 / 2 else 0).sum

theorem gap_zero {A : Spec.Analysis} {μ₀ μ θ : String → ℝ} (hpos : ∀ c n, (c, n) ∈ A.chans → ∀ i < n, 0 ≤ A.expected μ₀ (fun _ => 0) c i)
    (hx : A.sound μ₀ μ θ) : 0 ≤ gap A μ₀ μ θ ∧ (gap A μ₀ μ θ = 0 ↔ (∀ m ∈ A.nuisances, A.constrained m = true → θ m = 0) ∧
      ∀ c n, (c, n) ∈ A.chans → ∀ i < n, A.expected μ θ c i = A.expected μ₀ (fun _ => 0) c i) := by
  have hn : ∀ c ∈ A.chans, ∀ i ∈ range c.2, 0 ≤ poissonBin (A.expected μ₀ (fun _ => 0) c.1 i) (A.expected μ θ c.1 i) := fun c hc i hi =>
    c19_nonneg _ _ (hpos c.1 c.2 hc i (mem_range.1 hi)) (hx c.1 c.2 hc i (mem_range.1 hi)).1 (hx c.1 c.2 hc i (mem_range.1 hi)).2
  have n1 := sum_nonneg_zero (l := A.chans) (f := fun c => ∑ i ∈ range c.2, poissonBin (A.expected μ₀ (fun _ => 0) c.1 i) (A.expected μ θ c.1 i))
    (fun c hc => sum_nonneg (hn c hc))
  have n2 := sum_nonneg_zero (l := A.nuisances) (f := fun m => if A.constrained m then θ m ^ 2 / 2 else 0) (fun m hm => by
      split_ifs
      · positivity
      · exact le_rfl)
  unfold gap
  refine ⟨add_nonneg n1.1 n2.1, ?_⟩
  rw [add_eq_zero_iff_of_nonneg n1.1 n2.1, n1.2, n2.2, and_comm]
  refine and_congr (forall₂_congr fun m hm => ?_) ⟨fun h c n hc i hi => ?_, fun h c hc => ?_⟩
  · by_cases hb : A.constrained m = true
    · simp [hb]
    · simp [hb]
  · have h1 := (sum_eq_zero_iff_of_nonneg (hn (c, n) hc)).1 (h (c, n) hc) i (mem_range.2 hi)
    exact (c19_zero_iff _ _ (hpos c n hc i hi) (hx c n hc i hi).1 (hx c n hc i hi).2).1 h1
  · refine sum_eq_zero fun i hi => ?_
    have hi' := mem_range.1 hi
    exact (c19_zero_iff _ _ (hpos c.1 c.2 hc i hi') (hx c.1 c.2 hc i hi').1 (hx c.1 c.2 hc i hi').2).2 (h c.1 c.2 hc i hi')

theorem map_sub (l : List String) (a b f : String → ℝ) : (l.map fun p => (a p - b p) * f p).sum =
    (l.map fun p => a p * f p).sum - (l.map fun p => b p * f p).sum := by
  induction l with
  | nil => simp
  | cons p l ih => simp only [List.map_cons, List.sum_cons, ih]; ring

/-- with all nuisances constrained and independent signals, one point gives the expectation of the data -/
theorem same_point {neg : Bool} {ops : List (Op ℝ)} {A : Spec.Analysis} (D : Spec.Describes neg ops A)
    (hall : ∀ m ∈ A.nuisances, A.constrained m = true) (hind : A.independent) {μ₀ μ θ : String → ℝ} :
    ((∀ m ∈ A.nuisances, A.constrained m = true → θ m = 0) ∧
      ∀ c n, (c, n) ∈ A.chans → ∀ i < n, A.expected μ θ c i = A.expected μ₀ (fun _ => 0) c i) ↔
    (∀ p ∈ A.signals, μ p = μ₀ p) ∧ ∀ m ∈ A.nuisances, θ m = 0 := by
  have hcen := centred_of D
  have he : ∀ (μ : String → ℝ) {θ : String → ℝ} {c n}, (∀ m ∈ A.nuisances, θ m = 0) → (c, n) ∈ A.chans → ∀ i < n, A.expected μ θ c i =
      (A.signals.map fun p => μ p * A.nominal c p i).sum + (A.backgrounds.map fun p => A.nominal c p i).sum := by
    intro μ θ c n hθ hc i hi
    unfold Spec.Analysis.expected
    simp only [varied_zero hcen hθ hc hi]
  refine ⟨fun ⟨g1, g2⟩ => ?_, fun ⟨g1, g2⟩ => ⟨fun m hm _ => g2 m hm, fun c n hc i hi => ?_⟩⟩
  · have hθ : ∀ m ∈ A.nuisances, θ m = 0 := fun m hm => g1 m hm (hall m hm)
    refine ⟨fun p hp => sub_eq_zero.1 (hind (fun p => μ p - μ₀ p) (fun c n hc i hi => ?_) p hp), hθ⟩
    have := g2 c n hc i hi
    rw [he _ hθ hc i hi, he _ (fun _ _ => rfl) hc i hi] at this
    rw [map_sub]
    linarith
  · rw [he _ g2 hc i hi, he _ (fun _ _ => rfl) hc i hi, List.map_congr_left fun p hp => by rw [g1 p hp]]

/-- the start values by name -/
theorem start_values (t : Tensor ℝ) (xdef : List ℝ) (neg : Bool) :
    (∀ p ∈ t.signals, Spec.strength t neg (List.ofFn (ofFile t .logNormal xdef neg).x0) p = Spec.strength t neg xdef p) ∧
      Spec.nuisance t (List.ofFn (ofFile t .logNormal xdef neg).x0) = fun _ => 0 := by
  constructor
  · intro p hp
    have hl := List.idxOf_lt_length_of_mem hp
    have hn : t.signals.idxOf p < (ofFile t .logNormal xdef neg).model.npoi + (ofFile t .logNormal xdef neg).model.npou +
        (ofFile t .logNormal xdef neg).shape.nsyst := by
      show t.signals.idxOf p < t.signals.length + 0 + t.systs.length
      omega
    have : (List.ofFn (ofFile t .logNormal xdef neg).x0).getD (t.signals.idxOf p) 0 = xdef.getD (t.signals.idxOf p) 0 := by
      rw [List.getD_eq_getElem?_getD, List.getElem?_ofFn, dif_pos hn]
      exact if_pos hl
    unfold Spec.strength
    rw [this]
  · funext m
    unfold Spec.nuisance
    rw [List.getD_eq_getElem?_getD, List.getElem?_ofFn]
    split
    · exact if_neg (by simp)
    · rfl

section
variable {cfg : Cfg ℝ} {ops : List (Op ℝ)} {iter : List String → List String} {t : Tensor ℝ} {A : Spec.Analysis}
  (F : Writer.Spec.file cfg ops iter t) (hok : Writer.Spec.allOk cfg {} ops) (D : Spec.Describes cfg.allowNeg ops A)
  (hit : ∀ l, (iter l).Perm l) (hcon : Writer.Spec.consistent ops)
include F hok D hit hcon

/-- the loss with other data -/
theorem loss_data (hst : cfg.systType = .logNormal) (xdef : List ℝ) (neg : Bool) (obs : Nat → ℝ) (var : Nat → ℝ) (O : String → Nat → ℝ)
    (hO : ∀ c n a e, (c, n) ∈ A.chans → (c, a, e) ∈ readerFrom 0 t.channelInfo → ∀ i < n, obs (a + i) = O c i)
    (x : Fin (ofFile t .logNormal xdef neg).n → ℝ) :
    ({ ofFile t .logNormal xdef neg with nobs := obs, varnobs := var } : Fitter).loss x =
      .ok (some ((A.chans.map fun c => ∑ i ∈ range c.2, poissonBin (O c.1 i)
          (A.expected (Spec.strength t neg (List.ofFn x)) (Spec.nuisance t (List.ofFn x)) c.1 i)).sum +
        (A.nuisances.map fun m => if A.constrained m then Spec.nuisance t (List.ofFn x) m ^ 2 / 2 else 0).sum)) := by
  obtain ⟨r, nexp, y, h1, h2, h3⟩ := fit_yields F .logNormal hst xdef neg x
  obtain ⟨hperm, hnd⟩ := systs_perm F hok D hit hcon
  have hθ : ∀ j < t.systs.length, (ofFile t .logNormal xdef neg).theta x j = Spec.nuisance t (List.ofFn x) (t.systs.getD j "") := by
    intro j hj
    have := theta_at .logNormal xdef neg hnd x j hj
    rw [← this]
    exact dif_pos hj
  have hbins := sum_bins F hok D (fun b => poissonBin (obs b) (nexp b)) (fun c i => poissonBin (O c i)
      (A.expected (Spec.strength t neg (List.ofFn x)) (Spec.nuisance t (List.ofFn x)) c i)) (by
    intro c n a e hc hR i hi
    rw [hO c n a e hc hR i hi, nexp_eq F hok D hit hcon hst hc hR hi h3 hθ h2])
  have hcw := weights_eq F hok D hit hcon hperm (Spec.nuisance t (List.ofFn x))
  have hlc := fit_constraints F hit hcon .logNormal xdef neg x
  refine (loss_of (G := { ofFile t .logNormal xdef neg with nobs := obs, varnobs := var }) (x := x) (nexp' := nexp) (lb := none) (ps := []) h1 rfl rfl).trans
    (congrArg Except.ok (congrArg some ?_))
  have hln : ({ ofFile t .logNormal xdef neg with nobs := obs, varnobs := var } : Fitter).ln nexp = ∑ b ∈ range t.nbins, poissonBin (obs b) (nexp b) :=
    Fin.sum_univ_eq_sum_range (fun b => poissonBin (obs b) (nexp b)) t.nbins
  rw [hln, hbins]
  refine Eq.trans ?_ (congrArg (_ + ·) (hlc.trans hcw))
  have e1 : (Regularization.penaltyTerm (ofFile t .logNormal xdef neg).tau2 []).getD 0 = 0 := penaltyTerm_zero _ 0
  show _ + _ + (0 : ℝ) + (Regularization.penaltyTerm (ofFile t .logNormal xdef neg).tau2 []).getD 0 + 0 = _
  rw [e1]
  simp only [add_zero]

/-- what the command for Asimov data computes -/
theorem asimov_file (hst : cfg.systType = .logNormal) (xdef : List ℝ) (neg : Bool) :
    ∃ d, (ofFile t .logNormal xdef neg).asimov (ofFile t .logNormal xdef neg).x0 = .ok d ∧ d.2 = [] ∧
      ∀ c n a e, (c, n) ∈ A.chans → (c, a, e) ∈ readerFrom 0 t.channelInfo → ∀ i < n,
        d.1 (a + i) = A.expected (Spec.strength t neg xdef) (fun _ => 0) c i := by
  obtain ⟨r, nexp, y, h1, h2, h3⟩ := fit_yields F .logNormal hst xdef neg (ofFile t .logNormal xdef neg).x0
  obtain ⟨r', nexp', y', h1', -, -⟩ := fit_yields_of F true .logNormal hst xdef neg (ofFile t .logNormal xdef neg).x0
  obtain ⟨hperm, hnd⟩ := systs_perm F hok D hit hcon
  have hx := (start_values t xdef neg).1
  have hθ : ∀ j < t.systs.length, (ofFile t .logNormal xdef neg).theta (ofFile t .logNormal xdef neg).x0 j = (fun _ => (0 : ℝ)) (t.systs.getD j "") := by
    intro j hj
    have h := theta_at .logNormal xdef neg hnd (ofFile t .logNormal xdef neg).x0 j hj
    rw [(start_values t xdef neg).2] at h
    refine Eq.trans ?_ h
    exact dif_pos hj
  have h3' : ∀ g p proc, t.procs[p]? = some proc → r.at g p = if proc ∈ t.signals then Spec.strength t neg xdef proc else 1 := by
    intro g p proc hp
    rw [h3 g p proc hp]
    split_ifs with hs
    · exact hx proc hs
    · rfl
  refine ⟨(nexp, []), ?_, rfl, fun c n a e hc hR i hi => nexp_eq F hok D hit hcon hst hc hR hi h3' hθ h2⟩
  have e1 : ((ofFile t .logNormal xdef neg).reset (ofFile t .logNormal xdef neg).x0).expected true (ofFile t .logNormal xdef neg).x0 = .ok nexp' := by
    unfold Fitter.expected
    have : ((ofFile t .logNormal xdef neg).reset (ofFile t .logNormal xdef neg).x0).yields true
      (((ofFile t .logNormal xdef neg).reset (ofFile t .logNormal xdef neg).x0).params (ofFile t .logNormal xdef neg).x0)
      (((ofFile t .logNormal xdef neg).reset (ofFile t .logNormal xdef neg).x0).theta (ofFile t .logNormal xdef neg).x0) = .ok (nexp', y') := h1'
    rw [this]; rfl
  have e2 : ((ofFile t .logNormal xdef neg).reset (ofFile t .logNormal xdef neg).x0).expected false (ofFile t .logNormal xdef neg).x0 = .ok nexp := by
    unfold Fitter.expected
    have : ((ofFile t .logNormal xdef neg).reset (ofFile t .logNormal xdef neg).x0).yields false
      (((ofFile t .logNormal xdef neg).reset (ofFile t .logNormal xdef neg).x0).params (ofFile t .logNormal xdef neg).x0)
      (((ofFile t .logNormal xdef neg).reset (ofFile t .logNormal xdef neg).x0).theta (ofFile t .logNormal xdef neg).x0) = .ok (nexp, y) := h1
    rw [this]; rfl
  unfold Fitter.asimov
  dsimp only
  rw [e1]
  dsimp only
  rw [e2]
  have e3 : ((ofFile t .logNormal xdef neg).reset (ofFile t .logNormal xdef neg).x0).expectAll nexp'
    ((ofFile t .logNormal xdef neg).reset (ofFile t .logNormal xdef neg).x0).regs = .ok [] := rfl
  rw [e3]
  dsimp only
  exact if_neg fun h => nomatch h.1

omit hit hcon in
theorem default_strength {neg : Bool} {xdef : List ℝ} {expect : List (String × ℝ)}
    (hexp : ParamModels.setParamDefault Real.sqrt t.signals t.signals.length neg expect = .ok xdef)
    (hneg : neg = true ∨ ∀ p ∈ A.signals, 0 ≤ SatTest.Spec.requested expect p) (p : String) (hp : p ∈ A.signals) :
    Spec.strength t neg xdef p = SatTest.Spec.requested expect p := by
  obtain ⟨bkgs, e, -, hps, -⟩ := procs_split F hok D
  have hnd : t.signals.Nodup := hps.nodup_iff.2 D.signalsOnce
  have hp' : p ∈ t.signals := hps.mem_iff.2 hp
  have hl := List.idxOf_lt_length_of_mem hp'
  have hi : t.signals[t.signals.idxOf p]? = some p := List.getElem?_idxOf hp'
  obtain ⟨h1, h2⟩ := SatTest.c73_start (m := SatTest.muModel t.procs.length t.signals xdef neg) hnd le_rfl hexp (t.signals.idxOf p) p hi
    (hneg.imp id fun h => .inr (h p hp))
  unfold SatTest.effective at h1 h2
  have hm : (SatTest.muModel t.procs.length t.signals xdef neg).npoi = t.signals.length := rfl
  have ha : (SatTest.muModel t.procs.length t.signals xdef neg).allowNeg = neg := rfl
  rw [hm, ha] at h1 h2
  unfold Spec.strength
  cases neg with
  | true =>
    rw [if_pos rfl, List.take_append_drop] at h2
    rw [if_pos rfl, List.getD_eq_getElem?_getD, h2]; rfl
  | false =>
    rw [if_neg Bool.false_ne_true] at h1 h2
    simp only [List.length_append, List.length_map, List.length_take, List.length_drop] at h1
    rw [List.getElem?_append_left (by simp only [List.length_map, List.length_take]; omega), List.getElem?_map, List.getElem?_take, if_pos hl] at h2
    rw [if_neg Bool.false_ne_true, List.getD_eq_getElem?_getD]
    cases hx : xdef[t.signals.idxOf p]? with
    | none => rw [hx] at h2; exact nomatch h2
    | some v => rw [hx] at h2; exact Option.some.inj h2

/-- the loss of the Asimov fit, without a constant to be dropped -/
theorem asimov_loss (hst : cfg.systType = .logNormal) {neg : Bool} {xdef : List ℝ} {expect : List (String × ℝ)}
    (hexp : ParamModels.setParamDefault Real.sqrt t.signals t.signals.length neg expect = .ok xdef)
    (hneg : neg = true ∨ ∀ p ∈ A.signals, 0 ≤ SatTest.Spec.requested expect p) :
    ∃ d, (ofFile t .logNormal xdef neg).asimov (ofFile t .logNormal xdef neg).x0 = .ok d ∧
      ∀ x, ((ofFile t .logNormal xdef neg).prepared (ofFile t .logNormal xdef neg).x0 d).loss x =
        .ok (some ((A.chans.map fun c => ∑ i ∈ range c.2, poissonBin (A.expected (SatTest.Spec.requested expect) (fun _ => 0) c.1 i)
            (A.expected (Spec.strength t neg (List.ofFn x)) (Spec.nuisance t (List.ofFn x)) c.1 i)).sum +
          (A.nuisances.map fun m => if A.constrained m then Spec.nuisance t (List.ofFn x) m ^ 2 / 2 else 0).sum)) := by
  obtain ⟨⟨obs, rs⟩, h1, h2, h3⟩ := asimov_file F hok D hit hcon hst xdef neg
  obtain rfl : rs = [] := h2
  refine ⟨_, h1, fun x => ?_⟩
  refine loss_data F hok D hit hcon hst xdef neg obs _ (fun c i => A.expected (SatTest.Spec.requested expect) (fun _ => 0) c i)
    (fun c n a e hc hR i hi => ?_) x
  exact (h3 c n a e hc hR i hi).trans (expected_congr (default_strength F hok D hexp hneg) c i)

end

/-! ### theorems -/

/-- C106: The data of the Asimov fit are, in every fitted bin, what the calls describe for the requested signal strengths (`--expectSignal`,
one if not given) with all nuisances at zero: the loss of that fit is the likelihood on paper with these data. -/
theorem c106_asimov (cfg : Writer.Cfg ℝ) (ops : List (Op ℝ)) (iter : List String → List String) (t : Tensor ℝ) (A : Spec.Analysis)
    (F : Writer.Spec.file cfg ops iter t) (hok : Writer.Spec.allOk cfg {} ops) (hst : cfg.systType = .logNormal)
    (hit : ∀ l, (iter l).Perm l) (hcon : Writer.Spec.consistent ops) (D : Spec.Describes cfg.allowNeg ops A) (neg : Bool) (xdef : List ℝ)
    (expect : List (String × ℝ)) (hexp : ParamModels.setParamDefault Real.sqrt t.signals t.signals.length neg expect = .ok xdef)
    (hneg : neg = true ∨ ∀ p ∈ A.signals, 0 ≤ SatTest.Spec.requested expect p) :
    ∃ d, (ofFile t .logNormal xdef neg).asimov (ofFile t .logNormal xdef neg).x0 = .ok d ∧ ∃ C, ∀ x,
      ((ofFile t .logNormal xdef neg).prepared (ofFile t .logNormal xdef neg).x0 d).loss x =
        .ok (some ((A.asimov (SatTest.Spec.requested expect)).nll (Spec.strength t neg (List.ofFn x)) (Spec.nuisance t (List.ofFn x)) + C)) := by
  obtain ⟨d, h1, h2⟩ := asimov_loss F hok D hit hcon hst hexp hneg
  refine ⟨d, h1, (A.chans.map fun c => ∑ i ∈ range c.2, (A.expected (SatTest.Spec.requested expect) (fun _ => 0) c.1 i *
    lognobs (A.expected (SatTest.Spec.requested expect) (fun _ => 0) c.1 i) - A.expected (SatTest.Spec.requested expect) (fun _ => 0) c.1 i)).sum, fun x => ?_⟩
  refine (h2 x).trans (congrArg Except.ok (congrArg some ?_))
  unfold Spec.Analysis.nll
  simp only [poissonBin_eq, sum_add_distrib, List.sum_map_add]
  show _ = _ + (A.nuisances.map fun m => if A.constrained m then Spec.nuisance t (List.ofFn x) m ^ 2 / 2 else 0).sum + _
  rw [add_right_comm]
  rfl

/-- C106: The Asimov fit closes.  If the requested strengths give no negative expectation, the loss at the start values is
smaller than or equal to that of every other point where it is a number, and equal exactly where all constrained
nuisances are zero and every fitted bin has the same expectation. -/
theorem c106_closure (cfg : Writer.Cfg ℝ) (ops : List (Op ℝ)) (iter : List String → List String) (t : Tensor ℝ) (A : Spec.Analysis)
    (F : Writer.Spec.file cfg ops iter t) (hok : Writer.Spec.allOk cfg {} ops) (hst : cfg.systType = .logNormal)
    (hit : ∀ l, (iter l).Perm l) (hcon : Writer.Spec.consistent ops) (D : Spec.Describes cfg.allowNeg ops A) (neg : Bool) (xdef : List ℝ)
    (expect : List (String × ℝ)) (hexp : ParamModels.setParamDefault Real.sqrt t.signals t.signals.length neg expect = .ok xdef)
    (hneg : neg = true ∨ ∀ p ∈ A.signals, 0 ≤ SatTest.Spec.requested expect p)
    (hpos : ∀ c n, (c, n) ∈ A.chans → ∀ i < n, 0 ≤ A.expected (SatTest.Spec.requested expect) (fun _ => 0) c i) :
    ∃ d v₀, (ofFile t .logNormal xdef neg).asimov (ofFile t .logNormal xdef neg).x0 = .ok d ∧
      ((ofFile t .logNormal xdef neg).prepared (ofFile t .logNormal xdef neg).x0 d).loss (ofFile t .logNormal xdef neg).x0 = .ok (some v₀) ∧
      ∀ (x : Fin (ofFile t .logNormal xdef neg).n → ℝ),
        A.sound (SatTest.Spec.requested expect) (Spec.strength t neg (List.ofFn x)) (Spec.nuisance t (List.ofFn x)) →
        ∃ v, ((ofFile t .logNormal xdef neg).prepared (ofFile t .logNormal xdef neg).x0 d).loss x = .ok (some v) ∧ v₀ ≤ v ∧
          (v = v₀ ↔ (∀ m ∈ A.nuisances, A.constrained m = true → Spec.nuisance t (List.ofFn x) m = 0) ∧
            ∀ c n, (c, n) ∈ A.chans → ∀ i < n, A.expected (Spec.strength t neg (List.ofFn x)) (Spec.nuisance t (List.ofFn x)) c i =
              A.expected (SatTest.Spec.requested expect) (fun _ => 0) c i) := by
  obtain ⟨d, h1, h2⟩ := asimov_loss F hok D hit hcon hst hexp hneg
  have h0 : gap A (SatTest.Spec.requested expect) (Spec.strength t neg (List.ofFn (ofFile t .logNormal xdef neg).x0))
      (Spec.nuisance t (List.ofFn (ofFile t .logNormal xdef neg).x0)) = 0 := by
    have hx : ∀ p ∈ A.signals, Spec.strength t neg (List.ofFn (ofFile t .logNormal xdef neg).x0) p = SatTest.Spec.requested expect p := fun p hp => by
      obtain ⟨bkgs, e, -, hps, -⟩ := procs_split F hok D
      rw [(start_values t xdef neg).1 p (hps.mem_iff.2 hp), default_strength F hok D hexp hneg p hp]
    rw [(start_values t xdef neg).2]
    refine (gap_zero hpos fun c n hc i hi => ?_).2.2 ⟨fun _ _ _ => rfl, fun c n hc i hi => expected_congr hx c i⟩
    rw [expected_congr hx]
    exact ⟨hpos c n hc i hi, (hpos c n hc i hi).eq_or_lt.imp Eq.symm id⟩
  exact ⟨d, 0, h1, (h2 (ofFile t .logNormal xdef neg).x0).trans (congrArg Except.ok (congrArg some h0)), fun x hx => ⟨_, h2 x, gap_zero hpos hx⟩⟩

/-- C106: The Asimov fit gives the requested strengths back.  If all nuisances are constrained and the nominal signals are
independent, a point with the smallest loss has the requested strength of every signal and every nuisance at zero. -/
theorem c106_unique (cfg : Writer.Cfg ℝ) (ops : List (Op ℝ)) (iter : List String → List String) (t : Tensor ℝ) (A : Spec.Analysis)
    (F : Writer.Spec.file cfg ops iter t) (hok : Writer.Spec.allOk cfg {} ops) (hst : cfg.systType = .logNormal)
    (hit : ∀ l, (iter l).Perm l) (hcon : Writer.Spec.consistent ops) (D : Spec.Describes cfg.allowNeg ops A) (neg : Bool) (xdef : List ℝ)
    (expect : List (String × ℝ)) (hexp : ParamModels.setParamDefault Real.sqrt t.signals t.signals.length neg expect = .ok xdef)
    (hneg : neg = true ∨ ∀ p ∈ A.signals, 0 ≤ SatTest.Spec.requested expect p)
    (hpos : ∀ c n, (c, n) ∈ A.chans → ∀ i < n, 0 ≤ A.expected (SatTest.Spec.requested expect) (fun _ => 0) c i)
    (hall : ∀ m ∈ A.nuisances, A.constrained m = true) (hind : A.independent) :
    ∃ d v₀, (ofFile t .logNormal xdef neg).asimov (ofFile t .logNormal xdef neg).x0 = .ok d ∧
      ((ofFile t .logNormal xdef neg).prepared (ofFile t .logNormal xdef neg).x0 d).loss (ofFile t .logNormal xdef neg).x0 = .ok (some v₀) ∧
      ∀ (x : Fin (ofFile t .logNormal xdef neg).n → ℝ),
        A.sound (SatTest.Spec.requested expect) (Spec.strength t neg (List.ofFn x)) (Spec.nuisance t (List.ofFn x)) →
        ∃ v, ((ofFile t .logNormal xdef neg).prepared (ofFile t .logNormal xdef neg).x0 d).loss x = .ok (some v) ∧ v₀ ≤ v ∧
          (v = v₀ ↔ (∀ p ∈ A.signals, Spec.strength t neg (List.ofFn x) p = SatTest.Spec.requested expect p) ∧
            ∀ m ∈ A.nuisances, Spec.nuisance t (List.ofFn x) m = 0) := by
  obtain ⟨d, v₀, h1, h2, h3⟩ := c106_closure cfg ops iter t A F hok hst hit hcon D neg xdef expect hexp hneg hpos
  refine ⟨d, v₀, h1, h2, fun x hx => ?_⟩
  obtain ⟨v, h4, h5, h6⟩ := h3 x hx
  exact ⟨v, h4, h5, h6.trans (same_point D hall hind)⟩

/-! ### cases -/

namespace Ex

open Writer.Ex in
/-- the history `opsL` with a constrained normalisation -/
def opsU : List (Op ℝ) := [.channel [ax 2] (some "m") true false, .channel [ax 2] (some "a") false false,
  .process (hr [1, 2]) "q" "a" false none, .process (hr [1, 2]) "p" "a" true none, .process (hr [1, 2]) "p" "m" true none, .data (hr [2, 3]) "a" none,
  .syst (.pair (hr [2, 3]) (hr [1, 1])) "n" "p" "a" 1 true .none false false {},
  .syst (.single (hr [1, 1])) "o" "q" "a" 1 true .average false false {},
  .syst (.single (hr [2, 3])) "o" "p" "m" 1 true .average false false {},
  .normSyst "r" ["q", "p"] "a" [.num 2, .num 3] false .average {}]

def viewU (t : Tensor ℝ) : Bool := t.signals == ["p"] && t.systs.length == 3

def paperU : Spec.Analysis := { paper with constrained := fun _ => true }

open Writer.Ex in
theorem goodU : goodB cfgL {} opsU = true ∧ okB (write cfgL id (run cfgL opsU)).2 viewU = true ∧ allOkB cfgL {} opsU = true := by
  simp only [goodB, allOkB, run, runOps, opsU, step, addProcess, addData, fitsB, sizeB, optB,
    Option.getD_none, hr_vars _ 1 2 one_pos.le two_pos.le, hr_sumw2 _ 1 2 one_pos.le two_pos.le, hr_vars _ 2 3 two_pos.le three_pos.le,
    hr_vars _ 1 1 one_pos.le one_pos.le]
  refine ⟨?_, ?_, ?_⟩ <;> decide +kernel

theorem onceU (c p m : String) : opsU.Pairwise fun o o' => Writer.Spec.touches c p m o → ¬ Writer.Spec.touches c p m o' := by
  simp only [opsU, List.pairwise_cons, List.mem_cons, List.not_mem_nil, or_false, forall_eq_or_imp, forall_eq, Writer.Spec.touches, Writer.Spec.booksName]
  simp
  refine ⟨⟨?_, ?_, ?_⟩, ⟨?_, ?_⟩, ?_⟩ <;> intro h1 h2 h3 h4 h5 h6 <;> subst h3 <;> first | exact absurd h6 (by decide) | (rw [← h4] at h1; exact absurd h1 (by decide))

theorem describesU : Spec.Describes true opsU paperU where
  named := by simp [opsU]
  canonical := by
    intro h p c s v hm flow
    simp only [opsU, List.mem_cons, List.not_mem_nil, or_false, reduceCtorEq, false_or, Op.process.injEq] at hm
    rcases hm with ⟨rfl, _⟩ | ⟨rfl, _⟩ | ⟨rfl, _⟩ <;> simp [Writer.Ex.hr, HIn.flatCsr]
  chansOnce := by simp [paperU, paper]
  chans := by
    simp [opsU, paperU, paper]
    rintro _ n rfl
    exact Iff.rfl
  signalsOnce := by simp [paperU, paper]
  signals := by
    intro p
    simp [opsU, paperU, paper]
    constructor
    · rintro rfl
      exact ⟨_, "a", none, .inl ⟨rfl, rfl, rfl, rfl⟩⟩
    · rintro ⟨h, c, v, ⟨_, rfl, _⟩ | ⟨_, rfl, _⟩⟩ <;> rfl
  backgroundsOnce := by simp [paperU, paper]
  backgrounds := by simp [opsU, paperU, paper]
  nuisancesOnce := by simp [paperU, paper]
  nuisances := by
    intro m
    simp [opsU, paperU, paper, Writer.Spec.asked, Writer.Spec.asks]
    simp only [eq_comm]
  constrained := by simp [opsU, paperU, paper, Writer.Spec.asked, Writer.Spec.asks]
  obs := by
    intro h c v hm i x hx
    simp only [opsU, List.mem_cons, List.not_mem_nil, or_false, reduceCtorEq, false_or, Op.data.injEq] at hm
    obtain ⟨rfl, _⟩ := hm
    exact vals_hr hx
  nominal := by
    intro c _ h p s v hm i x hx
    simp only [opsU, List.mem_cons, List.not_mem_nil, or_false, reduceCtorEq, false_or, Op.process.injEq] at hm
    have hp : p = "p" ∨ p = "q" := by rcases hm with ⟨_, rfl, _⟩ | ⟨_, rfl, _⟩ | ⟨_, rfl, _⟩ <;> simp
    have hh : h = Writer.Ex.hr [1, 2] := by rcases hm with ⟨rfl, _⟩ | ⟨rfl, _⟩ | ⟨rfl, _⟩ <;> rfl
    subst hh
    rw [vals_hr hx]
    show (if p = "p" ∨ p = "q" then [1, 2].getD i 0 else 0) = (if true then _ else _)
    rw [if_pos hp, if_pos rfl]
  absent := by
    intro c hc p hp i
    refine if_neg ?_
    rcases List.mem_singleton.1 (show c ∈ ["a"] from hc) with rfl
    rintro (rfl | rfl)
    · exact hp (Writer.Ex.hr [1, 2]) true none (by simp [opsU])
    · exact hp (Writer.Ex.hr [1, 2]) false none (by simp [opsU])
  once := by
    rintro c p m l op r e h o ho
    have := onceU c p m
    rw [e] at this
    exact (List.pairwise_cons.1 (List.pairwise_append.1 this).2.1).1 o ho h
  silent := by
    intro c hc p m hno i θ
    rcases List.mem_singleton.1 (show c ∈ ["a"] from hc) with rfl
    have h : ¬ (p = "p" ∧ m = "n") ∧ ¬ (p = "q" ∧ m = "o") ∧ ¬ (p = "q" ∧ m = "r") ∧ ¬ (p = "p" ∧ m = "r") := by
      simp only [opsU, List.mem_cons, List.not_mem_nil, or_false, forall_eq_or_imp, forall_eq, Writer.Spec.touches, Writer.Spec.booksName] at hno
      refine ⟨?_, ?_, ?_, ?_⟩ <;> rintro ⟨rfl, rfl⟩ <;> simp at hno
    show (if p = "p" ∧ m = "n" then _ else _) = (0 : ℝ)
    rw [if_neg h.1, if_neg h.2.1, if_neg h.2.2.1, if_neg h.2.2.2]
  responds := by
    intro c n hcn p m hm op ho hto i hi hx
    simp only [paperU, paper, List.mem_singleton, Prod.mk.injEq] at hcn
    obtain ⟨rfl, rfl⟩ := hcn
    simp only [opsU, List.mem_cons, List.not_mem_nil, or_false] at ho
    rcases ho with rfl | rfl | rfl | rfl | rfl | rfl | rfl | rfl | rfl | rfl <;>
      simp only [Writer.Spec.touches, Writer.Spec.booksName] at hto
    · obtain ⟨_, rfl, rfl⟩ := hto
      refine ⟨rfl, [2, 3].getD i 0, [1, 1].getD i 0, ⟨_, hr_vals hi, rfl⟩, ⟨_, hr_vals hi, rfl⟩, fun θ => ?_⟩
      rfl
    · obtain ⟨_, rfl, rfl⟩ := hto
      refine ⟨rfl, [1, 1].getD i 0, ⟨_, hr_vals hi, rfl⟩, fun θ => ?_⟩
      simp [paperU, paper]
    · simp at hto
    · obtain ⟨_, hp, rfl⟩ := hto
      refine ⟨rfl, .inl ⟨by decide, [2, 3], rfl, rfl, by simp, ?_⟩⟩
      simp only [List.mem_cons, List.not_mem_nil, or_false] at hp
      rcases hp with rfl | rfl
      · exact ⟨2, by simp, fun θ => by simp [paperU, paper]⟩
      · exact ⟨3, by simp, fun θ => by simp [paperU, paper]⟩

theorem consistentU : Writer.Spec.consistent opsU := by
  intro b b' h h' e h1 h2
  have := describesU.constrained b h h1
  rw [← this, e, describesU.constrained b' h' h2]

theorem expectU (i : Nat) (hi : i < 2) (μ : String → ℝ) : paperU.expected μ (fun _ => 0) "a" i = (μ "p" + 1) * [1, 2].getD i 0 := by
  match i, hi with
  | 0, _ => simp [Spec.Analysis.expected, Spec.Analysis.varied, paperU, paper, Spec.paired]
  | 1, _ => simp [Spec.Analysis.expected, Spec.Analysis.varied, paperU, paper, Spec.paired]; ring

end Ex

/-- The hypotheses of `c106_asimov`, `c106_closure` and `c106_unique` are met: a signal strength of 2 asked for with squared
parameters, three constrained nuisances; the fit gives 2 back, and the expectations are 3 and 6 events. -/
example : ∃ t d v₀, t.signals = ["p"] ∧ t.systs.length = 3 ∧
    (ofFile t .logNormal [Real.sqrt 2] false).asimov (ofFile t .logNormal [Real.sqrt 2] false).x0 = .ok d ∧
    Ex.paperU.expected (SatTest.Spec.requested [("p", 2)]) (fun _ => 0) "a" 1 = 6 ∧
    ∀ (x : Fin (ofFile t .logNormal [Real.sqrt 2] false).n → ℝ),
      Ex.paperU.sound (SatTest.Spec.requested [("p", 2)]) (Spec.strength t false (List.ofFn x)) (Spec.nuisance t (List.ofFn x)) →
      ∃ v, ((ofFile t .logNormal [Real.sqrt 2] false).prepared (ofFile t .logNormal [Real.sqrt 2] false).x0 d).loss x = .ok (some v) ∧ v₀ ≤ v ∧
        (v = v₀ → Spec.strength t false (List.ofFn x) "p" = 2) := by
  obtain ⟨h1, h2, h3⟩ := Ex.goodU
  obtain ⟨t, ht, hv⟩ := Writer.Ex.okB_iff h2
  obtain ⟨g1, g2⟩ := Writer.Ex.goodB_iff _ _ _ h1
  simp only [Ex.viewU, Bool.and_eq_true, beq_iff_eq] at hv
  have hreq : SatTest.Spec.requested [("p", (2 : ℝ))] "p" = 2 := rfl
  have hexp : ParamModels.setParamDefault Real.sqrt t.signals t.signals.length false [("p", (2 : ℝ))] = .ok [Real.sqrt 2] := by
    rw [hv.1]; rfl
  obtain ⟨d, v₀, c1, -, c3⟩ := c106_unique Ex.cfgL Ex.opsU id t Ex.paperU ⟨rfl, rfl, g1, g2, ht⟩ (Writer.Ex.allOkB_iff _ _ _ h3) rfl
    (fun l => .refl l) Ex.consistentU Ex.describesU false [Real.sqrt 2] [("p", 2)] hexp
    (.inr fun p hp => by
      rcases List.mem_singleton.1 (show p ∈ ["p"] from hp) with rfl
      rw [hreq]; norm_num)
    (fun c n hc i hi => by
      obtain ⟨rfl, rfl⟩ := Prod.mk.inj (List.mem_singleton.1 (show (c, n) ∈ [("a", 2)] from hc))
      rw [Ex.expectU i hi, hreq]
      match i, hi with
      | 0, _ => norm_num
      | 1, _ => norm_num)
    (fun _ _ => rfl)
    (fun a ha p hp => by
      rcases List.mem_singleton.1 (show p ∈ ["p"] from hp) with rfl
      have := ha "a" 2 (List.mem_singleton.2 rfl) 0 (by norm_num)
      simpa [Ex.paperU, Ex.paper] using this)
  refine ⟨t, d, v₀, hv.1, hv.2, c1, ?_, fun x hx => ?_⟩
  · rw [Ex.expectU 1 (by norm_num), hreq]; norm_num
  · obtain ⟨v, e1, e2, e3⟩ := c3 x hx
    exact ⟨v, e1, e2, fun h => (e3.1 h).1 "p" (List.mem_singleton.2 rfl)⟩

end

end Verif.FileFit
