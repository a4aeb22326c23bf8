import Verif.Props.BBBLite
import Verif.Props.FileFit

/-!
C104 With the statistical uncertainty of the templates, the loss of a written file is the likelihood the calls describe,
at its minimum over the parameters of the template statistics.
-/

namespace Verif.FileFit

open Verif.Writer Verif.LinearFit Verif.FitParams Verif.BBB Finset

noncomputable section

/-! ### specification -/

namespace Spec

variable (A : Analysis) (V : String → String → Nat → ℝ)

def Analysis.procs : List String := A.signals ++ A.backgrounds

/-- events of a process -/
def Analysis.yieldOf (μ θ : String → ℝ) (c p : String) (i : Nat) : ℝ := (if p ∈ A.signals then μ p else 1) * A.varied θ c p i

/-- variance of the sum of the templates -/
def Analysis.variance (c : String) (i : Nat) : ℝ := (A.procs.map fun p => V c p i).sum

open Classical in
/-- sum of the templates that have a variance -/
def Analysis.simulated (c : String) (i : Nat) : ℝ := (A.procs.map fun p => if V c p i = 0 then 0 else A.nominal c p i).sum

open Classical in
/-- number of unweighted events with the same relative uncertainty -/
def Analysis.equivalent (c : String) (i : Nat) : ℝ := A.simulated V c i ^ 2 / A.variance V c i

/-- bins with a parameter of their own -/
def Analysis.uncertain (kind : Kind) (c : String) (i : Nat) : Prop :=
  A.variance V c i ≠ 0 ∧ (kind ≠ .normAdd → A.simulated V c i ≠ 0)

open Classical in
/-- expected events of a bin with the parameter of the bin at `b`: a factor on the templates with a variance, or a shift in
standard deviations -/
def Analysis.moved (kind : Kind) (μ θ : String → ℝ) (b : ℝ) (c : String) (i : Nat) : ℝ :=
  if A.uncertain V kind c i then
    match kind with
    | .gamma | .normMult => (A.procs.map fun p => (if V c p i = 0 then 1 else b) * A.yieldOf μ θ c p i).sum
    | .normAdd => A.expected μ θ c i + √(A.variance V c i) * b
  else A.expected μ θ c i

open Classical in
/-- what is known of the parameter of a bin from the simulated events -/
def Analysis.pull (kind : Kind) (b : ℝ) (c : String) (i : Nat) : ℝ :=
  if A.uncertain V kind c i then
    match kind with
    | .gamma => A.equivalent V c i * (b - Real.log b)
    | .normMult => A.equivalent V c i * (b - 1) ^ 2 / 2
    | .normAdd => b ^ 2 / 2
  else 0

/-- negative logarithm of the likelihood, up to a constant, with the parameters of the bins at `β` -/
def Analysis.nllStat (kind : Kind) (μ θ : String → ℝ) (β : String → Nat → ℝ) : ℝ :=
  (A.chans.map fun c => ∑ i ∈ range c.2, (A.moved V kind μ θ (β c.1 i) c.1 i -
    A.obs c.1 i * Real.log (A.moved V kind μ θ (β c.1 i) c.1 i) + A.pull V kind (β c.1 i) c.1 i)).sum +
    (A.nuisances.map fun m => if A.constrained m then θ m ^ 2 / 2 else 0).sum

/-- parameter of a bin for which the likelihood is defined -/
def Analysis.possible (kind : Kind) (μ θ : String → ℝ) (b : ℝ) (c : String) (i : Nat) : Prop :=
  A.uncertain V kind c i → (0 < A.moved V kind μ θ b c i ∨ A.obs c i = 0 ∧ 0 ≤ A.moved V kind μ θ b c i) ∧ (kind = .gamma → 0 < b)

open Classical in
/-- points at which the processes with a variance are present in every bin with a parameter -/
def Analysis.present (kind : Kind) (μ θ : String → ℝ) : Prop :=
  ∀ c n, (c, n) ∈ A.chans → ∀ i < n, A.uncertain V kind c i →
    0 < (A.procs.map fun p => if V c p i = 0 then 0 else A.yieldOf μ θ c p i).sum ∧
      (kind = .gamma → 0 ≤ (A.procs.map fun p => if V c p i = 0 then A.yieldOf μ θ c p i else 0).sum)

/-- the analysis with other observed events -/
abbrev Analysis.withObs (O : String → Nat → ℝ) : Analysis := { A with obs := O }

/-- variances a histogram carries; arrays and sparse matrices carry their contents -/
def carried : HIn ℝ → List (FVal ℝ)
  | .hist _ _ vars => vars false
  | h => h.flatVals false

/-- the variances that the calls give: those of the histogram for the variances, or else of the template -/
structure Variances (ops : List (Op ℝ)) : Prop where
  given : ∀ c ∈ A.chans.map Prod.fst, ∀ h p s v, Op.process h p c s v ∈ ops → ∀ (i : Nat) x, (carried (v.getD h))[i]? = some x → x = .fin (V c p i)
  absent : ∀ c ∈ A.chans.map Prod.fst, ∀ p, (∀ h s v, Op.process h p c s v ∉ ops) → ∀ i, V c p i = 0

end Spec

/-- the fitter with other data -/
abbrev withData (G : Fitter) (obs var : Nat → ℝ) : Fitter := { G with nobs := obs, varnobs := var }

/-! ### one bin -/

section
variable {P : Type*} [Fintype P] (b : LiteBin P)

theorem masked_iff (h0 : b.minK = 0) : b.masked ↔ (∑ p, b.sumw2 p) = 0 ∨ (∑ p, if b.sumw2 p = 0 then 0 else b.sumw p) = 0 := by
  rw [c34_mask_iff, h0]
  simp

/-- log-likelihood of a bin, as a function of its parameter -/
def binNll (kind : Kind) (n K μ β : ℝ) : ℝ := μ - n * Real.log μ +
  match kind with
  | .gamma => K * (β - Real.log β)
  | .normMult => K * (β - 1) ^ 2 / 2
  | .normAdd => β ^ 2 / 2

def center : Kind → ℝ
  | .gamma | .normMult => 1
  | .normAdd => 0

def shiftOf (kind : Kind) (n K : ℝ) : ℝ := n * lognobs n - n - if kind = .gamma then K else 0

theorem liteNll_bin {kind : Kind} (h0 : b.beta0 = center kind) (n v K β : ℝ) :
    BBB.Spec.liteNll .poisson kind b.norm b.sumw2 n v K b.beta0 β = binNll kind n K (BBB.Spec.liteMean kind b.norm b.sumw2 β) β := by
  have hp : ∀ m : ℝ, Verif.Spec.poissonNll n m = m - n * Real.log m := by
    intro m
    unfold Verif.Spec.poissonNll
    split_ifs with h
    · rw [h]; ring
    · rfl
  unfold BBB.Spec.liteNll binNll BBB.Spec.dataNll BBB.Spec.constraintNll
  rw [h0]
  cases kind <;> simp [center, hp]
  ring

theorem bin_value {kind : Kind} (h0 : b.beta0 = center kind) (μ β : ℝ) :
    poissonBin b.nobs μ + lbeta kind False b.k b.beta0 β = binNll kind b.nobs b.k μ β + shiftOf kind b.nobs b.k := by
  rw [poissonBin_eq, h0]
  unfold binNll shiftOf lbeta
  cases kind <;> simp [center] <;> ring

open Classical in
/-- the bin has a parameter -/
def hasParam (kind : Kind) : Prop := (∑ p, b.sumw2 p) ≠ 0 ∧ (kind ≠ .normAdd → (∑ p, if b.sumw2 p = 0 then 0 else b.sumw p) ≠ 0)

theorem bin_without {kind : Kind} (hK : b.minK = 0) (h : ¬ hasParam b kind) :
    b.applied kind (b.profile .poisson kind) = b.nexp ∧ lbeta kind b.masked b.k b.beta0 (b.profile .poisson kind) = 0 := by
  by_cases hk : kind = .normAdd
  · subst hk
    have hv : b.varbeta = 0 := by
      by_contra hne
      exact h ⟨hne, fun h => absurd rfl h⟩
    obtain ⟨h1, h2, h3, _⟩ := (c34_lite_untouched_additive b (b.profile .poisson .normAdd)).2 hv
    refine ⟨?_, by rw [h2]; exact h3⟩
    unfold LiteBin.applied
    rw [h1]
    rfl
  · have hm : b.masked := by
      rw [masked_iff b hK]
      by_contra hne
      rw [not_or] at hne
      exact h ⟨hne.1, fun _ => hne.2⟩
    have hk' : kind = .gamma ∨ kind = .normMult := by cases kind <;> simp at hk ⊢
    obtain ⟨_, h2, _, h3⟩ := (c34_lite_untouched b kind hk' (b.profile .poisson kind)).1 hm
    exact ⟨b.applied_masked hk' hm _, by rw [h2]; exact h3⟩

theorem bin_with {kind : Kind} (h0 : b.beta0 = center kind) (hK : b.minK = 0) (hs2 : ∀ p, 0 ≤ b.sumw2 p) (hn : 0 ≤ b.nobs)
    (h : hasParam b kind) (hA : 0 < b.nActive) (hZ : kind = .gamma → 0 ≤ b.nZero) :
    let β' := b.profile .poisson kind
    let mean := BBB.Spec.liteMean kind b.norm b.sumw2
    let K := BBB.Spec.neff b.sumw b.sumw2
    b.applied kind β' = mean β' ∧
    poissonBin b.nobs (mean β') + lbeta kind b.masked b.k b.beta0 β' = binNll kind b.nobs K (mean β') β' + shiftOf kind b.nobs K ∧
    ((0 < mean β' ∨ b.nobs = 0 ∧ 0 ≤ mean β') ∧ (kind = .gamma → 0 < β')) ∧
    ∀ β, (0 < mean β ∨ b.nobs = 0 ∧ 0 ≤ mean β) → (kind = .gamma → 0 < β) →
      binNll kind b.nobs K (mean β') β' ≤ binNll kind b.nobs K (mean β) β := by
  intro β' mean K
  have hm : kind ≠ .normAdd → ¬ b.masked := by
    intro hk hm
    rcases (masked_iff b hK).1 hm with h1 | h1
    · exact h.1 h1
    · exact h.2 hk h1
  have hkK : kind ≠ .normAdd → b.k = K := fun hk => c29_constraint_strength b (hm hk)
  have hb : ∀ μ β, binNll kind b.nobs b.k μ β = binNll kind b.nobs K μ β ∧ shiftOf kind b.nobs b.k = shiftOf kind b.nobs K := by
    intro μ β
    by_cases hk : kind = .normAdd
    · subst hk; exact ⟨rfl, rfl⟩
    · rw [hkK hk]; exact ⟨rfl, rfl⟩
  have hl : lbeta kind b.masked b.k b.beta0 β' = lbeta kind False b.k b.beta0 β' := by
    cases kind with
    | gamma | normAdd => rfl
    | normMult =>
      have : b.masked = False := by simpa using hm (by simp)
      rw [this]
  refine ⟨?_, ?_, ?_⟩
  · cases kind with
    | gamma => rw [b.applied_mult (.inl rfl) (hm (by simp))]; exact (mean_mult b (.inl rfl) _).symm
    | normMult => rw [b.applied_mult (.inr rfl) (hm (by simp))]; exact (mean_mult b (.inr rfl) _).symm
    | normAdd => rw [b.applied_add hA]; exact (mean_add b _).symm
  · rw [hl, bin_value b h0, (hb 0 0).2, (hb _ _).1]
  · have hadm : ∀ β, (0 < mean β ∨ b.nobs = 0 ∧ 0 ≤ mean β) → (kind = .gamma → 0 < β) → BBB.Spec.Admissible .poisson kind b.nobs b.beta0 (mean β) β :=
      fun β h1 h2 => ⟨fun _ => h1, fun hk => .inl (h2 hk)⟩
    have hadm' : BBB.Spec.Admissible .poisson kind b.nobs b.beta0 (mean β') β' →
        (0 < mean β' ∨ b.nobs = 0 ∧ 0 ≤ mean β') ∧ (kind = .gamma → 0 < β') := by
      rintro ⟨h1, h2⟩
      refine ⟨h1 rfl, fun hk => ?_⟩
      rcases h2 hk with h | h
      · exact h
      · rw [h0, hk] at h
        exact absurd h.1 one_ne_zero
    have hle : ∀ β, BBB.Spec.liteNll .poisson kind b.norm b.sumw2 b.nobs b.varnobs b.k b.beta0 β' ≤
        BBB.Spec.liteNll .poisson kind b.norm b.sumw2 b.nobs b.varnobs b.k b.beta0 β → binNll kind b.nobs K (mean β') β' ≤ binNll kind b.nobs K (mean β) β := by
      intro β h
      rw [liteNll_bin b h0, liteNll_bin b h0, (hb _ _).1, (hb _ _).1] at h
      exact h
    cases kind with
    | gamma =>
      obtain ⟨h1, h2, _⟩ := c29_gamma_lite_poisson_minimises b (hm (by simp)) hs2 hA (hZ rfl) hn (by rw [h0]; exact zero_le_one)
      exact ⟨hadm' h1, fun β g1 g2 => hle β (h2 β (hadm β g1 g2))⟩
    | normMult =>
      obtain ⟨h1, h2⟩ := c30_normal_mult_lite_poisson_minimises b (hm (by simp)) hs2 hA hn
      exact ⟨hadm' h1, fun β g1 g2 => hle β (h2 β (hadm β g1 g2)).1⟩
    | normAdd =>
      obtain ⟨h1, h2⟩ := c30_normal_add_lite_poisson_minimises b hs2 hn h.1
      exact ⟨hadm' h1, fun β g1 g2 => hle β (h2 β (hadm β g1 g2)).1⟩

end

/-! ### from the calls to the file -/

theorem carried_eq {h : HIn ℝ} {vs : List (FVal ℝ)} (hv : h.flatVars false = .ok vs) : vs = Spec.carried h := by
  cases h <;> (unfold HIn.flatVars at hv; dsimp only at hv; split_ifs at hv; exact (Except.ok.inj hv).symm)

theorem finites_list {vs : List (FVal ℝ)} {w : List ℝ} {R : Res (List ℝ)} (h1 : ∀ l, finites vs = some l → R = .ok l)
    (h0 : finites vs = none → R = .error .runtime) (h : R = .ok w) : vs = w.map .fin := by
  cases hf : finites vs with
  | none => rw [h0 hf] at h; cases h
  | some l =>
    rw [h1 l hf] at h
    rw [← Except.ok.inj h]
    exact finites_eq_some.1 hf

section
variable {cfg : Writer.Cfg ℝ} {ops : List (Op ℝ)} {iter : List String → List String} {t : Tensor ℝ} {A : Spec.Analysis}
  (F : Writer.Spec.file cfg ops iter t) (hok : Writer.Spec.allOk cfg {} ops) (D : Spec.Describes cfg.allowNeg ops A)
include F hok D

theorem variance_eq {V : String → String → Nat → ℝ} (hV : Spec.Variances A V ops) {c proc : String} {i g p : Nat} (hc : c ∈ A.chans.map Prod.fst)
    (hcell : Writer.Spec.cellAt t c proc i g p) : t.sumw2 g p = V c proc i := by
  obtain ⟨a, e, hR, hi, rfl, hpp⟩ := hcell
  obtain ⟨_, _, _, hsumw, _, _⟩ := c02_layout_partial cfg ops F.fresh iter t F.written F.csr
  have hs := hsumw c a e hR p proc hpp i hi
  by_cases hp : ∃ h s v, Op.process h proc c s v ∈ ops
  · obtain ⟨h, sg, v, hm⟩ := hp
    obtain ⟨ch0, h10, h20⟩ := (fitted_iff F hok D).1 hc
    have hfl : ch0.flow = false := F.sized.noFlow _ _ h10 h20
    obtain ⟨chr, hmr, he⟩ := mem_reader hR
    have hcr : chr = ch0 := by
      rw [info_eq F hok D] at hmr
      have := Dict.get?_of_mem _ _ _ (layInv_run cfg ops F.fresh).nodup hmr
      rw [h10] at this
      exact (Option.some.inj this).symm
    subst hcr
    have hval := hV.given c hc h proc sg v hm
    obtain ⟨l, r, e'⟩ := List.append_of_mem hm
    clear D hV
    subst e'
    have hacc : (step cfg (.process h proc c sg v) (run cfg l)).2 = .ok () := allOk_mid hok
    obtain ⟨f1, f2⟩ := freshNames_split F.fresh
    have hl0 : LayInv (run cfg l) := layInv_run cfg l f1
    have hrun : run cfg (l ++ .process h proc c sg v :: r) = runOps cfg (step cfg (.process h proc c sg v) (run cfg l)).1 r := by
      unfold run; rw [runOps_append]; rfl
    have hl1 := layInv_step cfg (.process h proc c sg v) _ hl0 f2.1
    obtain ⟨ch, _, _, hch, _⟩ := c01_process_partial cfg _ h proc c sg v hacc [] trivial
    have hc1 := channel_step (cfg := cfg) (.process h proc c sg v) _ hl0 f2.1 hch
    obtain ⟨hc2, hre⟩ := channel_run r _ hl1 f2.2 hc1
    obtain ⟨ch', n, w, hch', _, hw, hT, _⟩ := c01_process_partial cfg _ h proc c sg v hacc r hre
    rw [hch] at hch'
    cases hch'
    have hcc : ch = chr := by
      rw [hrun, hc2] at h10
      exact Option.some.inj h10
    subst hcc
    rw [← hrun] at hT
    rw [hT] at hs
    have hs2 : t.sumw2 (a + i) p = Writer.Spec.elem w i 0 := hs.2
    have hwl : w.length = chSize ch := by
      obtain ⟨ch2, w2, k1, k2, k3⟩ := F.sized.sumw2 _ _ _ (at2_of_template hT)
      rw [h10] at k1
      cases k1
      obtain ⟨nc, wc, m1, m2, m3, m4⟩ := template_eq_some.1 hT
      have : Writer.Spec.at2 (run cfg (l ++ .process h proc c sg v :: r)).sumw2 c proc = some w := by
        unfold Writer.Spec.at2
        rw [m2]
        exact m4
      rw [this] at k2
      cases k2
      exact k3
    have hil : i < w.length := by omega
    have hfin : Spec.carried (v.getD h) = w.map .fin := by
      rw [hfl] at hw
      unfold procSumw2 at hw
      cases v with
      | some v =>
        simp only [bind, Except.bind] at hw
        cases hvs : v.flatVars false with
        | error e => rw [hvs] at hw; cases hw
        | ok vs =>
          rw [hvs] at hw
          rw [Option.getD_some, ← carried_eq hvs]
          exact finites_list (fun l hl => by dsimp only; rw [hl]) (fun hl => by dsimp only; rw [hl]) hw
      | none =>
        cases hsp : h.isSparse with
        | true =>
          simp only [bind, Except.bind, hsp, if_true] at hw
          have : Spec.carried h = h.flatVals false := by
            cases h with
            | hist | array => cases hsp
            | sparseHist | scipy => rfl
          rw [Option.getD_none, this]
          exact finites_list (fun l hl => by rw [hl]) (fun hl => by rw [hl]) hw
        | false =>
          simp only [bind, Except.bind, hsp, Bool.false_eq_true, if_false] at hw
          cases hvs : h.flatVars false with
          | error e => rw [hvs] at hw; cases hw
          | ok vs =>
            rw [hvs] at hw
            rw [Option.getD_none, ← carried_eq hvs]
            exact finites_list (fun l hl => by dsimp only; rw [hl]) (fun hl => by dsimp only; rw [hl]) hw
    have hx := hval i (.fin w[i]) (by rw [hfin, List.getElem?_map, List.getElem?_eq_getElem hil]; rfl)
    have hx' : w[i] = V c proc i := FVal.fin.inj hx
    rw [hs2, ← hx']
    unfold Writer.Spec.elem
    by_cases h1 : w.length = 1
    · have : i = 0 := by omega
      subst this
      rw [if_pos h1, List.getD_eq_getElem?_getD, List.getElem?_eq_getElem hil]; rfl
    · rw [if_neg h1, List.getD_eq_getElem?_getD, List.getElem?_eq_getElem hil]; rfl
  · rw [hV.absent c hc proc fun h s v hm => hp ⟨h, s, v, hm⟩]
    cases hT : Writer.Spec.template (run cfg ops) c proc with
    | none => rw [hT] at hs; exact hs.2
    | some x =>
      exfalso
      rcases norm_origin ops {} (at2_of_template hT) with ⟨n, h⟩ | ⟨h, s, v, hm⟩
      · cases h
      · exact hp ⟨h, s, v, hm⟩

/-- sums over the processes of the file are sums over the processes of the analysis -/
theorem sum_procs (f : Fin t.procs.length → ℝ) (G : String → ℝ) (hf : ∀ (p : Fin t.procs.length) proc, t.procs[(p : Nat)]? = some proc → f p = G proc) :
    ∑ p, f p = (A.procs.map G).sum := by
  obtain ⟨bkgs, h1, _, p1, p2⟩ := procs_split F hok D
  have hperm : t.procs.Perm A.procs := by
    rw [h1]; exact p1.append p2
  rw [← (hperm.map _).sum_eq, ← sum_names, ← Fin.sum_univ_eq_sum_range (fun j => G (t.procs.getD j ""))]
  refine sum_congr rfl fun p _ => hf p _ ?_
  rw [List.getD_eq_getElem?_getD, List.getElem?_eq_getElem p.2]; rfl

/-- a bin of the file and the bin on paper -/
theorem bin_paper {V : String → String → Nat → ℝ} {kind : Kind} {μ θ : String → ℝ} {c : String} {i : Nat}
    (b : LiteBin (Fin t.procs.length))
    (hb : ∀ (p : Fin t.procs.length) proc, t.procs[(p : Nat)]? = some proc →
      b.sumw p = A.nominal c proc i ∧ b.sumw2 p = V c proc i ∧ b.norm p = A.yieldOf μ θ c proc i) :
    (hasParam b kind ↔ A.uncertain V kind c i) ∧ BBB.Spec.neff b.sumw b.sumw2 = A.equivalent V c i ∧ b.nexp = A.expected μ θ c i ∧
    (∀ _ : ∀ v : ℝ, Decidable (v = 0), b.nActive = (A.procs.map fun p => if V c p i = 0 then 0 else A.yieldOf μ θ c p i).sum) ∧
    (∀ _ : ∀ v : ℝ, Decidable (v = 0), b.nZero = (A.procs.map fun p => if V c p i = 0 then A.yieldOf μ θ c p i else 0).sum) ∧
    (A.uncertain V kind c i → ∀ β, BBB.Spec.liteMean kind b.norm b.sumw2 β = A.moved V kind μ θ β c i) := by
  have e1 : ∑ p, b.sumw2 p = A.variance V c i := sum_procs F hok D _ (fun p => V c p i) fun p proc h => (hb p proc h).2.1
  have e2 : (∑ p, if b.sumw2 p = 0 then 0 else b.sumw p) = A.simulated V c i := by
    refine sum_procs F hok D _ (fun p => if V c p i = 0 then 0 else A.nominal c p i) fun p proc h => ?_
    rw [(hb p proc h).1, (hb p proc h).2.1]
  have e3 : b.nexp = A.expected μ θ c i := by
    unfold LiteBin.nexp Spec.Analysis.expected
    rw [sum_procs F hok D b.norm (fun p => A.yieldOf μ θ c p i) fun p proc h => (hb p proc h).2.2]
    unfold Spec.Analysis.procs
    obtain ⟨bkgs, h1, n3, p1, p2⟩ := procs_split F hok D
    rw [List.map_append, List.sum_append]
    congr 2
    · exact List.map_congr_left fun p hp => by unfold Spec.Analysis.yieldOf; rw [if_pos hp]
    · refine List.map_congr_left fun p hp => ?_
      unfold Spec.Analysis.yieldOf
      rw [if_neg fun hs => n3 p (p1.mem_iff.2 hs) p (p2.mem_iff.2 hp) rfl, one_mul]
  refine ⟨?_, ?_, e3, ?_, ?_, ?_⟩
  · unfold hasParam Spec.Analysis.uncertain
    rw [← e1, ← e2]
  · unfold BBB.Spec.neff Spec.Analysis.equivalent
    rw [← e1, ← e2]
  · intro inst
    refine sum_procs F hok D _ (fun p => if V c p i = 0 then 0 else A.yieldOf μ θ c p i) fun p proc h => ?_
    rw [(hb p proc h).2.2, (hb p proc h).2.1]
    split_ifs <;> rfl
  · intro inst
    refine sum_procs F hok D _ (fun p => if V c p i = 0 then A.yieldOf μ θ c p i else 0) fun p proc h => ?_
    rw [(hb p proc h).2.2, (hb p proc h).2.1]
    split_ifs <;> rfl
  · intro hu β
    have hmult : ∀ inst : ∀ v : ℝ, Decidable (v = 0), (∑ p, (if b.sumw2 p = 0 then 1 else β) * b.norm p) =
        (A.procs.map fun p => (if V c p i = 0 then 1 else β) * A.yieldOf μ θ c p i).sum := by
      intro inst
      refine sum_procs F hok D _ (fun p => (if V c p i = 0 then 1 else β) * A.yieldOf μ θ c p i) fun p proc h => ?_
      rw [(hb p proc h).2.2, (hb p proc h).2.1]
    unfold Spec.Analysis.moved
    rw [if_pos hu]
    cases kind with
    | gamma => exact hmult _
    | normMult => exact hmult _
    | normAdd =>
      show (∑ p, b.norm p) + √(∑ p, b.sumw2 p) * β = _
      rw [e1]
      exact congrArg (· + _) e3

variable (hit : ∀ l, (iter l).Perm l) (hcon : Writer.Spec.consistent ops)
include hit hcon

omit D hok in
theorem constraint_sum (D : Spec.Describes cfg.allowNeg ops A) (hok : Writer.Spec.allOk cfg {} ops) (θ : String → ℝ) :
    ∑ j ∈ range t.systs.length, t.weights.getD j 0 * (1 / 2) * θ (t.systs.getD j "") ^ 2 =
      (A.nuisances.map fun m => if A.constrained m then θ m ^ 2 / 2 else 0).sum := by
  obtain ⟨hperm, hnd⟩ := systs_perm F hok D hit hcon
  rw [← (hperm.map _).sum_eq, ← sum_names]
  refine sum_congr rfl fun j hj => ?_
  have hj' := mem_range.1 hj
  have hget : t.systs[j]? = some (t.systs.getD j "") := by
    rw [List.getD_eq_getElem?_getD, List.getElem?_eq_getElem hj']; rfl
  obtain ⟨⟨b, hb1, hb2, hb3⟩, hb4⟩ := (c05_weights_partial cfg ops iter hit t F.written hcon).2.2.2 j _ hget
  have hw := hb4 b hb1 hb2 hb3
  have hcb := D.constrained b hb1 hb3
  rw [hb2] at hcb
  rw [List.getD_eq_getElem?_getD, hw, hcb, Option.getD_some]
  split_ifs <;> ring

/-- the loss of a file with template statistics, for any data -/
theorem stat_data (hst : cfg.systType = .logNormal) {V : String → String → Nat → ℝ} (hV : Spec.Variances A V ops)
    (hpos : ∀ c p i, 0 ≤ V c p i) (kind : Kind) (xdef : List ℝ) (neg : Bool)
    (obs var : Nat → ℝ) (O : String → Nat → ℝ)
    (hO : ∀ c n a e, (c, n) ∈ A.chans → (c, a, e) ∈ readerFrom 0 t.channelInfo → ∀ i < n, obs (a + i) = O c i)
    (hobs : ∀ c n, (c, n) ∈ A.chans → ∀ i < n, 0 ≤ O c i) :
    ∃ C, ∀ x : Fin (ofFile t .logNormal xdef neg).n → ℝ, A.present V kind (Spec.strength t neg (List.ofFn x)) (Spec.nuisance t (List.ofFn x)) →
      ∃ v, (withData (ofFileStat t .logNormal xdef neg kind) obs var).loss x = .ok (some v) ∧
        (∃ β : String → Nat → ℝ, (∀ c n, (c, n) ∈ A.chans → ∀ i < n,
            (A.withObs O).possible V kind (Spec.strength t neg (List.ofFn x)) (Spec.nuisance t (List.ofFn x)) (β c i) c i) ∧
          v = (A.withObs O).nllStat V kind (Spec.strength t neg (List.ofFn x)) (Spec.nuisance t (List.ofFn x)) β + C) ∧
        ∀ β : String → Nat → ℝ, (∀ c n, (c, n) ∈ A.chans → ∀ i < n,
            (A.withObs O).possible V kind (Spec.strength t neg (List.ofFn x)) (Spec.nuisance t (List.ofFn x)) (β c i) c i) →
          v ≤ (A.withObs O).nllStat V kind (Spec.strength t neg (List.ofFn x)) (Spec.nuisance t (List.ofFn x)) β + C := by
  classical
  refine ⟨(A.chans.map fun c => ∑ i ∈ range c.2, if A.uncertain V kind c.1 i then shiftOf kind (O c.1 i) (A.equivalent V c.1 i)
    else O c.1 i * lognobs (O c.1 i) - O c.1 i).sum, fun x hx => ?_⟩
  obtain ⟨r, nexp, y, h1, h2, h3⟩ := fit_yields F .logNormal hst xdef neg x
  obtain ⟨hperm, hnd⟩ := systs_perm F hok D hit hcon
  have hθ : ∀ j < t.systs.length, (ofFile t .logNormal xdef neg).theta x j = Spec.nuisance t (List.ofFn x) (t.systs.getD j "") := by
    intro j hj
    have := theta_at .logNormal xdef neg hnd x j hj
    rw [← this]
    exact dif_pos hj
  set μ := Spec.strength t neg (List.ofFn x) with hμ
  set θ := Spec.nuisance t (List.ofFn x) with hθn
  have h1' : (withData (ofFileStat t .logNormal xdef neg kind) obs var).yields (!(withData (ofFileStat t .logNormal xdef neg kind) obs var).regs.isEmpty)
      ((withData (ofFileStat t .logNormal xdef neg kind) obs var).params x) ((withData (ofFileStat t .logNormal xdef neg kind) obs var).theta x) = .ok (nexp, y) := h1
  -- the bins
  set B : Nat → LiteBin (Fin t.procs.length) := fun b => (withData (ofFileStat t .logNormal xdef neg kind) obs var).liteBin (statOf t kind) y b with hB
  have hbeta0 : ∀ b, (B b).beta0 = center kind := fun b => by cases kind <;> rfl
  have hminK : ∀ b, (B b).minK = 0 := fun b => rfl
  have hin : ∀ b < t.nbins, (withData (ofFileStat t .logNormal xdef neg kind) obs var).betaLite (statOf t kind) y b = (B b).profile .poisson kind := by
    intro b hb
    unfold Fitter.betaLite
    rw [dif_pos (show b < (withData (ofFileStat t .logNormal xdef neg kind) obs var).shape.nbins from hb)]
    cases kind <;> rfl
  have hout : ∀ b, ¬ b < t.nbins → (withData (ofFileStat t .logNormal xdef neg kind) obs var).betaLite (statOf t kind) y b = (statOf t kind).beta0 b 0 := by
    intro b hb
    unfold Fitter.betaLite
    rw [dif_neg (show ¬ b < (withData (ofFileStat t .logNormal xdef neg kind) obs var).shape.nbins from hb)]
  have hle : t.nbins ≤ t.nbinsfull := by
    obtain ⟨lay, cells, W⟩ := write_ok F.written
    obtain ⟨h1, h2⟩ := layInv_sizes (layInv_run cfg ops F.fresh) W.layout W.nbins
    rw [W.nbinsfull, h1, h2]
    unfold unmaskedSum
    refine List.sum_le_sum fun sl _ => ?_
    split_ifs <;> simp
  set lb : Nat → ℝ := fun b => lbeta kind (B b).masked (B b).k (B b).beta0 ((B b).profile .poisson kind) with hlb
  set f : Nat → ℝ := fun b => poissonBin (obs b) ((B b).applied kind ((B b).profile .poisson kind)) + lb b with hf
  have hbeta : ∑ b ∈ range t.nbinsfull, lbeta kind (B b).masked (B b).k ((statOf t kind).beta0 b 0)
      ((withData (ofFileStat t .logNormal xdef neg kind) obs var).betaLite (statOf t kind) y b) = ∑ b ∈ range t.nbins, lb b := by
    rw [← sum_subset (range_subset_range.2 hle) (f := fun b => lbeta kind (B b).masked (B b).k ((statOf t kind).beta0 b 0)
      ((withData (ofFileStat t .logNormal xdef neg kind) obs var).betaLite (statOf t kind) y b))]
    · refine sum_congr rfl fun b hb => ?_
      rw [hin b (mem_range.1 hb)]
      rfl
    · intro b _ hb
      rw [hout b fun h => hb (mem_range.2 h)]
      cases kind <;> simp [lbeta, statOf]
  have hloss : (withData (ofFileStat t .logNormal xdef neg kind) obs var).loss x = .ok (some (∑ b ∈ range t.nbins, f b +
      (A.nuisances.map fun m => if A.constrained m then θ m ^ 2 / 2 else 0).sum)) := by
    refine (loss_of (G := withData (ofFileStat t .logNormal xdef neg kind) obs var) (ps := [])
      (lb := some (∑ b ∈ range t.nbinsfull, lbeta kind (B b).masked (B b).k ((statOf t kind).beta0 b 0)
        ((withData (ofFileStat t .logNormal xdef neg kind) obs var).betaLite (statOf t kind) y b)))
      (nexp' := fun b => (B b).applied kind ((withData (ofFileStat t .logNormal xdef neg kind) obs var).betaLite (statOf t kind) y b)) h1' rfl rfl).trans (congrArg (fun v => Except.ok (some v)) ?_)
    have e1 : (Regularization.penaltyTerm (withData (ofFileStat t .logNormal xdef neg kind) obs var).tau2 []).getD 0 = 0 := penaltyTerm_zero _ 0
    have e2 : (Ext.computeExternal (withData (ofFileStat t .logNormal xdef neg kind) obs var).ext (List.ofFn x)).getD 0 = 0 := rfl
    have e3 : (withData (ofFileStat t .logNormal xdef neg kind) obs var).ln (fun b => (B b).applied kind ((withData (ofFileStat t .logNormal xdef neg kind) obs var).betaLite (statOf t kind) y b)) =
        ∑ b ∈ range t.nbins, poissonBin (obs b) ((B b).applied kind ((B b).profile .poisson kind)) := by
      refine (Fin.sum_univ_eq_sum_range (fun b => poissonBin (obs b) ((B b).applied kind
        ((withData (ofFileStat t .logNormal xdef neg kind) obs var).betaLite (statOf t kind) y b))) t.nbins).trans ?_
      exact sum_congr rfl fun b hb => by rw [hin b (mem_range.1 hb)]
    have e4 := fit_constraints F hit hcon .logNormal xdef neg x
    rw [constraint_sum F hit hcon D hok θ] at e4
    have e4' : lc false (withData (ofFileStat t .logNormal xdef neg kind) obs var).cw (withData (ofFileStat t .logNormal xdef neg kind) obs var).x0
      (getX (withData (ofFileStat t .logNormal xdef neg kind) obs var).cfg (withData (ofFileStat t .logNormal xdef neg kind) obs var).mask (withData (ofFileStat t .logNormal xdef neg kind) obs var).off x x) = _ := e4
    have tot : ∀ {l c b p e l' c' b' : ℝ}, l = l' → c = c' → b = b' → p = 0 → e = 0 → l + c + b + p + e = l' + b' + c' := by
      intro l c b p e l' c' b' h1 h2 h3 h4 h5
      rw [h1, h2, h3, h4, h5]; ring
    rw [hf, sum_add_distrib]
    exact tot e3 e4' hbeta e1 e2
  -- the bins on paper
  set start : String → Nat := fun c => ((Dict.get? (readerFrom 0 t.channelInfo) c).map Prod.fst).getD 0 with hstart
  have hstart' : ∀ c a e, (c, a, e) ∈ readerFrom 0 t.channelInfo → start c = a := by
    intro c a e h
    have hnd' : (Dict.keys (readerFrom 0 t.channelInfo)).Nodup := by
      have := (c02_layout_partial cfg ops F.fresh iter t F.written F.csr).1
      rw [show Dict.keys (readerFrom 0 t.channelInfo) = _ from this]
      exact (layInv_run cfg ops F.fresh).nodup
    show ((Dict.get? (readerFrom 0 t.channelInfo) c).map Prod.fst).getD 0 = a
    rw [Dict.get?_of_mem _ _ _ hnd' h]
    rfl
  set best : String → Nat → ℝ := fun c i => (B (start c + i)).profile .poisson kind with hbest
  set term : ℝ → String → Nat → ℝ := fun b c i => A.moved V kind μ θ b c i - O c i * Real.log (A.moved V kind μ θ b c i) + A.pull V kind b c i with hterm
  have hbin : ∀ c n a e, (c, n) ∈ A.chans → (c, a, e) ∈ readerFrom 0 t.channelInfo → ∀ i < n,
      f (a + i) = term (best c i) c i + (if A.uncertain V kind c i then shiftOf kind (O c i) (A.equivalent V c i)
        else O c i * lognobs (O c i) - O c i) ∧ (A.withObs O).possible V kind μ θ (best c i) c i ∧
      ∀ b, (A.withObs O).possible V kind μ θ b c i → term (best c i) c i ≤ term b c i := by
    intro c n a e hc hR i hi
    have hcf : c ∈ A.chans.map Prod.fst := List.mem_map.2 ⟨_, hc, rfl⟩
    have he := size_eq F hok D hc hR
    have hb : best c i = (B (a + i)).profile .poisson kind := by
      show (B (start c + i)).profile .poisson kind = _
      rw [hstart' c a e hR]
    have hcells : ∀ (p : Fin t.procs.length) proc, t.procs[(p : Nat)]? = some proc →
        (B (a + i)).sumw p = A.nominal c proc i ∧ (B (a + i)).sumw2 p = V c proc i ∧ (B (a + i)).norm p = A.yieldOf μ θ c proc i := by
      intro p proc hp
      have hcell : Writer.Spec.cellAt t c proc i (a + i) p := ⟨a, e, hR, by omega, rfl, hp⟩
      refine ⟨nominal_eq F hok D hcf hcell, variance_eq F hok D hV hcf hcell, ?_⟩
      have := cell_eq F hok D hit hcon hst hc hR hi hp hθ h2
      rw [h3 _ _ _ hp] at this
      refine this.trans ?_
      obtain ⟨_, _, _, p1, _⟩ := procs_split F hok D
      unfold Spec.Analysis.yieldOf
      congr 1
      exact if_congr p1.mem_iff rfl rfl
    obtain ⟨q1, q2, q3, q4, q5, q6⟩ := bin_paper F hok D (V := V) (kind := kind) (B (a + i)) hcells
    have hn : (B (a + i)).nobs = O c i := by
      exact hO c n a e hc hR i hi
    have hs2 : ∀ p, 0 ≤ (B (a + i)).sumw2 p := by
      intro p
      have hp : t.procs[(p : Nat)]? = some t.procs[p] := List.getElem?_eq_getElem p.2
      rw [(hcells p _ hp).2.1]
      exact hpos _ _ _
    have hfv : f (a + i) = poissonBin (O c i) ((B (a + i)).applied kind (best c i)) +
        lbeta kind (B (a + i)).masked (B (a + i)).k (B (a + i)).beta0 (best c i) := by
      rw [hb, ← hn]
      rfl
    by_cases hu : A.uncertain V kind c i
    · obtain ⟨r1, r2⟩ := hx c n hc i hi hu
      obtain ⟨g1, g2, g3, g4⟩ := bin_with (B (a + i)) (hbeta0 _) (hminK _) hs2 (by rw [hn]; exact hobs c n hc i hi) (q1.2 hu) (by rw [q4]; exact r1)
        fun hk => by rw [q5]; exact r2 hk
      rw [← hb] at g1 g2 g3 g4
      rw [hn, q2] at g2 g4
      rw [hn] at g3
      rw [q6 hu] at g1 g2 g3
      have ht : ∀ b, term b c i = binNll kind (O c i) (A.equivalent V c i) (A.moved V kind μ θ b c i) b := by
        intro b
        show _ + A.pull V kind b c i = _
        unfold Spec.Analysis.pull binNll
        rw [if_pos hu]
      refine ⟨?_, fun _ => g3, fun b hbp => ?_⟩
      · rw [if_pos hu, ht, hfv, g1]
        exact g2
      · rw [ht, ht]
        have := g4 b (by rw [q6 hu]; exact (hbp hu).1) (hbp hu).2
        rw [q6 hu, q6 hu] at this
        exact this
    · obtain ⟨g1, g2⟩ := bin_without (B (a + i)) (hminK _) fun h => hu (q1.1 h)
      have ht : ∀ b, term b c i = A.expected μ θ c i - O c i * Real.log (A.expected μ θ c i) := by
        intro b
        show A.moved V kind μ θ b c i - O c i * Real.log (A.moved V kind μ θ b c i) + A.pull V kind b c i = _
        unfold Spec.Analysis.pull Spec.Analysis.moved
        rw [if_neg hu, if_neg hu, add_zero]
      refine ⟨?_, fun h => absurd h hu, fun b _ => by rw [ht, ht]⟩
      rw [← hb] at g1 g2
      rw [hfv, g1, g2, q3, if_neg hu, ht, poissonBin_eq]
      ring
  have hex : ∀ c n, (c, n) ∈ A.chans → ∃ a e, (c, a, e) ∈ readerFrom 0 t.channelInfo := by
    intro c n hc
    obtain ⟨ch, k1, _⟩ := (fitted_iff F hok D).1 (List.mem_map.2 ⟨_, hc, rfl⟩)
    have hk : c ∈ (readerFrom 0 t.channelInfo).map (·.1) := by
      rw [(c02_layout_partial cfg ops F.fresh iter t F.written F.csr).1]
      exact List.mem_map.2 ⟨_, Dict.mem_of_get? _ _ _ k1, rfl⟩
    obtain ⟨⟨c', a, e⟩, k3, k4⟩ := List.mem_map.1 hk
    have k4' : c' = c := k4
    subst k4'
    exact ⟨a, e, k3⟩
  have hsum := sum_bins F hok D f (fun c i => term (best c i) c i + (if A.uncertain V kind c i then shiftOf kind (O c i) (A.equivalent V c i)
        else O c i * lognobs (O c i) - O c i)) fun c n a e hc hR i hi => (hbin c n a e hc hR i hi).1
  simp only [sum_add_distrib, List.sum_map_add] at hsum
  have hval : ∑ b ∈ range t.nbins, f b + (A.nuisances.map fun m => if A.constrained m then θ m ^ 2 / 2 else 0).sum = (A.withObs O).nllStat V kind μ θ best +
      (A.chans.map fun c => ∑ i ∈ range c.2, if A.uncertain V kind c.1 i then shiftOf kind (O c.1 i) (A.equivalent V c.1 i)
        else O c.1 i * lognobs (O c.1 i) - O c.1 i).sum := by
    rw [hsum]
    unfold Spec.Analysis.nllStat
    rw [add_right_comm]
    rfl
  refine ⟨_, hloss, ⟨best, fun c n hc i hi => ?_, hval⟩, fun β hβ => ?_⟩
  · obtain ⟨a, e, hR⟩ := hex c n hc
    exact (hbin c n a e hc hR i hi).2.1
  · rw [hval]
    refine add_le_add_left (add_le_add_left (List.sum_le_sum fun c hc => sum_le_sum fun i hi => ?_) _) _
    obtain ⟨a, e, hR⟩ := hex c.1 c.2 hc
    exact (hbin c.1 c.2 a e hc hR i (mem_range.1 hi)).2.2 _ (hβ c.1 c.2 hc i (mem_range.1 hi))

theorem stat_aux (hst : cfg.systType = .logNormal) {V : String → String → Nat → ℝ} (hV : Spec.Variances A V ops)
    (hpos : ∀ c p i, 0 ≤ V c p i) (hobs : ∀ c n, (c, n) ∈ A.chans → ∀ i < n, 0 ≤ A.obs c i) (kind : Kind) (xdef : List ℝ) (neg : Bool) :
    ∃ C, ∀ x : Fin (ofFile t .logNormal xdef neg).n → ℝ, A.present V kind (Spec.strength t neg (List.ofFn x)) (Spec.nuisance t (List.ofFn x)) →
      ∃ v, (ofFileStat t .logNormal xdef neg kind).loss x = .ok (some v) ∧
        (∃ β : String → Nat → ℝ, (∀ c n, (c, n) ∈ A.chans → ∀ i < n,
            A.possible V kind (Spec.strength t neg (List.ofFn x)) (Spec.nuisance t (List.ofFn x)) (β c i) c i) ∧
          v = A.nllStat V kind (Spec.strength t neg (List.ofFn x)) (Spec.nuisance t (List.ofFn x)) β + C) ∧
        ∀ β : String → Nat → ℝ, (∀ c n, (c, n) ∈ A.chans → ∀ i < n,
            A.possible V kind (Spec.strength t neg (List.ofFn x)) (Spec.nuisance t (List.ofFn x)) (β c i) c i) →
          v ≤ A.nllStat V kind (Spec.strength t neg (List.ofFn x)) (Spec.nuisance t (List.ofFn x)) β + C := by
  refine stat_data F hok D hit hcon hst hV hpos kind xdef neg (fun b => real (t.dataObs b)) _ A.obs (fun c n a e hc hR i hi => ?_) hobs
  rw [obs_eq F hok D hc hR hi]
  rfl

end

/-- C104: A history of accepted calls that describes an analysis on paper with template variances, written with the log-normal
type and read back with bin-by-bin statistics of any of the three types (one parameter per bin): at every point at which the
processes with a variance are present in the bins that have a parameter, the loss that is minimised is, up to one constant,
the smallest value of the negative log-likelihood of that analysis over the parameters of the bins. -/
theorem c104_profiled (cfg : Writer.Cfg ℝ) (ops : List (Op ℝ)) (iter : List String → List String) (t : Tensor ℝ) (A : Spec.Analysis)
    (F : Writer.Spec.file cfg ops iter t) (hok : Writer.Spec.allOk cfg {} ops) (hst : cfg.systType = .logNormal)
    (hit : ∀ l, (iter l).Perm l) (hcon : Writer.Spec.consistent ops) (D : Spec.Describes cfg.allowNeg ops A)
    (V : String → String → Nat → ℝ) (hV : Spec.Variances A V ops) (hpos : ∀ c p i, 0 ≤ V c p i)
    (hobs : ∀ c n, (c, n) ∈ A.chans → ∀ i < n, 0 ≤ A.obs c i) (kind : Kind) (xdef : List ℝ) (neg : Bool) :
    ∃ C, ∀ x, A.present V kind (Spec.strength t neg (List.ofFn x)) (Spec.nuisance t (List.ofFn x)) →
      ∃ v, (ofFileStat t .logNormal xdef neg kind).loss x = .ok (some v) ∧
        (∃ β : String → Nat → ℝ, (∀ c n, (c, n) ∈ A.chans → ∀ i < n,
            A.possible V kind (Spec.strength t neg (List.ofFn x)) (Spec.nuisance t (List.ofFn x)) (β c i) c i) ∧
          v = A.nllStat V kind (Spec.strength t neg (List.ofFn x)) (Spec.nuisance t (List.ofFn x)) β + C) ∧
        ∀ β : String → Nat → ℝ, (∀ c n, (c, n) ∈ A.chans → ∀ i < n,
            A.possible V kind (Spec.strength t neg (List.ofFn x)) (Spec.nuisance t (List.ofFn x)) (β c i) c i) →
          v ≤ A.nllStat V kind (Spec.strength t neg (List.ofFn x)) (Spec.nuisance t (List.ofFn x)) β + C :=
  stat_aux F hok D hit hcon hst hV hpos hobs kind xdef neg

namespace Ex

/-- the templates of `opsL` are unweighted: variances are contents -/
def varL (_ p : String) (i : Nat) : ℝ := if p = "p" ∨ p = "q" then [1, 2].getD i 0 else 0

theorem variancesL : Spec.Variances paper varL opsL where
  given := by
    intro c _ h p s v hm i x hx
    simp only [opsL, List.mem_cons, List.not_mem_nil, or_false, reduceCtorEq, false_or, Op.process.injEq] at hm
    have hp : p = "p" ∨ p = "q" := by rcases hm with ⟨_, rfl, _⟩ | ⟨_, rfl, _⟩ | ⟨_, rfl, _⟩ <;> simp
    have hh : h = Writer.Ex.hr [1, 2] := by rcases hm with ⟨rfl, _⟩ | ⟨rfl, _⟩ | ⟨rfl, _⟩ <;> rfl
    have hv : v = none := by rcases hm with ⟨_, _, _, _, rfl⟩ | ⟨_, _, _, _, rfl⟩ | ⟨_, _, _, _, rfl⟩ <;> rfl
    subst hh hv
    have : x = .fin ([1, 2].getD i 0) := vals_hr (flow := false) hx
    rw [this, varL, if_pos hp]
  absent := by
    intro c hc p hp i
    exact describesL.absent c hc p hp i

theorem presentL (kind : Kind) (μ θ : String → ℝ) (hμ : 0 ≤ μ "p") : paper.present varL kind μ θ := by
  intro c n hc i hi _
  simp only [paper, List.mem_singleton, Prod.mk.injEq] at hc
  obtain ⟨rfl, rfl⟩ := hc
  have hpos : (0 : ℝ) < [1, 2].getD i 0 := by
    match i, hi with
    | 0, _ => norm_num
    | 1, _ => norm_num
  have hv : ∀ p, p = "p" ∨ p = "q" → varL "a" p i ≠ 0 ∧ 0 < paper.varied θ "a" p i := by
    intro p hp
    refine ⟨by rw [varL, if_pos hp]; exact hpos.ne', mul_pos ?_ (Real.exp_pos _)⟩
    show 0 < if p = "p" ∨ p = "q" then [1, 2].getD i 0 else 0
    rw [if_pos hp]
    exact hpos
  obtain ⟨p1, p2⟩ := hv "p" (.inl rfl)
  obtain ⟨q1, q2⟩ := hv "q" (.inr rfl)
  have e : paper.procs = ["p", "q"] := rfl
  have s1 : "p" ∈ paper.signals := List.mem_singleton.2 rfl
  have s2 : "q" ∉ paper.signals := by simp [paper]
  rw [e]
  simp only [List.map_cons, List.map_nil, List.sum_cons, List.sum_nil, if_neg p1, if_neg q1, Spec.Analysis.yieldOf, if_pos s1, if_neg s2]
  exact ⟨by positivity, fun _ => by simp⟩

end Ex

/-- The hypotheses of `c104_profiled` are met, at every point of the fit: with the default options the loss of the file is the profile
likelihood on paper, with four equivalent events in the second bin. -/
example : ∃ t C, t.procs = ["p", "q"] ∧ (∀ x, ∃ v, (ofFileStat t .logNormal [1] false .gamma).loss x = .ok (some v) ∧
      ∃ β, v = Ex.paper.nllStat Ex.varL .gamma (Spec.strength t false (List.ofFn x)) (Spec.nuisance t (List.ofFn x)) β + C) ∧
    Ex.paper.uncertain Ex.varL .gamma "a" 1 ∧ Ex.paper.equivalent Ex.varL "a" 1 = 4 := by
  obtain ⟨h1, h2, h3⟩ := Ex.goodL
  obtain ⟨t, ht, hv⟩ := Writer.Ex.okB_iff h2
  obtain ⟨g1, g2⟩ := Writer.Ex.goodB_iff _ _ _ h1
  simp only [Ex.viewL, Bool.and_eq_true, beq_iff_eq] at hv
  obtain ⟨C, hC⟩ := c104_profiled Ex.cfgL Ex.opsL id t Ex.paper ⟨rfl, rfl, g1, g2, ht⟩ (Writer.Ex.allOkB_iff _ _ _ h3) rfl
    (fun l => .refl l) Ex.consistentL Ex.describesL Ex.varL Ex.variancesL (by
      intro c p i
      unfold Ex.varL
      split_ifs
      · match i with
        | 0 => norm_num
        | 1 => norm_num
        | i + 2 => simp
      · exact le_rfl) (by
      intro c n hc i hi
      match i with
      | 0 => norm_num [Ex.paper]
      | 1 => norm_num [Ex.paper]
      | i + 2 => simp [Ex.paper]) .gamma [1] false
  refine ⟨t, C, hv.1, fun x => ?_, ?_, ?_⟩
  · obtain ⟨v, k1, ⟨β, _, k2⟩, _⟩ := hC x (Ex.presentL _ _ _ (sq_nonneg _))
    exact ⟨v, k1, β, k2⟩
  · simp [Spec.Analysis.uncertain, Spec.Analysis.variance, Spec.Analysis.simulated, Spec.Analysis.procs, Ex.paper, Ex.varL]
  · simp [Spec.Analysis.equivalent, Spec.Analysis.variance, Spec.Analysis.simulated, Spec.Analysis.procs, Ex.paper, Ex.varL]
    norm_num

end

end Verif.FileFit
