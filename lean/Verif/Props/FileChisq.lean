import Verif.Lemmas.ChannelOrder
import Verif.Props.FileFit

/-!
C111 What chi-square and covariance fits of a written file minimise.
-/

namespace Verif.FileFit

open Verif.Writer Verif.LinearFit Verif.FitParams Finset

noncomputable section

/-! ### specification -/

namespace Spec

/-- unit Gaussian constraints of the constrained nuisances -/
def Analysis.constraints (A : Analysis) (θ : String → ℝ) : ℝ :=
  (A.nuisances.map fun m => if A.constrained m then θ m ^ 2 / 2 else 0).sum

/-- half the chi-square of an analysis on paper whose data have the variances `E`, with the constraints of the nuisances -/
def Analysis.chisq (A : Analysis) (E : String → Nat → ℝ) (μ θ : String → ℝ) : ℝ :=
  (A.chans.map fun c => ∑ i ∈ range c.2, (A.expected μ θ c.1 i - A.obs c.1 i) ^ 2 / E c.1 i / 2).sum + A.constraints θ

/-- place of a fitted channel in a matrix given by the caller: the bins of the fitted channels registered before it -/
def place : List (Op ℝ) → String → Nat
  | .channel axes (some n) false _ :: r, c => if n = c then 0 else (axes.map Axis.size).prod + place r c
  | _ :: r, c => place r c
  | [], _ => 0

/-- the covariance given by a call -/
def covariance : Op ℝ → Option (Cov ℝ)
  | .dataCov C => some C
  | _ => none

/-- `z` solves `C z = obs - expected`; rows, columns and entries are those of the bins of the fitted channels, one channel after the
other in the order of their calls -/
def Analysis.Solves (A : Analysis) (ops : List (Op ℝ)) (C : Cov ℝ) (μ θ : String → ℝ) (z : Nat → ℝ) : Prop :=
  ∀ c n, (c, n) ∈ A.chans → ∀ i < n,
    (A.chans.map fun c' => ∑ j ∈ range c'.2, C.val (place ops c + i) (place ops c'.1 + j) * z (place ops c'.1 + j)).sum =
      A.obs c i - A.expected μ θ c i

/-- half the quadratic form of the residuals with `z`, and the constraints of the nuisances -/
def Analysis.quadratic (A : Analysis) (ops : List (Op ℝ)) (z : Nat → ℝ) (μ θ : String → ℝ) : ℝ :=
  (A.chans.map fun c => ∑ i ∈ range c.2, (A.obs c.1 i - A.expected μ θ c.1 i) * z (place ops c.1 + i) / 2).sum + A.constraints θ

end Spec

/-! ### the order of the channels -/

theorem place_reader {c : String} {a e : Nat} : ∀ (ops : List (Op ℝ)) (k : Nat), (∀ x ∈ ops.filterMap fittedCall, x.2.flow = false) →
    ((ops.filterMap fittedCall).map Prod.fst).Nodup → (c, a, e) ∈ readerFrom k (ops.filterMap fittedCall) → a = k + Spec.place ops c := by
  intro ops
  induction ops with
  | nil => intro k _ _ h; cases h
  | cons op ops ih =>
    intro k hf hn h
    have other : ∀ o : Op ℝ, fittedCall o = none → Spec.place (o :: ops) c = Spec.place ops c := by
      intro o ho
      cases o with
      | channel axes nm m f =>
        cases nm with
        | none => rfl
        | some nm => cases m with
          | true => rfl
          | false => cases ho
      | _ => rfl
    cases ho : fittedCall op with
    | none =>
      rw [List.filterMap_cons_none ho] at hf hn h
      rw [other op ho]
      exact ih k hf hn h
    | some x =>
      rw [List.filterMap_cons_some ho] at hf hn h
      obtain ⟨axes, nm, f, rfl, rfl⟩ : ∃ axes nm f, op = .channel axes (some nm) false f ∧ x = (nm, ⟨axes, false, f⟩) := by
        cases op with
        | channel axes nm m f =>
          cases nm with
          | none => cases ho
          | some nm => cases m with
            | true => cases ho
            | false => cases ho; exact ⟨_, _, _, rfl, rfl⟩
        | _ => cases ho
      have hff : f = false := hf _ List.mem_cons_self
      subst hff
      rw [List.map_cons, List.nodup_cons] at hn
      show a = k + if nm = c then 0 else (axes.map Axis.size).prod + Spec.place ops c
      rcases List.mem_cons.1 h with h | h
      · cases h
        rw [if_pos rfl]; rfl
      · have hne : nm ≠ c := by
          rintro rfl
          obtain ⟨ch, hm, _⟩ := mem_reader h
          exact hn.1 (List.mem_map.2 ⟨_, hm, rfl⟩)
        rw [if_neg hne, ih _ (fun x hx => hf x (List.mem_cons_of_mem _ hx)) hn.2 h, ← Nat.add_assoc, prod_eq]
        rfl

section
variable {cfg : Writer.Cfg ℝ} {ops : List (Op ℝ)} {iter : List String → List String} {t : Tensor ℝ} {A : Spec.Analysis}
  (F : Writer.Spec.file cfg ops iter t) (hok : Writer.Spec.allOk cfg {} ops) (D : Spec.Describes cfg.allowNeg ops A)
include F hok D

theorem place_eq {c : String} {a e : Nat} (hc : c ∈ A.chans.map Prod.fst) (hR : (c, a, e) ∈ readerFrom 0 t.channelInfo) :
    a = Spec.place ops c := by
  rw [info_eq F hok D] at hR
  have hl := layInv_run cfg ops F.fresh
  obtain ⟨ch, h1, h2⟩ := (fitted_iff F hok D).1 hc
  have hU : (run cfg ops).channels.filter (fun kv => !kv.2.masked) = ops.filterMap fittedCall := by
    have := unmasked_run ops {} (layInv_run cfg [] trivial) F.fresh hok D.named
    exact this
  have hsplit := sorted_split hl.sorted
  rw [hsplit, readerFrom_append, List.mem_append] at hR
  rcases hR with hR | hR
  · rw [hU] at hR
    have := place_reader ops 0 (fun x hx => by
      rw [← hU] at hx
      obtain ⟨g1, g2⟩ := List.mem_filter.1 hx
      exact F.sized.noFlow _ _ (Dict.get?_of_mem _ _ _ hl.nodup g1) (by simpa using g2)) (by
      rw [← hU]
      exact hl.nodup.sublist (List.filter_sublist.map _)) hR
    omega
  · obtain ⟨ch', g1, _⟩ := mem_reader hR
    obtain ⟨g2, g3⟩ := List.mem_filter.1 g1
    have := Dict.get?_of_mem _ _ _ hl.nodup g2
    rw [h1] at this
    cases this
    have g3' : ch.masked = true := g3
    rw [h2] at g3'
    cases g3'

end

/-! ### the loss -/

section
variable {cfg : Writer.Cfg ℝ} {ops : List (Op ℝ)} {iter : List String → List String} {t : Tensor ℝ} {A : Spec.Analysis}
  (F : Writer.Spec.file cfg ops iter t) (hok : Writer.Spec.allOk cfg {} ops) (D : Spec.Describes cfg.allowNeg ops A)
  (hit : ∀ l, (iter l).Perm l) (hcon : Writer.Spec.consistent ops)
include F hok D hit hcon

/-- the loss of another kind of fit to the same file -/
theorem loss_kind (hst : cfg.systType = .logNormal) (xdef : List ℝ) (neg : Bool) (kind : BBB.Fit) (nobs var : Nat → ℝ)
    (W : Matrix (Fin t.nbins) (Fin t.nbins) ℝ) (x : Fin (ofFile t .logNormal xdef neg).n → ℝ) :
    ∃ nexp : Nat → ℝ,
      Fitter.loss { ofFile t .logNormal xdef neg with fit := kind, nobs := nobs, varnobs := var, W := W } x =
        .ok (some (Fitter.ln { ofFile t .logNormal xdef neg with fit := kind, nobs := nobs, varnobs := var, W := W } nexp +
          A.constraints (Spec.nuisance t (List.ofFn x)))) ∧
      ∀ c n a e, (c, n) ∈ A.chans → (c, a, e) ∈ readerFrom 0 t.channelInfo → ∀ i < n,
        nexp (a + i) = A.expected (Spec.strength t neg (List.ofFn x)) (Spec.nuisance t (List.ofFn x)) c i := by
  obtain ⟨r, nexp, y, h1, h2, h3⟩ := fit_yields F .logNormal hst xdef neg x
  obtain ⟨hperm, hnd⟩ := systs_perm F hok D hit hcon
  have hθ : ∀ j < t.systs.length, (ofFile t .logNormal xdef neg).theta x j = Spec.nuisance t (List.ofFn x) (t.systs.getD j "") := by
    intro j hj
    have := theta_at .logNormal xdef neg hnd x j hj
    rw [← this]
    exact dif_pos hj
  refine ⟨nexp, ?_, fun c n a e hc hR i hi => nexp_eq F hok D hit hcon hst hc hR hi h3 hθ h2⟩
  have hl := loss_of (G := { ofFile t .logNormal xdef neg with fit := kind, nobs := nobs, varnobs := var, W := W }) (x := x) (nexp' := nexp) (lb := none) (ps := []) h1 rfl rfl
  rw [hl]
  have hc := fit_constraints F hit hcon .logNormal xdef neg x
  rw [weights_eq F hok D hit hcon hperm (Spec.nuisance t (List.ofFn x))] at hc
  have e1 : (Regularization.penaltyTerm (ofFile t .logNormal xdef neg).tau2 []).getD 0 = 0 := penaltyTerm_zero _ 0
  have e2 : (Ext.computeExternal (ofFile t .logNormal xdef neg).ext (List.ofFn x)).getD 0 = 0 := rfl
  congr 2
  show Fitter.ln _ nexp + lc false (ofFile t .logNormal xdef neg).cw (ofFile t .logNormal xdef neg).x0
      (getX (ofFile t .logNormal xdef neg).cfg (ofFile t .logNormal xdef neg).mask (ofFile t .logNormal xdef neg).off x x) + 0 +
      (Regularization.penaltyTerm (ofFile t .logNormal xdef neg).tau2 []).getD 0 + (Ext.computeExternal (ofFile t .logNormal xdef neg).ext (List.ofFn x)).getD 0 = _
  rw [e1, e2, hc]
  unfold Spec.Analysis.constraints
  ring

omit hit hcon in
/-- a fitted channel is found in the file at its place -/
theorem bins_of {c : String} {n : Nat} (hc : (c, n) ∈ A.chans) :
    ∃ a e, (c, a, e) ∈ readerFrom 0 t.channelInfo ∧ a = Spec.place ops c ∧ a + n ≤ t.nbins := by
  obtain ⟨hkeys, _, hmask, _⟩ := c02_layout_partial cfg ops F.fresh iter t F.written F.csr
  have hcf : c ∈ A.chans.map Prod.fst := List.mem_map.2 ⟨_, hc, rfl⟩
  obtain ⟨ch, h1, h2⟩ := (fitted_iff F hok D).1 hcf
  have hk : c ∈ (readerFrom 0 t.channelInfo).map (·.1) := by
    rw [hkeys]
    exact List.mem_map.2 ⟨_, Dict.mem_of_get? _ _ _ h1, rfl⟩
  obtain ⟨⟨c', a, e⟩, h3, h4⟩ := List.mem_map.1 hk
  have h4' : c' = c := h4
  subst h4'
  refine ⟨a, e, h3, place_eq F hok D hcf h3, ?_⟩
  have h5 := size_eq F hok D hc h3
  have h6 := (hmask c' a e h3 ch h1).1 h2
  omega

omit hit hcon in
/-- every fitted bin belongs to a fitted channel -/
theorem bin_covered {b : Nat} (hb : b < t.nbins) :
    ∃ c n a e i, (c, n) ∈ A.chans ∧ (c, a, e) ∈ readerFrom 0 t.channelInfo ∧ i < n ∧ b = a + i := by
  classical
  by_contra hno
  have h := sum_bins F hok D (fun b => if ∃ c n a e i, (c, n) ∈ A.chans ∧ (c, a, e) ∈ readerFrom 0 t.channelInfo ∧ i < n ∧ b = a + i then (0 : ℝ) else 1)
    (fun _ _ => 0) (fun c n a e hc hR i hi => if_pos ⟨c, n, a, e, i, hc, hR, hi, rfl⟩)
  simp only [sum_const_zero, List.map_const', List.sum_replicate, smul_zero] at h
  have h0 := (sum_eq_zero_iff_of_nonneg fun b _ => by split_ifs <;> norm_num).1 h b (mem_range.2 hb)
  rw [if_neg hno] at h0
  exact one_ne_zero h0

theorem chisq_aux (hst : cfg.systType = .logNormal) (xdef : List ℝ) (neg : Bool) (hpos : ∀ c n, (c, n) ∈ A.chans → ∀ i < n, 0 < A.obs c i) :
    ∃ G, ofFileChisq t .logNormal xdef neg = .ok G ∧ ∀ x, G.loss x =
      .ok (some (A.chisq A.obs (Spec.strength t neg (List.ofFn x)) (Spec.nuisance t (List.ofFn x)))) := by
  have hset : setNobs true (fun b : Fin t.nbins => real (t.dataObs b)) none =
      .ok (fun b : Fin t.nbins => real (t.dataObs b), some fun b : Fin t.nbins => real (t.dataObs b)) := by
    unfold setNobs
    rw [if_pos rfl, if_neg]
    · rfl
    · rintro ⟨b, hb⟩
      obtain ⟨c, n, a, e, i, hc, hR, hi, h⟩ := bin_covered F hok D b.2
      have hb' : real (t.dataObs b) ≤ 0 := hb
      rw [h, obs_eq F hok D hc hR hi] at hb'
      exact absurd (hpos c n hc i hi) (not_lt.2 hb')
  unfold ofFileChisq
  rw [hset]
  refine ⟨_, rfl, fun x => ?_⟩
  obtain ⟨nexp, h1, h2⟩ := loss_kind F hok D hit hcon hst xdef neg .chisq
    (fun b => if h : b < t.nbins then (fun b : Fin t.nbins => real (t.dataObs b)) ⟨b, h⟩ else 0)
    (fun b => if h : b < t.nbins then ((some fun b : Fin t.nbins => real (t.dataObs b)).getD fun _ => 0) ⟨b, h⟩ else 0) 1 x
  refine h1.trans ?_
  congr 2
  unfold Spec.Analysis.chisq
  congr 1
  have hs := sum_bins F hok D (fun b => (nexp b - real (t.dataObs b)) ^ 2 / real (t.dataObs b) / 2)
    (fun c i => (A.expected (Spec.strength t neg (List.ofFn x)) (Spec.nuisance t (List.ofFn x)) c i - A.obs c i) ^ 2 / A.obs c i / 2)
    fun c n a e hc hR i hi => by rw [obs_eq F hok D hc hR hi, h2 c n a e hc hR i hi]; rfl
  rw [← Fin.sum_univ_eq_sum_range (fun b => (nexp b - real (t.dataObs b)) ^ 2 / real (t.dataObs b) / 2) t.nbins] at hs
  refine Eq.trans ?_ hs
  show lnChisq (fun b : Fin t.nbins => if h : (b : Nat) < t.nbins then _ else _) (fun b : Fin t.nbins => if h : (b : Nat) < t.nbins then _ else _) (fun b : Fin t.nbins => nexp b) = _
  unfold lnChisq
  rw [mul_sum]
  refine sum_congr rfl fun b _ => ?_
  dsimp only
  rw [dif_pos b.2, dif_pos b.2]
  show 1 / 2 * ((nexp b - real (t.dataObs b)) ^ 2 / real (t.dataObs b)) = _
  ring

omit hok D hit hcon in
theorem fullCov_eq (hbb : cfg.addBBB = false) (hw : ∀ it, Op.write it ∉ ops) (hit : ∀ l, (iter l).Perm l)
    (hno : ∀ b, Writer.Spec.asked ops b → b.toCov = false) : t.fullCov = (ops.filterMap Spec.covariance).getLast? := by
  obtain ⟨lay, cells, W⟩ := write_ok F.written
  obtain ⟨c, s', g1, g2, _⟩ := W.cov
  have hnil : (run cfg ops).covariance = [] := by
    obtain ⟨bs, B, hask, _⟩ := bkSpec_run cfg ops
    rw [List.eq_nil_iff_forall_not_mem]
    intro n hn
    obtain ⟨b, hb, _, h2⟩ := (B.covariance n).1 hn
    rw [hno b (hask b hb).1] at h2
    cases h2
  have hi : iter (run cfg ops).covariance = [] := by
    have := hit (run cfg ops).covariance
    rw [hnil] at this ⊢
    exact List.perm_nil.1 this
  unfold initCov at g1
  rw [hnil, hbb] at g1
  simp only [List.isEmpty_nil, Bool.not_true, Bool.or_self, Bool.and_false, Bool.false_eq_true, if_false] at g1
  rw [hi, hbb, cov_plain] at g2
  rw [← Except.ok.inj (congrArg Prod.snd g2), ← Except.ok.inj g1]
  have := dataCov_last (cfg := cfg) ops hw {}
  have hc : (Spec.covariance : Op ℝ → _) = covOf := by
    funext op
    cases op <;> rfl
  rw [hc]
  show (runOps cfg {} ops).dataCov = _
  rw [this]
  exact Option.or_none

theorem cov_aux (hst : cfg.systType = .logNormal) (xdef : List ℝ) (neg : Bool) (C : Cov ℝ) (hC : t.fullCov = some C)
    (hn : C.n = (A.chans.map Prod.snd).sum) (hu : IsUnit (Matrix.of fun b b' : Fin C.n => C.val b b')) :
    ∃ G, ofFileCov t .logNormal xdef neg = .ok G ∧ ∀ x,
      (∃ z, A.Solves ops C (Spec.strength t neg (List.ofFn x)) (Spec.nuisance t (List.ofFn x)) z) ∧
      ∀ z, A.Solves ops C (Spec.strength t neg (List.ofFn x)) (Spec.nuisance t (List.ofFn x)) z →
        G.loss x = .ok (some (A.quadratic ops z (Spec.strength t neg (List.ofFn x)) (Spec.nuisance t (List.ofFn x)))) := by
  have hN : C.n = t.nbins := by
    have h := sum_bins F hok D (fun _ => 1) (fun _ _ => 1) fun _ _ _ _ _ _ _ _ => rfl
    simp only [sum_const, card_range, nsmul_eq_mul, mul_one] at h
    rw [hn]
    have h' : ((t.nbins : Nat) : ℝ) = ((A.chans.map Prod.snd).sum : Nat) := by
      rw [h, Nat.cast_list_sum, List.map_map]
      rfl
    exact_mod_cast h'.symm
  clear hn
  obtain ⟨n, val⟩ := C
  have hN' : n = t.nbins := hN
  subst hN'
  unfold ofFileCov
  rw [hC]
  dsimp only
  rw [if_pos rfl]
  refine ⟨_, rfl, fun x => ?_⟩
  set M : Matrix (Fin t.nbins) (Fin t.nbins) ℝ := Matrix.of fun b b' : Fin t.nbins => val b b' with hM
  obtain ⟨nexp, h1, h2⟩ := loss_kind F hok D hit hcon hst xdef neg .covariance (fun b => real (t.dataObs b)) (fun b => real (t.dataVar b)) M⁻¹ x
  have hdet : IsUnit M.det := (Matrix.isUnit_iff_isUnit_det _).1 hu
  set μ := Spec.strength t neg (List.ofFn x)
  set θ := Spec.nuisance t (List.ofFn x)
  set r : Fin t.nbins → ℝ := fun b => real (t.dataObs b) - nexp b with hr
  have hres : ∀ c n a e, (c, n) ∈ A.chans → (c, a, e) ∈ readerFrom 0 t.channelInfo → ∀ i < n,
      real (t.dataObs (a + i)) - nexp (a + i) = A.obs c i - A.expected μ θ c i := fun c n a e hc hR i hi => by
    rw [obs_eq F hok D hc hR hi, h2 c n a e hc hR i hi]; rfl
  -- the product with the matrix, by channels
  have hmul : ∀ (z : Nat → ℝ) (b : Fin t.nbins), (M.mulVec fun b => z b) b =
      (A.chans.map fun c' => ∑ j ∈ range c'.2, val b (Spec.place ops c'.1 + j) * z (Spec.place ops c'.1 + j)).sum := by
    intro z b
    have hs := sum_bins F hok D (fun b' => val b b' * z b') (fun c j => val b (Spec.place ops c + j) * z (Spec.place ops c + j))
      fun c n a e hc hR i hi => by rw [place_eq F hok D (List.mem_map.2 ⟨_, hc, rfl⟩) hR]
    rw [← hs, ← Fin.sum_univ_eq_sum_range (fun b' => val b b' * z b') t.nbins]
    rfl
  constructor
  · refine ⟨fun b => if h : b < t.nbins then (M⁻¹.mulVec r) ⟨b, h⟩ else 0, fun c n hc i hi => ?_⟩
    obtain ⟨a, e, hR, ha, hle⟩ := bins_of F hok D hc
    have hb : a + i < t.nbins := by omega
    rw [← ha]
    rw [← hmul (fun b => if h : b < t.nbins then (M⁻¹.mulVec r) ⟨b, h⟩ else 0) ⟨a + i, hb⟩]
    have hz : (fun b : Fin t.nbins => (fun b : Nat => if h : b < t.nbins then (M⁻¹.mulVec r) ⟨b, h⟩ else 0) b) = M⁻¹.mulVec r := by
      funext b
      exact dif_pos b.2
    rw [hz, Matrix.mulVec_mulVec, Matrix.mul_nonsing_inv _ hdet, Matrix.one_mulVec]
    exact hres c n a e hc hR i hi
  · intro z hz
    refine h1.trans ?_
    congr 2
    unfold Spec.Analysis.quadratic
    congr 1
    have hy : (M.mulVec fun b => z b) = r := by
      funext b
      obtain ⟨c, n, a, e, i, hc, hR, hi, h⟩ := bin_covered F hok D b.2
      rw [hmul, hr]
      dsimp only
      rw [h, hres c n a e hc hR i hi, ← hz c n hc i hi, place_eq F hok D (List.mem_map.2 ⟨_, hc, rfl⟩) hR]
    have hs := sum_bins F hok D (fun b => (real (t.dataObs b) - nexp b) * z b / 2)
      (fun c i => (A.obs c i - A.expected μ θ c i) * z (Spec.place ops c + i) / 2) fun c n a e hc hR i hi => by
        rw [hres c n a e hc hR i hi, place_eq F hok D (List.mem_map.2 ⟨_, hc, rfl⟩) hR]
    rw [← Fin.sum_univ_eq_sum_range (fun b => (real (t.dataObs b) - nexp b) * z b / 2) t.nbins] at hs
    refine Eq.trans ?_ hs
    show lnCov M⁻¹ (fun b : Fin t.nbins => real (t.dataObs b)) (fun b : Fin t.nbins => nexp b) = _
    unfold lnCov
    have hsub : (fun b : Fin t.nbins => real (t.dataObs b)) - (fun b : Fin t.nbins => nexp b) = r := rfl
    rw [hsub, ← hy, Matrix.mulVec_mulVec, Matrix.nonsing_inv_mul _ hdet, Matrix.one_mulVec, hy]
    unfold dotProduct
    rw [mul_sum]
    refine sum_congr rfl fun b _ => ?_
    show 1 / 2 * ((real (t.dataObs b) - nexp b) * z b) = _
    ring

end

theorem covLoop_size {N : Nat} {cells : List (Cell ℝ)} (hN : N ≠ 1) : ∀ {names : List String} {cov r : Cov ℝ} {s s' : State ℝ},
    covLoop N cells cov names s = (s', .ok r) → (names = [] → cov.n = N) → r.n = N := by
  intro names
  induction names with
  | nil =>
    intro cov r s s' h hn
    have : cov = r := Except.ok.inj (Prod.mk.inj h).2
    rw [← this, hn rfl]
  | cons m names ih =>
    intro cov r s s' h _
    unfold covLoop at h
    obtain ⟨v, _, h⟩ := M.lift_bind_ok h
    obtain ⟨c, hc, h⟩ := M.lift_bind_ok h
    rw [M.modify_bind] at h
    refine ih h fun _ => ?_
    unfold addOuter at hc
    split_ifs at hc with h1
    cases hc
    exact h1

/-- C111 (the data as their own variances): After accepted calls that describe an analysis with data in every fitted bin, written with the
log-normal type, a chi-square fit minimises exactly half the chi-square of the data against the expectation plus the constraints of
the nuisances, with the number of events of a bin as its variance; at every point, whatever else is in masked channels. -/
theorem c111_chisq_partial (cfg : Writer.Cfg ℝ) (ops : List (Op ℝ)) (iter : List String → List String) (t : Tensor ℝ) (A : Spec.Analysis)
    (F : Writer.Spec.file cfg ops iter t) (hok : Writer.Spec.allOk cfg {} ops) (hst : cfg.systType = .logNormal)
    (hit : ∀ l, (iter l).Perm l) (hcon : Writer.Spec.consistent ops) (D : Spec.Describes cfg.allowNeg ops A) (xdef : List ℝ) (neg : Bool)
    (hpos : ∀ c n, (c, n) ∈ A.chans → ∀ i < n, 0 < A.obs c i) :
    ∃ G, ofFileChisq t .logNormal xdef neg = .ok G ∧ ∀ x, G.loss x =
      .ok (some (A.chisq A.obs (Spec.strength t neg (List.ofFn x)) (Spec.nuisance t (List.ofFn x)))) :=
  chisq_aux F hok D hit hcon hst xdef neg hpos

/-- C111: With a fitted bin without events there is no chi-square fit, whatever variances were given. -/
theorem c111_empty_violated (cfg : Writer.Cfg ℝ) (ops : List (Op ℝ)) (iter : List String → List String) (t : Tensor ℝ) (A : Spec.Analysis)
    (F : Writer.Spec.file cfg ops iter t) (hok : Writer.Spec.allOk cfg {} ops) (D : Spec.Describes cfg.allowNeg ops A) (st : SystType) (xdef : List ℝ) (neg : Bool)
    {c : String} {n i : Nat} (hc : (c, n) ∈ A.chans) (hi : i < n) (h0 : A.obs c i ≤ 0) : ofFileChisq t st xdef neg = .error .runtime := by
  obtain ⟨a, e, hR, _, hle⟩ := bins_of F hok D hc
  have hset : setNobs true (fun b : Fin t.nbins => real (t.dataObs b)) none = .error .runtime := by
    unfold setNobs
    rw [if_pos rfl, if_pos]
    refine ⟨⟨a + i, by omega⟩, ?_⟩
    show real (t.dataObs (a + i)) ≤ 0
    rw [obs_eq F hok D hc hR hi]
    exact h0
  unfold ofFileChisq
  rw [hset]

/-- C111 (nothing booked into the covariance, no earlier file): After accepted calls that describe an analysis, with a
covariance given of which rows and columns are the bins of the fitted channels in the order of their calls, a covariance fit
minimises exactly half the quadratic form of the residuals with the inverse of that covariance plus the constraints of the
nuisances.  The inverse is stated by the solution of the linear equations, which exists at every point. -/
theorem c111_covariance_partial (cfg : Writer.Cfg ℝ) (hbb : cfg.addBBB = false) (ops : List (Op ℝ)) (iter : List String → List String) (t : Tensor ℝ) (A : Spec.Analysis)
    (F : Writer.Spec.file cfg ops iter t) (hok : Writer.Spec.allOk cfg {} ops) (hst : cfg.systType = .logNormal)
    (hit : ∀ l, (iter l).Perm l) (hcon : Writer.Spec.consistent ops) (D : Spec.Describes cfg.allowNeg ops A) (xdef : List ℝ) (neg : Bool)
    (hw : ∀ it, Op.write it ∉ ops) (hno : ∀ b, Writer.Spec.asked ops b → b.toCov = false)
    (C : Cov ℝ) (hC : (ops.filterMap Spec.covariance).getLast? = some C) (hn : C.n = (A.chans.map Prod.snd).sum)
    (hu : IsUnit (Matrix.of fun b b' : Fin C.n => C.val b b')) :
    ∃ G, ofFileCov t .logNormal xdef neg = .ok G ∧ ∀ x,
      (∃ z, A.Solves ops C (Spec.strength t neg (List.ofFn x)) (Spec.nuisance t (List.ofFn x)) z) ∧
      ∀ z, A.Solves ops C (Spec.strength t neg (List.ofFn x)) (Spec.nuisance t (List.ofFn x)) z →
        G.loss x = .ok (some (A.quadratic ops z (Spec.strength t neg (List.ofFn x)) (Spec.nuisance t (List.ofFn x)))) :=
  cov_aux F hok D hit hcon hst xdef neg C ((fullCov_eq F hbb hw hit hno).trans hC) hn hu

/-- C111: Without a covariance the fit is meant to use the variances of the data and raises instead, for every file. -/
theorem c111_reciprocal_violated (cfg : Writer.Cfg ℝ) (hbb : cfg.addBBB = false) (ops : List (Op ℝ)) (iter : List String → List String) (t : Tensor ℝ)
    (F : Writer.Spec.file cfg ops iter t) (hit : ∀ l, (iter l).Perm l) (hw : ∀ it, Op.write it ∉ ops)
    (hno : ∀ b, Writer.Spec.asked ops b → b.toCov = false) (hC : ∀ C, Op.dataCov C ∉ ops) (st : SystType) (xdef : List ℝ) (neg : Bool) :
    ofFileCov t st xdef neg = .error .attr := by
  have h : (ops.filterMap Spec.covariance) = [] := by
    rw [List.filterMap_eq_nil_iff]
    intro op hop
    cases op with
    | dataCov C => exact absurd hop (hC C)
    | _ => rfl
  unfold ofFileCov
  rw [fullCov_eq F hbb hw hit hno, h]
  rfl

/-- C111: With a nuisance booked into the covariance, and a masked channel besides the fitted bins, no file that can be written can be fitted:
the covariance has the size of all bins, the data that of the fitted ones. -/
theorem c111_masked_violated (cfg : Writer.Cfg ℝ) (hbb : cfg.addBBB = false) (ops : List (Op ℝ)) (iter : List String → List String) (t : Tensor ℝ)
    (F : Writer.Spec.file cfg ops iter t) (hok : Writer.Spec.allOk cfg {} ops) (hit : ∀ l, (iter l).Perm l) {b : Booking} (hb : Writer.Spec.asked ops b) (hcov : b.toCov = true)
    (hbins : 0 < t.nbins) (hmask : t.nbins < t.nbinsfull) (st : SystType) (xdef : List ℝ) (neg : Bool) :
    ofFileCov t st xdef neg = .error .value := by
  obtain ⟨lay, cells, W⟩ := write_ok F.written
  obtain ⟨c, s', g1, g2, _⟩ := W.cov
  have hne : (run cfg ops).covariance ≠ [] := by
    obtain ⟨bs, B, _, hbk⟩ := bkSpec_run cfg ops
    obtain ⟨op, ho, hop⟩ := hb
    obtain ⟨l, r, rfl⟩ := List.append_of_mem ho
    exact List.ne_nil_of_mem ((B.covariance b.name).2 ⟨b, hbk b ⟨l, op, r, rfl, hop, allOk_mid hok⟩, rfl, hcov⟩)
  have hne' : iter (run cfg ops).covariance ≠ [] := fun h => hne (by have := hit (run cfg ops).covariance; rw [h] at this; exact List.nil_perm.1 this)
  cases c with
  | none =>
    unfold initCov at g1
    split at g1
    · cases hd : diagVar t.nbins t.dataVar with
      | error e => rw [hd] at g1; cases g1
      | ok d => rw [hd] at g1; cases g1
    · rename_i h
      rw [Except.ok.inj g1] at h
      simp [hne] at h
  | some base =>
    unfold writeCov at g2
    obtain ⟨s1, c1, hl, g2⟩ := M.bind_ok g2
    obtain ⟨full, hfull, g2⟩ := M.lift_bind_ok g2
    rw [hbb] at hfull
    simp only [Bool.false_eq_true, if_false, Except.ok.injEq] at hfull
    have hf : some full = t.fullCov := Except.ok.inj (Prod.mk.inj g2).2
    subst hfull
    have hsz := covLoop_size (by omega) hl fun h => absurd h hne'
    unfold ofFileCov
    rw [← hf]
    dsimp only
    rw [if_neg (by omega)]

/-! ### cases -/

namespace Ex

open Writer.Ex in
/-- two fitted channels around a masked one, given variances for the data of one of them, and a correlated covariance -/
def opsC (u v : ℝ) : List (Op ℝ) := [.channel [ax 2] (some "b") false false, .channel [ax 2] (some "m") true false, .channel [ax 2] (some "a") false false,
  .process (hr [1, 2]) "p" "a" true none, .process (hr [1, 2]) "p" "b" true none, .process (hr [1, 2]) "p" "m" true none,
  .data (hr [2, 3]) "a" (some (hr [1, 1])), .data (hr [u, v]) "b" none, .dataCov ⟨4, fun i j => if i = j then 2 else 1⟩]

def viewC (t : Tensor ℝ) : Bool := t.procs == ["p"] && t.signals == ["p"] && t.systs == [] && t.nbins == 4 && t.nbinsfull == 6

open Writer.Ex in
theorem goodC : goodB cfgL {} (opsC 2 3) = true ∧ okB (write cfgL id (run cfgL (opsC 2 3))).2 viewC = true ∧ allOkB cfgL {} (opsC 2 3) = true := by
  simp only [goodB, allOkB, run, runOps, opsC, step, addProcess, addData, fitsB, sizeB, optB,
    Option.getD_none, Option.getD_some, hr_vars _ 1 2 one_pos.le two_pos.le, hr_sumw2 _ 1 2 one_pos.le two_pos.le, hr_vars _ 2 3 two_pos.le three_pos.le,
    hr_vars _ 1 1 one_pos.le one_pos.le]
  refine ⟨?_, ?_, ?_⟩ <;> decide +kernel

open Writer.Ex in
theorem goodC0 : goodB cfgL {} (opsC 0 3) = true ∧ okB (write cfgL id (run cfgL (opsC 0 3))).2 viewC = true ∧ allOkB cfgL {} (opsC 0 3) = true := by
  simp only [goodB, allOkB, run, runOps, opsC, step, addProcess, addData, fitsB, sizeB, optB,
    Option.getD_none, Option.getD_some, hr_vars _ 1 2 one_pos.le two_pos.le, hr_sumw2 _ 1 2 one_pos.le two_pos.le, hr_vars _ 2 3 two_pos.le three_pos.le,
    hr_vars _ 1 1 one_pos.le one_pos.le, hr_vars _ 0 3 le_rfl three_pos.le]
  refine ⟨?_, ?_, ?_⟩ <;> decide +kernel

/-- the analysis on paper -/
def paperC (u v : ℝ) : Spec.Analysis where
  chans := [("a", 2), ("b", 2)]
  signals := ["p"]
  backgrounds := []
  nuisances := []
  constrained := fun _ => true
  obs := fun c i => if c = "a" then [2, 3].getD i 0 else [u, v].getD i 0
  nominal := fun _ p i => if p = "p" then [1, 2].getD i 0 else 0
  response := fun _ _ _ _ _ => 0

theorem describesC (u v : ℝ) : Spec.Describes true (opsC u v) (paperC u v) where
  named := by simp [opsC]
  canonical := by
    intro h p c s v hm flow
    simp only [opsC, List.mem_cons, List.not_mem_nil, or_false, reduceCtorEq, false_or, Op.process.injEq] at hm
    rcases hm with ⟨rfl, _⟩ | ⟨rfl, _⟩ | ⟨rfl, _⟩ <;> simp [Writer.Ex.hr, HIn.flatCsr]
  chansOnce := by simp [paperC]
  chans := by
    intro c n
    simp [opsC, paperC]
    constructor
    · rintro (⟨rfl, rfl⟩ | ⟨rfl, rfl⟩)
      · exact ⟨_, .inr ⟨rfl, rfl⟩, rfl⟩
      · exact ⟨_, .inl ⟨rfl, rfl⟩, rfl⟩
    · rintro ⟨_, ⟨rfl, rfl⟩ | ⟨rfl, rfl⟩, rfl⟩
      · exact .inr ⟨rfl, rfl⟩
      · exact .inl ⟨rfl, rfl⟩
  signalsOnce := by simp [paperC]
  signals := by
    intro p
    simp [opsC, paperC]
    constructor
    · rintro rfl
      exact ⟨_, "a", none, .inl ⟨rfl, rfl, rfl, rfl⟩⟩
    · rintro ⟨h, c, v, ⟨_, rfl, _⟩ | ⟨_, rfl, _⟩ | ⟨_, rfl, _⟩⟩ <;> rfl
  backgroundsOnce := by simp [paperC]
  backgrounds := by simp [opsC, paperC]
  nuisancesOnce := by simp [paperC]
  nuisances := by simp [opsC, paperC, Writer.Spec.asked, Writer.Spec.asks]
  constrained := by simp [opsC, paperC, Writer.Spec.asked, Writer.Spec.asks]
  obs := by
    intro h c v hm i x hx
    simp only [opsC, List.mem_cons, List.not_mem_nil, or_false, reduceCtorEq, false_or, Op.data.injEq] at hm
    rcases hm with ⟨rfl, rfl, _⟩ | ⟨rfl, rfl, _⟩
    · exact vals_hr hx
    · exact vals_hr hx
  nominal := by
    intro c _ h p s v hm i x hx
    simp only [opsC, List.mem_cons, List.not_mem_nil, or_false, reduceCtorEq, false_or, Op.process.injEq] at hm
    have hp : p = "p" := by rcases hm with ⟨_, rfl, _⟩ | ⟨_, rfl, _⟩ | ⟨_, rfl, _⟩ <;> rfl
    have hh : h = Writer.Ex.hr [1, 2] := by rcases hm with ⟨rfl, _⟩ | ⟨rfl, _⟩ | ⟨rfl, _⟩ <;> rfl
    subst hh
    rw [vals_hr hx]
    show (if p = "p" then [1, 2].getD i 0 else 0) = (if true then _ else _)
    rw [if_pos hp, if_pos rfl]
  absent := by
    intro c hc p hp i
    have hne : p ≠ "p" := by
      rintro rfl
      have : c = "a" ∨ c = "b" := by simpa [paperC] using hc
      rcases this with rfl | rfl
      · exact hp (Writer.Ex.hr [1, 2]) true none (by simp [opsC])
      · exact hp (Writer.Ex.hr [1, 2]) true none (by simp [opsC])
    exact if_neg hne
  once := by
    intro c p m l op r h ht
    have : op ∈ opsC u v := by rw [h]; simp
    simp only [opsC, List.mem_cons, List.not_mem_nil, or_false] at this
    rcases this with rfl | rfl | rfl | rfl | rfl | rfl | rfl | rfl | rfl <;> exact absurd ht (by simp [Writer.Spec.touches])
  silent := fun _ _ _ _ _ _ _ => rfl
  responds := by simp [paperC]

theorem consistentC (u v : ℝ) : Writer.Spec.consistent (opsC u v) := by
  intro b b' h
  simp [opsC, Writer.Spec.asked, Writer.Spec.asks] at h

end Ex

/-- C111: Variances given with the data are not those of the chi-square fit: for calls with variances of one in a channel, the
loss at some point is not the chi-square with these. -/
theorem c111_variances_violated : ∃ (cfg : Writer.Cfg ℝ) (ops : List (Op ℝ)) (t : Tensor ℝ) (A : Spec.Analysis) (E : String → Nat → ℝ) (G : Fitter),
    Writer.Spec.file cfg ops id t ∧ Writer.Spec.allOk cfg {} ops ∧ Spec.Describes cfg.allowNeg ops A ∧
    (∀ h c v, Op.data h c v ∈ ops → (v.getD h).flatVars false = .ok [.fin (E c 0), .fin (E c 1)]) ∧
    ofFileChisq t .logNormal [1] true = .ok G ∧ ∃ x, G.loss x ≠ .ok (some (A.chisq E (Spec.strength t true (List.ofFn x)) (Spec.nuisance t (List.ofFn x)))) := by
  obtain ⟨h1, h2, h3⟩ := Ex.goodC
  obtain ⟨t, ht, hv⟩ := Writer.Ex.okB_iff h2
  obtain ⟨g1, g2⟩ := Writer.Ex.goodB_iff _ _ _ h1
  have F : Writer.Spec.file Ex.cfgL (Ex.opsC 2 3) id t := ⟨rfl, rfl, g1, g2, ht⟩
  have hok := Writer.Ex.allOkB_iff _ _ _ h3
  obtain ⟨G, e1, e2⟩ := c111_chisq_partial Ex.cfgL (Ex.opsC 2 3) id t (Ex.paperC 2 3) F hok rfl (fun l => .refl l) (Ex.consistentC 2 3) (Ex.describesC 2 3) [1] true (by
    intro c n hc i hi
    have hn : n = 2 := by
      simp only [Ex.paperC, List.mem_cons, Prod.mk.injEq, List.not_mem_nil, or_false] at hc
      rcases hc with ⟨_, rfl⟩ | ⟨_, rfl⟩ <;> rfl
    subst hn
    show 0 < if c = "a" then _ else _
    rw [ite_self]
    match i, hi with
    | 0, _ => exact two_pos
    | 1, _ => exact three_pos)
  refine ⟨Ex.cfgL, Ex.opsC 2 3, t, Ex.paperC 2 3, fun c i => if c = "a" then 1 else [2, 3].getD i 0, G, F, hok, Ex.describesC 2 3, ?_, e1, fun _ => 0, ?_⟩
  · intro h c v hm
    simp only [Ex.opsC, List.mem_cons, List.not_mem_nil, or_false, reduceCtorEq, false_or, Op.data.injEq] at hm
    rcases hm with ⟨rfl, rfl, rfl⟩ | ⟨rfl, rfl, rfl⟩
    · exact Writer.Ex.hr_vars false 1 1 one_pos.le one_pos.le
    · exact Writer.Ex.hr_vars false 2 3 two_pos.le three_pos.le
  · rw [e2]
    intro h
    have h' := Option.some.inj (Except.ok.inj h)
    have hz : Spec.strength t true (List.ofFn fun _ : Fin G.n => (0 : ℝ)) "p" = 0 := by
      unfold Spec.strength
      rw [if_pos rfl, List.getD_eq_getElem?_getD, List.getElem?_ofFn]
      split_ifs <;> rfl
    generalize Spec.strength t true (List.ofFn fun _ : Fin G.n => (0 : ℝ)) = μ at h' hz
    simp [Spec.Analysis.chisq, Spec.Analysis.expected, Ex.paperC, hz, sum_range_succ] at h'
    norm_num at h'

/-- The hypotheses of `c111_chisq_partial` are met, with nuisances and a masked channel: the chi-square of the analysis of C103. -/
example : ∃ (t : Tensor ℝ) (G : Fitter), t.systs = ["r", "n", "o"] ∧ ofFileChisq t .logNormal [1] true = .ok G ∧ ∀ x, G.loss x =
      .ok (some (Ex.paper.chisq Ex.paper.obs (Spec.strength t true (List.ofFn x)) (Spec.nuisance t (List.ofFn x)))) := by
  obtain ⟨h1, h2, h3⟩ := Ex.goodL
  obtain ⟨t, ht, hv⟩ := Writer.Ex.okB_iff h2
  obtain ⟨g1, g2⟩ := Writer.Ex.goodB_iff _ _ _ h1
  simp only [Ex.viewL, Bool.and_eq_true, beq_iff_eq] at hv
  obtain ⟨G, e1, e2⟩ := c111_chisq_partial Ex.cfgL Ex.opsL id t Ex.paper ⟨rfl, rfl, g1, g2, ht⟩ (Writer.Ex.allOkB_iff _ _ _ h3) rfl
    (fun l => .refl l) Ex.consistentL Ex.describesL [1] true (by
      intro c n hc i hi
      simp only [Ex.paper, List.mem_cons, Prod.mk.injEq, List.not_mem_nil, or_false] at hc
      obtain ⟨rfl, rfl⟩ := hc
      match i, hi with
      | 0, _ => exact two_pos
      | 1, _ => exact three_pos)
  exact ⟨t, G, hv.2, e1, e2⟩

/-- The hypotheses of `c111_covariance_partial` are met, with a masked channel between the fitted ones and correlated data: at the
strength zero the loss is half the quadratic form of the data `(2, 3, 2, 3)` with the inverse of the covariance. -/
example : ∃ (t : Tensor ℝ) (G : Fitter), t.nbins = 4 ∧ t.nbinsfull = 6 ∧ ofFileCov t .logNormal [1] true = .ok G ∧ G.loss (fun _ => 0) = .ok (some 3) := by
  obtain ⟨h1, h2, h3⟩ := Ex.goodC
  obtain ⟨t, ht, hv⟩ := Writer.Ex.okB_iff h2
  obtain ⟨g1, g2⟩ := Writer.Ex.goodB_iff _ _ _ h1
  simp only [Ex.viewC, Bool.and_eq_true, beq_iff_eq] at hv
  obtain ⟨G, e1, e2⟩ := c111_covariance_partial Ex.cfgL rfl (Ex.opsC 2 3) id t (Ex.paperC 2 3) ⟨rfl, rfl, g1, g2, ht⟩ (Writer.Ex.allOkB_iff _ _ _ h3) rfl
    (fun l => .refl l) (Ex.consistentC 2 3) (Ex.describesC 2 3) [1] true (by simp [Ex.opsC])
    (by simp [Ex.opsC, Writer.Spec.asked, Writer.Spec.asks]) ⟨4, fun i j => if i = j then 2 else 1⟩ rfl rfl (by
      refine (Matrix.isUnit_iff_isUnit_det _).2 (isUnit_iff_ne_zero.2 fun h0 => ?_)
      have : (Matrix.of fun b b' : Fin 4 => if (b : Nat) = b' then (2 : ℝ) else 1) * (Matrix.of fun b b' : Fin 4 => if (b : Nat) = b' then (4 / 5 : ℝ) else -1 / 5) = 1 := by
        ext i j
        fin_cases i <;> fin_cases j <;> simp [Matrix.mul_apply, Fin.sum_univ_four] <;> norm_num
      have hd := congrArg Matrix.det this
      rw [Matrix.det_mul, Matrix.det_one] at hd
      have h0' : Matrix.det (Matrix.of fun b b' : Fin 4 => if (b : Nat) = b' then (2 : ℝ) else 1) = 0 := h0
      rw [h0', zero_mul] at hd
      exact zero_ne_one hd)
  refine ⟨t, G, hv.1.2, hv.2, e1, ?_⟩
  have hz : Spec.strength t true (List.ofFn fun _ : Fin G.n => (0 : ℝ)) "p" = 0 := by
    unfold Spec.strength
    rw [if_pos rfl, List.getD_eq_getElem?_getD, List.getElem?_ofFn]
    split_ifs <;> rfl
  rw [(e2 fun _ => 0).2 (fun b => if b % 2 = 0 then 0 else 1) ?_]
  · generalize Spec.strength t true (List.ofFn fun _ : Fin G.n => (0 : ℝ)) = μ at hz
    simp [Spec.Analysis.quadratic, Spec.Analysis.constraints, Spec.Analysis.expected, Ex.paperC, hz, sum_range_succ, Spec.place, Ex.opsC, Writer.Ex.ax]
  · intro c n hc i hi
    generalize Spec.strength t true (List.ofFn fun _ : Fin G.n => (0 : ℝ)) = μ at hz
    simp only [Ex.paperC, List.mem_cons, Prod.mk.injEq, List.not_mem_nil, or_false] at hc
    rcases hc with ⟨rfl, rfl⟩ | ⟨rfl, rfl⟩ <;> (match i, hi with
      | 0, _ => simp [Spec.Analysis.expected, Ex.paperC, hz, sum_range_succ, Spec.place, Ex.opsC, Writer.Ex.ax]; norm_num
      | 1, _ => simp [Spec.Analysis.expected, Ex.paperC, hz, sum_range_succ, Spec.place, Ex.opsC, Writer.Ex.ax]; norm_num)

/-- The hypotheses of `c111_empty_violated` are met: an empty bin in the second channel. -/
example : ∃ t : Tensor ℝ, t.nbins = 4 ∧ ofFileChisq t .logNormal [1] true = .error .runtime := by
  obtain ⟨h1, h2, h3⟩ := Ex.goodC0
  obtain ⟨t, ht, hv⟩ := Writer.Ex.okB_iff h2
  obtain ⟨g1, g2⟩ := Writer.Ex.goodB_iff _ _ _ h1
  simp only [Ex.viewC, Bool.and_eq_true, beq_iff_eq] at hv
  exact ⟨t, hv.1.2, c111_empty_violated Ex.cfgL (Ex.opsC 0 3) id t (Ex.paperC 0 3) ⟨rfl, rfl, g1, g2, ht⟩ (Writer.Ex.allOkB_iff _ _ _ h3) (Ex.describesC 0 3)
    _ _ _ (c := "b") (n := 2) (i := 0) (by simp [Ex.paperC]) two_pos le_rfl⟩

/-- The hypotheses of `c111_reciprocal_violated` are met by the analysis of C103. -/
example : ∃ t : Tensor ℝ, t.systs = ["r", "n", "o"] ∧ ofFileCov t .logNormal [1] true = .error .attr := by
  obtain ⟨h1, h2, h3⟩ := Ex.goodL
  obtain ⟨t, ht, hv⟩ := Writer.Ex.okB_iff h2
  obtain ⟨g1, g2⟩ := Writer.Ex.goodB_iff _ _ _ h1
  simp only [Ex.viewL, Bool.and_eq_true, beq_iff_eq] at hv
  exact ⟨t, hv.2, c111_reciprocal_violated Ex.cfgL rfl Ex.opsL id t ⟨rfl, rfl, g1, g2, ht⟩ (fun l => .refl l) (by simp [Ex.opsL])
    (by simp [Ex.opsL, Writer.Spec.asked, Writer.Spec.asks]) (by simp [Ex.opsL]) _ _ _⟩

namespace Ex

open Writer.Ex in
/-- a nuisance in the covariance, which is given for all bins, and a masked channel -/
def opsM : List (Op ℝ) := [.channel [ax 2] (some "m") true false, .channel [ax 2] (some "a") false false, .process (hr [1, 2]) "p" "a" true none,
  .data (hr [2, 3]) "a" none, .dataCov ⟨4, fun i j => if i = j then 2 else 1⟩, .syst (.single (hr [2, 3])) "n" "p" "a" 1 true .average true false {}]

def viewM (t : Tensor ℝ) : Bool := t.nbins == 2 && t.nbinsfull == 4

open Writer.Ex in
theorem goodM : goodB cfgL {} opsM = true ∧ okB (write cfgL id (run cfgL opsM)).2 viewM = true ∧ allOkB cfgL {} opsM = true := by
  simp only [goodB, allOkB, run, runOps, opsM, step, addProcess, addData, fitsB, sizeB, optB,
    Option.getD_none, hr_vars _ 1 2 one_pos.le two_pos.le, hr_sumw2 _ 1 2 one_pos.le two_pos.le, hr_vars _ 2 3 two_pos.le three_pos.le]
  refine ⟨?_, ?_, ?_⟩ <;> decide +kernel

end Ex

/-- The hypotheses of `c111_masked_violated` are met. -/
example : ∃ t : Tensor ℝ, (write Ex.cfgL id (run Ex.cfgL Ex.opsM)).2 = .ok t ∧ ofFileCov t .logNormal [1] true = .error .value := by
  obtain ⟨h1, h2, h3⟩ := Ex.goodM
  obtain ⟨t, ht, hv⟩ := Writer.Ex.okB_iff h2
  obtain ⟨g1, g2⟩ := Writer.Ex.goodB_iff _ _ _ h1
  simp only [Ex.viewM, Bool.and_eq_true, beq_iff_eq] at hv
  exact ⟨t, ht, c111_masked_violated Ex.cfgL rfl Ex.opsM id t ⟨rfl, rfl, g1, g2, ht⟩ (Writer.Ex.allOkB_iff _ _ _ h3) (fun l => .refl l)
    (b := ⟨"n", true, {}⟩) ⟨_, List.mem_of_getElem? (i := 5) rfl, List.mem_singleton.2 rfl⟩ rfl (by omega) (by omega) _ _ _⟩

end

end Verif.FileFit
