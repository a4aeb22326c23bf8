import Verif.Lemmas.SatTest
import Verif.Model.FitParams
import Verif.Props.Likelihood
import Mathlib.Analysis.SpecialFunctions.Log.Deriv
import Mathlib.Analysis.Complex.ExponentialBounds

/-! C72: the saturated likelihood test of a projection compares nested fits. -/

namespace Verif.SatTest

open Verif.ParamModels Verif.AxisModels Verif.ABCD Verif.Grid

namespace Spec

/-- where parameter `i` of the fit is found in the saturated fit: after the POIs of the model `k` parameters are inserted -/
def pos (npoi k i : Nat) : Nat := if i < npoi then i else i + k

/-- the point of the saturated fit that corresponds to the point `x` of the fit: all additional factors are one -/
noncomputable def embed (npoi k : Nat) (x : List ℝ) : List ℝ := x.take npoi ++ List.replicate k 1 ++ x.drop npoi

/-- the (unmasked) bin `b` is projected into bin `q` of the projection of the channel `ch` onto the named axes -/
def Projects (inp : InData ℝ) (ch : String) (names : List String) (b q : Nat) : Prop :=
  ∃ pre c post idx, AxisModels.Spec.active inp false = pre ++ (ch, c) :: post ∧
    List.Forall₂ (fun i (a : Axis ℝ) => i < a.size) idx c.axes ∧
    b = AxisModels.Spec.offset pre + ravel (sizes c.axes) idx ∧ AxisModels.Spec.cell c.axes names idx = q

/-- expected events of a bin: the rates multiply the templates `Y` (which may depend on the nuisance parameters) -/
noncomputable def expected (nproc : Nat) (Y : Nat → Nat → List ℝ → ℝ) (rate : Nat → Nat → ℝ) (theta : List ℝ) (b : Nat) : ℝ :=
  ∑ p ∈ Finset.range nproc, rate b p * Y b p theta

/-- Poisson likelihood of the bins without bin-by-bin uncertainties -/
noncomputable def poisson (nbins nproc : Nat) (nobs : Nat → ℝ) (Y : Nat → Nat → List ℝ → ℝ) :
    (Nat → Nat → ℝ) → (Nat → Nat → ℝ) → (Nat → Nat → ℝ) → List ℝ → ℝ :=
  fun _ rate _ theta => ∑ b ∈ Finset.range nbins, poissonBin (nobs b) (expected nproc Y rate theta b)

end Spec

/-- Every parameter of the fit is found in the saturated fit with its name, default value and constraint weight, and its
constraint centre is the one of the running fit, also when that was fluctuated by a toy.  The additional parameters are
one per projected bin, named after it, start at one and are not constrained. -/
theorem c72_layout {inp : InData ℝ} {info : MapInfo} {m c : PModel ℝ} {nu : Nuis} {toy : List ℝ} {f f' : FitParms}
    (wf : ParamModels.Spec.WF m) (hw : nu.weights.length = nu.systs.length) (ht0 : nu.theta0.length = nu.systs.length)
    (hf : initParms m nu = .ok f) (htoy : toy.length = m.nparams + nu.systs.length)
    (h : satFitter inp info m nu toy = .ok (c, f')) :
    f'.parms.length = f.parms.length + satNpoi info ∧ f'.cw.length = f'.parms.length ∧ f'.x0.length = f'.parms.length ∧
    f'.xdef.length = f'.parms.length ∧
    (∀ i < f.parms.length, f'.parms[Spec.pos m.npoi (satNpoi info) i]? = f.parms[i]? ∧
      f'.xdef[Spec.pos m.npoi (satNpoi info) i]? = f.xdef[i]? ∧ f'.cw[Spec.pos m.npoi (satNpoi info) i]? = f.cw[i]? ∧
      f'.x0[Spec.pos m.npoi (satNpoi info) i]? = toy[i]?) ∧
    ∀ j < satNpoi info, f'.parms[m.npoi + j]? = (satParams info)[j]? ∧ f'.xdef[m.npoi + j]? = some 1 ∧
      f'.cw[m.npoi + j]? = some 0 ∧ f'.x0[m.npoi + j]? = some 1 := by
  obtain ⟨-, e1, e2, e3, e4⟩ := satFitter_ok wf ht0 hf htoy h
  obtain ⟨a1, a2, a3, -⟩ := initParms_ok hf
  have hnp : m.npoi ≤ m.nparams := Nat.le_add_right _ _
  have l1 : f.parms.length = m.nparams + nu.systs.length := by rw [a1, List.length_append, wf.params]
  have l2 : f.xdef.length = m.nparams + nu.systs.length := by rw [a2, List.length_append, wf.xdef, ht0]
  have l3 : f.cw.length = m.nparams + nu.systs.length := by
    rw [a3, List.length_append, List.length_map, subSigmas_length wf, hw]
  have hpos : ∀ (l b : List ℝ) (i : Nat), m.npoi ≤ l.length → b.length = satNpoi info →
      (ins l m.npoi b)[Spec.pos m.npoi (satNpoi info) i]? = l[i]? := fun l b i hl hb => by
    rw [← hb]; exact ins_getElem? l m.npoi b hl i
  have hblk : ∀ (l : List ℝ) (v : ℝ) (j : Nat), m.npoi ≤ l.length → j < satNpoi info →
      (ins l m.npoi (List.replicate (satNpoi info) v))[m.npoi + j]? = some v := fun l v j hl hj => by
    rw [ins_getElem?_block _ _ _ hl _ (by simpa using hj), List.getElem?_replicate, if_pos hj]
  refine ⟨?_, ?_, ?_, ?_, fun i hi => ⟨?_, ?_, ?_, ?_⟩, fun j hj => ⟨?_, ?_, ?_, ?_⟩⟩
  · rw [e1, ins_length _ _ _ (by omega), satParams_length]
  · rw [e3, e1, ins_length _ _ _ (by omega), ins_length _ _ _ (by omega), satParams_length, List.length_replicate]; omega
  · rw [e4, e1, ins_length _ _ _ (by omega), ins_length _ _ _ (by omega), satParams_length, List.length_replicate]; omega
  · rw [e2, e1, ins_length _ _ _ (by omega), ins_length _ _ _ (by omega), satParams_length, List.length_replicate]; omega
  · rw [e1, ← satParams_length]; exact ins_getElem? _ _ _ (by omega) i
  · rw [e2]; exact hpos _ _ _ (by omega) (by simp)
  · rw [e3]; exact hpos _ _ _ (by omega) (by simp)
  · rw [e4]; exact hpos _ _ _ (by omega) (by simp)
  · rw [e1]; exact ins_getElem?_block _ _ _ (by omega) j (by rw [satParams_length]; exact hj)
  · rw [e2]; exact hblk _ _ _ (by omega) hj
  · rw [e3]; exact hblk _ _ _ (by omega) hj
  · rw [e4]; exact hblk _ _ _ (by omega) hj

/-- The fits are nested: at every point of the fit the saturated fit takes the same value at the corresponding point,
for every likelihood, with external terms, priors and toys.  So the test statistic is not negative when the saturated fit
has found its minimum. -/
theorem c72_nested {inp : InData ℝ} {info : MapInfo} {m c : PModel ℝ} {nu : Nuis} {toy : List ℝ} {f f' : FitParms}
    (wf : ParamModels.Spec.WF m) (hw : nu.weights.length = nu.systs.length) (ht0 : nu.theta0.length = nu.systs.length)
    (hf : initParms m nu = .ok f) (htoy : toy.length = m.nparams + nu.systs.length)
    (h : satFitter inp info m nu toy = .ok (c, f'))
    (h1 : m.nparams = 0 → ∀ r, m.compute m.xdef true = .ok r → ∀ b p, r.at b p = 1)
    (L : Lik) (x : List ℝ) (hx : x.length = m.nparams + nu.systs.length) (v v' : ℝ)
    (hv : loss L m { f with x0 := toy } x = .ok v)
    (hv' : loss L c f' (Spec.embed m.npoi (satNpoi info) x) = .ok v') :
    v' = v ∧ ∀ vmin, vmin ≤ v' → 0 ≤ (statistic info v vmin).1 := by
  suffices he : v' = v from ⟨he, fun vmin hm => by unfold statistic; dsimp only; linarith⟩
  obtain ⟨⟨s, hs, hc⟩, e1, e2, e3, e4⟩ := satFitter_ok wf ht0 hf htoy h
  obtain ⟨a1, a2, a3, -⟩ := initParms_ok hf
  obtain ⟨c1, c2, -⟩ := composite_two hs hc
  have hnp : m.npoi ≤ m.nparams := Nat.le_add_right _ _
  have hcn : c.nparams = m.nparams + satNpoi info := by unfold PModel.nparams; omega
  have l1 : f.parms.length = x.length := by rw [a1, List.length_append, wf.params, hx]
  have l3 : f.cw.length = x.length := by
    rw [a3, List.length_append, List.length_map, subSigmas_length wf, hw, hx]
  have hel : (effective m x).length = x.length := effective_length m x (by omega)
  have eff : effective c (Spec.embed m.npoi (satNpoi info) x) =
      ins (effective m x) m.npoi (List.replicate (satNpoi info) 1) := by
    have := effective_two hs hc x (List.replicate (satNpoi info) 1) (by omega) (by simp)
    rw [sq_ones] at this
    exact this
  have tk : (ins (effective m x) m.npoi (List.replicate (satNpoi info) (1 : ℝ))).take c.nparams =
      ins ((effective m x).take m.nparams) m.npoi (List.replicate (satNpoi info) 1) := by
    have hsp := (List.take_append_drop m.nparams (effective m x)).symm
    conv_lhs => rw [hsp]
    rw [← ins_append _ _ _ _ (by simp; omega)]
    exact List.take_left' (by rw [ins_length _ _ _ (by simp; omega), hcn]; simp; omega)
  have dk : (ins (effective m x) m.npoi (List.replicate (satNpoi info) (1 : ℝ))).drop c.nparams =
      (effective m x).drop m.nparams := by
    have hsp := (List.take_append_drop m.nparams (effective m x)).symm
    conv_lhs => rw [hsp]
    rw [← ins_append _ _ _ _ (by simp; omega)]
    exact List.drop_left' (by rw [ins_length _ _ _ (by simp; omega), hcn]; simp; omega)
  have htl : ((effective m x).take m.nparams).length = m.nparams := by simp; omega
  unfold loss at hv hv'
  dsimp only at hv hv'
  rw [eff, tk, dk] at hv'
  split at hv'
  · rename_i r0' r' rf' g1 g2 g3
    split at hv'
    · exact nomatch hv'
    rename_i b' hb'
    cases hv'
    obtain ⟨r, k2, q2⟩ := compute_two hs hc _ htl false g2
    obtain ⟨rf, k3, q3⟩ := compute_two hs hc _ htl true g3
    rw [initRates_two wf h1 hs hc g1, k2, k3] at hv
    dsimp only at hv
    split at hv
    · exact nomatch hv
    rename_i b hb
    cases hv
    rw [q2, q3]
    rw [e1] at hb'
    have hext := external_two (n := m.npoi) (by omega) hb hb' x (List.replicate (satNpoi info) 1) (by omega)
      (by rw [satParams_length]; simp)
    have hcon := constraints_two { f with x0 := toy } f' (effective m x) (List.replicate (satNpoi info) 1) m.npoi
      (by omega) (by dsimp only; omega) (by dsimp only; omega) (by simpa using e3) (List.replicate (satNpoi info) 1)
      rfl e4
    rw [hcon]
    unfold Spec.embed
    unfold ins at hext
    rw [hext]
  · exact nomatch hv'
  · exact nomatch hv'
  · exact nomatch hv'

/-! ### The saturated minimum -/

/-- every bin lies in some channel -/
theorem exists_bin (cs : List (String × Chan ℝ)) (b : Nat) (hb : b < AxisModels.Spec.offset cs) :
    ∃ pre k c post idx, cs = pre ++ (k, c) :: post ∧ List.Forall₂ (fun i (a : Axis ℝ) => i < a.size) idx c.axes ∧
      b = AxisModels.Spec.offset pre + ravel (sizes c.axes) idx := by
  induction cs generalizing b with
  | nil => simp [AxisModels.Spec.offset] at hb
  | cons e cs ih =>
    obtain ⟨k, c⟩ := e
    by_cases h : b < (sizes c.axes).prod
    · have hl : b < (grid (sizes c.axes)).length := by rw [length_grid]; exact h
      refine ⟨[], k, c, cs, (grid (sizes c.axes))[b], rfl, mem_grid_axes.1 (List.getElem_mem hl), ?_⟩
      rw [ravel_grid_getElem hl]; simp [AxisModels.Spec.offset]
    · obtain ⟨pre, k', c', post, idx, h1, h2, h3⟩ := ih (b - (sizes c.axes).prod) (by
        simp only [AxisModels.Spec.offset, List.map_cons, List.sum_cons] at hb ⊢
        unfold sizes at h ⊢
        omega)
      refine ⟨(k, c) :: pre, k', c', post, idx, by rw [h1]; rfl, h2, ?_⟩
      simp only [AxisModels.Spec.offset, List.map_cons, List.sum_cons] at h3 ⊢
      unfold sizes at h h3 ⊢
      omega

/-- factor of a bin after one saturated parameter was multiplied by `u` -/
theorem satRate_set {inp : InData ℝ} {ch : String} {axs : List (Axis ℝ)} {z : List ℝ} {r r' : Rates ℝ}
    (hk : inp.chans.keys.Nodup) (hr : satCompute inp [(ch, axs)] z false = .ok r) (q : Nat) (u : ℝ)
    (hr' : satCompute inp [(ch, axs)] (z.set q (u * z.getD q 0)) false = .ok r') (b : Nat)
    (hb : b < AxisModels.Spec.offset (AxisModels.Spec.active inp false)) (p : Nat) :
    (Spec.Projects inp ch (axs.map (·.name)) b q → r'.at b p = u * r.at b p) ∧
    (¬ Spec.Projects inp ch (axs.map (·.name)) b q → r'.at b p = r.at b p) := by
  obtain ⟨pre, k, c, post, idx, h1, h2, h3⟩ := exists_bin _ b hb
  have atb : ∀ {z : List ℝ} {r : Rates ℝ}, satCompute inp [(ch, axs)] z false = .ok r → r.at b p = r.val b 0 := by
    intro z r hr
    obtain ⟨-, g2, g3, -⟩ := c66_rates hr hk h1 h2 0
    unfold Rates.at
    rw [if_pos g3]
    split_ifs with g
    · rw [g2] at g; rw [show b = 0 by omega]
    · rfl
  rw [atb hr, atb hr']
  obtain ⟨-, -, -, g4, g5⟩ := c66_rates hr hk h1 h2 0
  obtain ⟨-, -, -, g4', g5'⟩ := c66_rates hr' hk h1 h2 0
  rw [← h3] at g4 g5 g4' g5'
  constructor
  · rintro ⟨pre', c', post', idx', i1, i2, i3, i4⟩
    obtain ⟨-, -, -, -, j5⟩ := c66_rates hr hk i1 i2 0
    obtain ⟨-, -, -, -, j5'⟩ := c66_rates hr' hk i1 i2 0
    rw [← i3, i4] at j5 j5'
    obtain ⟨x, hx1, hx2⟩ := j5 rfl
    obtain ⟨x', hx1', hx2'⟩ := j5' rfl
    rw [hx2, hx2']
    have hlt := (List.getElem?_eq_some_iff.1 hx1).1
    rw [List.getElem?_set_self hlt] at hx1'
    rw [← Option.some.inj hx1', List.getD_eq_getElem?_getD, hx1]; rfl
  · intro hn
    by_cases hkc : k = ch
    · subst hkc
      have hne : AxisModels.Spec.cell c.axes (axs.map (·.name)) idx ≠ q := fun he => hn ⟨pre, c, post, idx, h1, h2, h3, he⟩
      obtain ⟨x, hx1, hx2⟩ := g5 rfl
      obtain ⟨x', hx1', hx2'⟩ := g5' rfl
      rw [List.getElem?_set_ne (Ne.symm hne), hx1] at hx1'
      rw [hx2, hx2', Option.some.inj hx1']
    · rw [g4 hkc, g4' hkc]

/-- value of the saturated fit for all values of the additional parameters -/
theorem loss_sat {inp : InData ℝ} {info : MapInfo} {m c : PModel ℝ} {nu : Nuis} {toy : List ℝ} {f f' : FitParms}
    (wf : ParamModels.Spec.WF m) (hw : nu.weights.length = nu.systs.length) (ht0 : nu.theta0.length = nu.systs.length)
    (hf : initParms m nu = .ok f) (htoy : toy.length = m.nparams + nu.systs.length)
    (h : satFitter inp info m nu toy = .ok (c, f')) {nbins nproc : Nat} {nobs : Nat → ℝ} {Y : Nat → Nat → List ℝ → ℝ}
    {ext : List (Ext.Term ℝ)} {b0 : List (Ext.Built ℝ)} (hb0 : Ext.build ext f.parms = .ok b0)
    {x : List ℝ} (hx : x.length = m.nparams + nu.systs.length) :
    ∃ (K : ℝ) (theta : List ℝ) (e : List ℝ), ∀ (y : List ℝ) (v : ℝ), y.length = satNpoi info →
      loss ⟨Spec.poisson nbins nproc nobs Y, ext⟩ c f' (x.take m.npoi ++ y ++ x.drop m.npoi) = .ok v →
      (effective c (x.take m.npoi ++ y ++ x.drop m.npoi)).drop c.nparams = theta ∧
      ∃ r r0 r1, c.compute ((effective c (x.take m.npoi ++ y ++ x.drop m.npoi)).take c.nparams) false = .ok r ∧
        m.compute e false = .ok r0 ∧ satCompute inp info (sq c y) false = .ok r1 ∧
        (∀ b p, r.at b p = r0.at b p * r1.at b p) ∧
        v = (∑ b ∈ Finset.range nbins, poissonBin (nobs b) (Spec.expected nproc Y r.at theta b)) + K := by
  obtain ⟨⟨s, hs, hc⟩, e1, e2, e3, e4⟩ := satFitter_ok wf ht0 hf htoy h
  obtain ⟨a1, a2, a3, -⟩ := initParms_ok hf
  obtain ⟨c1, c2, -⟩ := composite_two hs hc
  have hnp : m.npoi ≤ m.nparams := Nat.le_add_right _ _
  have hcn : c.nparams = m.nparams + satNpoi info := by unfold PModel.nparams; omega
  have l1 : f.parms.length = x.length := by rw [a1, List.length_append, wf.params, hx]
  have l3 : f.cw.length = x.length := by
    rw [a3, List.length_append, List.length_map, subSigmas_length wf, hw, hx]
  have hel : (effective m x).length = x.length := effective_length m x (by omega)
  refine ⟨constraints { f with x0 := toy } (effective m x) + (Ext.computeExternal b0 x).getD 0,
    (effective m x).drop m.nparams, (effective m x).take m.nparams, fun y v hy hv => ?_⟩
  have eff : effective c (x.take m.npoi ++ y ++ x.drop m.npoi) = ins (effective m x) m.npoi (sq c y) :=
    effective_two hs hc x y (by omega) hy
  have hql := sq_length c y
  have tk : (ins (effective m x) m.npoi (sq c y)).take c.nparams = ins ((effective m x).take m.nparams) m.npoi (sq c y) := by
    have hsp := (List.take_append_drop m.nparams (effective m x)).symm
    conv_lhs => rw [hsp]
    rw [← ins_append _ _ _ _ (by simp; omega)]
    exact List.take_left' (by rw [ins_length _ _ _ (by simp; omega), hcn]; simp; omega)
  have dk : (ins (effective m x) m.npoi (sq c y)).drop c.nparams = (effective m x).drop m.nparams := by
    have hsp := (List.take_append_drop m.nparams (effective m x)).symm
    conv_lhs => rw [hsp]
    rw [← ins_append _ _ _ _ (by simp; omega)]
    exact List.drop_left' (by rw [ins_length _ _ _ (by simp; omega), hcn]; simp; omega)
  have htl : ((effective m x).take m.nparams).length = m.nparams := by simp; omega
  unfold loss at hv
  dsimp only at hv
  rw [eff, tk, dk] at hv
  rw [eff, tk, dk]
  refine ⟨rfl, ?_⟩
  split at hv
  · rename_i r0' r' rf' g1 g2 g3
    split at hv
    · exact nomatch hv
    rename_i b' hb'
    cases hv
    obtain ⟨r0, r1, k1, k2, k3⟩ := compute_mul hs hc _ (sq c y) htl (by omega) false g2
    refine ⟨r', r0, r1, g2, k1, k2, k3, ?_⟩
    rw [e1] at hb'
    have hext := external_two (n := m.npoi) (by omega) hb0 hb' x y (by omega) (by rw [satParams_length]; exact hy)
    have hcon := constraints_two { f with x0 := toy } f' (effective m x) (sq c y) m.npoi
      (by omega) (by dsimp only; omega) (by dsimp only; omega) (by rw [hql, hy]; exact e3)
      (List.replicate (satNpoi info) 1) (by simp; omega) e4
    rw [hcon]
    unfold ins at hext
    rw [hext, add_assoc]
    rfl
  · exact nomatch hv
  · exact nomatch hv
  · exact nomatch hv

theorem hasDerivAt_poisson (n a : ℝ) (h : n ≠ 0 → a ≠ 0) :
    HasDerivAt (fun t : ℝ => poissonBin n (t ^ 2 * a)) (2 * (a - n)) 1 := by
  have hsq : HasDerivAt (fun t : ℝ => t ^ 2 * a) (2 * a) 1 := by
    have := (hasDerivAt_pow 2 (1 : ℝ)).mul_const a
    exact this.congr_deriv (by norm_num)
  unfold poissonBin
  by_cases hn : n = 0
  · simp only [hn, if_true, neg_zero, zero_mul, zero_add, sub_zero]
    exact hsq
  · simp only [hn, if_false]
    have hl : HasDerivAt (fun t : ℝ => Real.log (t ^ 2 * a)) 2 1 := by
      have := hsq.log (by simpa using h hn)
      exact this.congr_deriv (by field_simp [h hn])
    have := (((hl.sub_const (lognobs n)).const_mul (-n)).add hsq).sub_const n
    exact this.congr_deriv (by ring)

open Classical in
/-- The saturated fit reproduces the projection: at its minimum the expected and the observed number of events agree in
every projected bin.  (Poisson likelihood without bin-by-bin uncertainties, templates multiplied by the rates; the value at
the minimum is finite: no bin with events has expectation zero.) -/
theorem c72_matches {inp : InData ℝ} {ch : String} {axs : List (Axis ℝ)} {m c : PModel ℝ} {nu : Nuis} {toy : List ℝ}
    {f f' : FitParms} (wf : ParamModels.Spec.WF m) (hw : nu.weights.length = nu.systs.length)
    (ht0 : nu.theta0.length = nu.systs.length) (hf : initParms m nu = .ok f)
    (htoy : toy.length = m.nparams + nu.systs.length) (hk : inp.chans.keys.Nodup)
    (h : satFitter inp [(ch, axs)] m nu toy = .ok (c, f')) {nproc : Nat} {nobs : Nat → ℝ} {Y : Nat → Nat → List ℝ → ℝ}
    {ext : List (Ext.Term ℝ)} (hext : ∃ b0, Ext.build ext f.parms = .ok b0) {nbins : Nat}
    (hnb : nbins = AxisModels.Spec.offset (AxisModels.Spec.active inp false))
    {x y : List ℝ} (hx : x.length = m.nparams + nu.systs.length) (hy : y.length = satNpoi [(ch, axs)]) {v : ℝ}
    (hv : loss ⟨Spec.poisson nbins nproc nobs Y, ext⟩ c f' (x.take m.npoi ++ y ++ x.drop m.npoi) = .ok v)
    (hmin : ∀ y' : List ℝ, y'.length = y.length → ∃ v',
      loss ⟨Spec.poisson nbins nproc nobs Y, ext⟩ c f' (x.take m.npoi ++ y' ++ x.drop m.npoi) = .ok v' ∧ v ≤ v')
    {r : Rates ℝ} {theta : List ℝ}
    (hr : c.compute ((effective c (x.take m.npoi ++ y ++ x.drop m.npoi)).take c.nparams) false = .ok r)
    (hth : theta = (effective c (x.take m.npoi ++ y ++ x.drop m.npoi)).drop c.nparams)
    (hfin : ∀ b < nbins, nobs b ≠ 0 → Spec.expected nproc Y r.at theta b ≠ 0) (q : Nat) :
    ∑ b ∈ (Finset.range nbins).filter (fun b => Spec.Projects inp ch (axs.map (·.name)) b q), Spec.expected nproc Y r.at theta b
      = ∑ b ∈ (Finset.range nbins).filter (fun b => Spec.Projects inp ch (axs.map (·.name)) b q), nobs b := by
  obtain ⟨b0, hb0⟩ := hext
  obtain ⟨K, th, e, hL⟩ := loss_sat wf hw ht0 hf htoy h (nbins := nbins) (nproc := nproc) (nobs := nobs) (Y := Y) hb0 hx
  obtain ⟨rfl, r', r0, r1, k1, k2, k3, k4, k5⟩ := hL y v hy hv
  rw [← hth] at hL k5
  rw [hr] at k1
  cases k1
  by_cases hq : q < y.length
  swap
  · rw [Finset.filter_false_of_mem]
    · rfl
    intro b hb
    rintro ⟨pre', c', post', idx', i1, i2, i3, i4⟩
    obtain ⟨-, -, -, -, j5⟩ := c66_rates k3 hk i1 i2 0
    rw [i4] at j5
    obtain ⟨x', hx1, -⟩ := j5 rfl
    have := (List.getElem?_eq_some_iff.1 hx1).1
    rw [sq_length] at this
    exact hq this
  obtain ⟨⟨s, hs, hc⟩, -⟩ := satFitter_ok wf ht0 hf htoy h
  have hneg : c.allowNeg = false := allowNeg_two hs hc (by omega)
  have hsq : ∀ y, sq c y = y.map (· ^ 2) := fun y => by unfold sq; rw [if_neg (by simp [hneg])]
  set P : Nat → Prop := fun b => Spec.Projects inp ch (axs.map (·.name)) b q with hP
  set E : Nat → ℝ := Spec.expected nproc Y r.at theta with hE
  -- the likelihood along the rescaling of one parameter
  let F : ℝ → ℝ := fun t => ∑ b ∈ Finset.range nbins, poissonBin (nobs b) ((if P b then t ^ 2 else 1) * E b)
  have hF : ∀ t : ℝ, F 1 ≤ F t := by
    intro t
    obtain ⟨v', hv', hle⟩ := hmin (y.set q (t * y.getD q 0)) (by simp)
    obtain ⟨-, r', r0', r1', g1, g2, g3, g4, g5⟩ := hL _ v' (by simpa using hy) hv'
    rw [k2] at g2
    cases g2
    have hset : sq c (y.set q (t * y.getD q 0)) = (sq c y).set q (t ^ 2 * (sq c y).getD q 0) := by
      rw [hsq, hsq, List.map_set]
      congr 1
      rw [List.getD_eq_getElem?_getD, List.getD_eq_getElem?_getD, List.getElem?_map, List.getElem?_eq_getElem hq]
      simp [mul_pow]
    rw [hset] at g3
    have hval : v' = F t + K := by
      rw [g5]
      congr 1
      refine Finset.sum_congr rfl fun b hb => ?_
      congr 1
      have hb' : b < nbins := Finset.mem_range.1 hb
      rw [hE]
      unfold Spec.expected
      rw [Finset.mul_sum]
      refine Finset.sum_congr rfl fun p _ => ?_
      obtain ⟨s1, s2⟩ := satRate_set hk k3 q (t ^ 2) g3 b (by omega) p
      rw [g4, k4]
      by_cases hPb : P b
      · rw [s1 hPb, if_pos hPb]; ring
      · rw [s2 hPb, if_neg hPb]; ring
    have h1 : v = F 1 + K := by
      rw [k5]
      congr 1
      refine Finset.sum_congr rfl fun b _ => ?_
      congr 1
      simp [hE]
    linarith
  have hd : HasDerivAt F (∑ b ∈ Finset.range nbins, if P b then 2 * (E b - nobs b) else 0) 1 := by
    apply HasDerivAt.fun_sum
    intro b hb
    by_cases hPb : P b
    · simp only [hPb, if_true]
      exact hasDerivAt_poisson _ _ (hfin b (Finset.mem_range.1 hb))
    · simp only [hPb, if_false]
      exact hasDerivAt_const _ _
  have hloc : IsLocalMin F 1 := Filter.Eventually.of_forall hF
  have hz := hloc.hasDerivAt_eq_zero hd
  rw [← Finset.sum_filter, ← Finset.mul_sum, Finset.sum_sub_distrib] at hz
  linarith

/-! ### Cases -/

namespace Ex72

/-- one channel with two bins -/
noncomputable def inp : InData ℝ :=
  ⟨["sig", "bkg"], [("a", ⟨[⟨"eta", 2, 2, [0, 1, 2], [1 / 2, 3 / 2]⟩], 0, false, false⟩)], 2, 2, fun _ _ => 1⟩

/-- projection onto the axis -/
noncomputable def info : MapInfo := [("a", [⟨"eta", 2, 2, [0, 1, 2], [1 / 2, 3 / 2]⟩])]

/-- a signal strength with default value one -/
noncomputable def mu (neg : Bool) : PModel ℝ := muModel 2 ["sig"] [1] neg

/-- one nuisance parameter -/
noncomputable def nu : Nuis := ⟨["lumi"], [1], [0]⟩

/-- observed events -/
noncomputable def nobs : Nat → ℝ := fun b => if b = 0 then 3 else 12

/-- templates: one signal and two background events in every bin -/
noncomputable def Y : Nat → Nat → List ℝ → ℝ := fun _ p _ => if p = 0 then 1 else 2

theorem wf_mu : ParamModels.Spec.WF (mu false) := ⟨rfl, rfl, (fun _ h => nomatch h), (fun _ h => nomatch h)⟩

/-- the saturated fit evaluates for all values of the additional parameters -/
theorem evaluates (u w : ℝ) : ∃ c f', satFitter inp info (mu false) nu [1, 1 / 2] = .ok (c, f') ∧
    ∃ r, c.compute ((effective c ([1] ++ [u, w] ++ [0])).take c.nparams) false = .ok r ∧
      r.at 0 0 = 1 ^ 2 * u ^ 2 ∧ r.at 0 1 = 1 * u ^ 2 ∧ r.at 1 0 = 1 ^ 2 * w ^ 2 ∧ r.at 1 1 = 1 * w ^ 2 ∧
    ∃ v, loss ⟨Spec.poisson 2 2 nobs Y, []⟩ c f' ([1] ++ [u, w] ++ [0]) = .ok v :=
  ⟨_, _, rfl, _, rfl, rfl, rfl, rfl, rfl, _, rfl⟩

/-- the composite is constructed, with the names in the stated order and the centre of the toy -/
example : ∃ c f f', initParms (mu false) nu = .ok f ∧ satFitter inp info (mu false) nu [1, 1 / 2] = .ok (c, f') ∧
    f'.parms = ["sig", "saturated_a_eta0", "saturated_a_eta1", "lumi"] ∧ f'.cw = [0, 0, 0, 1] ∧
    ∃ v, loss ⟨Spec.poisson 2 2 nobs Y, []⟩ (mu false) { f with x0 := [1, 1 / 2] } [1, 0] = .ok v :=
  ⟨_, _, _, rfl, rfl, rfl, by
    change [priorWeight none, priorWeight none, priorWeight none, (1 : ℝ)] = _
    simp [priorWeight], _, rfl⟩

theorem bin_nonneg {n e : ℝ} (hn : 3 ≤ n) (he : 0 ≤ e) : 0 ≤ poissonBin n e := by
  rcases eq_or_lt_of_le he with h | h
  · subst h
    unfold poissonBin lognobs
    rw [if_neg (by linarith), if_neg (by linarith), Real.log_zero]
    have h1 : (1 : ℝ) ≤ Real.log n := by
      rw [Real.le_log_iff_exp_le (by linarith)]
      have := Real.exp_one_lt_d9
      linarith
    nlinarith
  · exact c19_nonneg n e (by linarith) he (.inr h)

/-- the hypotheses of `c72_matches` are met: the minimum is at the parameters (1, 2) -/
example : ∃ (c : PModel ℝ) (f' : FitParms) (v : ℝ) (r : Rates ℝ), satFitter inp info (mu false) nu [1, 1 / 2] = .ok (c, f') ∧
    loss ⟨Spec.poisson 2 2 nobs Y, []⟩ c f' ([1] ++ [1, 2] ++ [0]) = .ok v ∧
    (∀ y' : List ℝ, y'.length = 2 → ∃ v', loss ⟨Spec.poisson 2 2 nobs Y, []⟩ c f' ([1] ++ y' ++ [0]) = .ok v' ∧ v ≤ v') ∧
    c.compute ((effective c ([1] ++ [1, 2] ++ [0])).take c.nparams) false = .ok r ∧
    ∀ b < 2, nobs b ≠ 0 → Spec.expected 2 Y r.at [] b ≠ 0 := by
  have hf : ∃ f, initParms (mu false) nu = .ok f := ⟨_, rfl⟩
  obtain ⟨f, hf⟩ := hf
  have hb : ∃ b, Ext.build ([] : List (Ext.Term ℝ)) f.parms = .ok b := by cases hf; exact ⟨_, rfl⟩
  obtain ⟨b0, hb0⟩ := hb
  obtain ⟨c, f', hs, r, hr, r00, r01, r10, r11, v, hv⟩ := evaluates 1 2
  obtain ⟨K, th, e, hL⟩ := loss_sat wf_mu rfl rfl hf rfl hs (nbins := 2) (nproc := 2) (nobs := nobs) (Y := Y) hb0
    (x := [1, 0]) rfl
  have val : ∀ u w : ℝ, ∀ v, loss ⟨Spec.poisson 2 2 nobs Y, []⟩ c f' ([1] ++ [u, w] ++ [0]) = .ok v →
      v = poissonBin 3 (3 * u ^ 2) + poissonBin 12 (3 * w ^ 2) + K := by
    intro u w v hv
    obtain ⟨c', f'', hs', r', hr', r00, r01, r10, r11, v', hv'⟩ := evaluates u w
    rw [hs] at hs'
    cases hs'
    obtain ⟨-, r2, r0, r1, h1, -, -, -, h5⟩ := hL [u, w] v rfl hv
    have : (Except.ok r' : Res (Rates ℝ)) = Except.ok r2 := hr'.symm.trans h1
    cases this
    rw [h5]
    simp only [Finset.sum_range_succ, Finset.sum_range_zero, Spec.expected, r00, r01, r10, r11, nobs, Y]
    norm_num
    ring_nf
  refine ⟨c, f', v, r, hs, hv, fun y' hy' => ?_, hr, fun b hb _ => ?_⟩
  · match y', hy' with
    | [u, w], _ =>
      obtain ⟨c', f'', hs', r', hr', q00, q01, q10, q11, v', hv'⟩ := evaluates u w
      rw [hs] at hs'
      cases hs'
      refine ⟨v', hv', ?_⟩
      rw [val 1 2 v hv, val u w v' hv']
      have z1 : poissonBin 3 (3 * 1 ^ 2) = 0 := (c19_zero_iff _ _ (by norm_num) (by norm_num) (by norm_num)).2 (by norm_num)
      have z2 : poissonBin 12 (3 * 2 ^ 2) = 0 := (c19_zero_iff _ _ (by norm_num) (by norm_num) (by norm_num)).2 (by norm_num)
      have n1 := bin_nonneg (n := 3) (e := 3 * u ^ 2) le_rfl (by positivity)
      have n2 := bin_nonneg (n := 12) (e := 3 * w ^ 2) (by norm_num) (by positivity)
      linarith
  · have : b = 0 ∨ b = 1 := by omega
    rcases this with rfl | rfl
    · simp only [Finset.sum_range_succ, Finset.sum_range_zero, Spec.expected, r00, r01, Y]; norm_num
    · simp only [Finset.sum_range_succ, Finset.sum_range_zero, Spec.expected, r10, r11, Y]; norm_num

end Ex72

/-! ### Where the test fails -/

/-- The test cannot be computed for a fit whose POIs may be negative: the saturated model is built with the default
`allowNegativeParam=False` and the composite of models with different choices is refused.  The exception ends the program. -/
theorem c72_negative_violated (inp : InData ℝ) (info : MapInfo) (hk : satNpoi info > 0) (m : PModel ℝ) (hm : m.npoi > 0)
    (hneg : m.allowNeg = true) (nu : Nuis) (toy : List ℝ) : satFitter inp info m nu toy = .error .value := by
  unfold satFitter
  split
  · rename_i e he
    unfold satModel setParamDefault at he
    simp at he
  rename_i s hs
  obtain ⟨h1, h2, h3, h4, h5, h6, h7, h8⟩ := satModel_ok hs
  have : composite [m, s] none = .error .value := by
    unfold composite compositeAllowNeg
    rw [if_pos]
    rw [← h1] at hk
    simp [poiFlags, hm, hk, setAdd, hneg, h5]
  rw [this]

/-- A case: a projection with two bins and a signal strength that may be negative. -/
example : satFitter Ex72.inp Ex72.info (Ex72.mu true) Ex72.nu [1, 0] = .error .value :=
  c72_negative_violated _ _ (by decide) _ (by decide) rfl _ _

/-- The reported number of degrees of freedom is the number of projected bins, also when parameters of the fit already
scale them: with one bin and a free signal strength the saturated fit reaches no value that the fit does not reach, for
every data and every likelihood.  The test statistic is always zero, with one degree of freedom. -/
theorem c72_ndf_violated :
    ∃ (inp : InData ℝ) (info : MapInfo) (m c : PModel ℝ) (nu : Nuis) (f f' : FitParms),
      initParms m nu = .ok f ∧ satFitter inp info m nu f.x0 = .ok (c, f') ∧ (∀ a b, (statistic info a b).2 = 1) ∧
      ∀ L : Lik, L.ext = [] → ∀ a u : ℝ, ∃ v, loss L c f' [a, u] = .ok v ∧ loss L m f [a * u] = .ok v := by
  refine ⟨⟨["sig"], [("a", ⟨[⟨"eta", 1, 1, [0, 1], [1 / 2]⟩], 0, false, false⟩)], 1, 1, fun _ _ => 1⟩,
    [("a", [⟨"eta", 1, 1, [0, 1], [1 / 2]⟩])], muModel 1 ["sig"] [1] false, _, ⟨[], [], []⟩, _, _, rfl, rfl,
    fun _ _ => rfl, ?_⟩
  rintro ⟨main, ext⟩ rfl a u
  refine ⟨main (fun _ _ => 1) (fun _ _ => (a * u) ^ 2) (fun _ _ => (a * u) ^ 2) [], ?_, ?_⟩
  · refine Eq.trans (b := Except.ok (main (fun _ _ => 1 * √1) (fun _ _ => a ^ 2 * u ^ 2) (fun _ _ => a ^ 2 * u ^ 2) [] +
      (0 * (1 / 2) * (a ^ 2 - 1) ^ 2 + (0 * (1 / 2) * (u ^ 2 - √1) ^ 2 + 0)) + 0)) rfl ?_
    simp [mul_pow]
  · refine Eq.trans (b := Except.ok (main (fun _ _ => 1) (fun _ _ => (a * u) ^ 2) (fun _ _ => (a * u) ^ 2) [] +
      (0 * (1 / 2) * ((a * u) ^ 2 - 1) ^ 2 + 0) + 0)) rfl ?_
    simp

/-- Expressions given to freeze parameters of the fit also act on the additional parameters: here the expression for the
nuisance parameter `scale` freezes all parameters of the saturated model, so there is nothing left to saturate the
projection. -/
theorem c72_freeze_violated (rx : FitParams.Regex) (hrx : rx "s.*" = some fun n => n.toList.head? == some 's') :
    ∃ (inp : InData ℝ) (info : MapInfo) (m c : PModel ℝ) (nu : Nuis) (f f' : FitParms),
      initParms m nu = .ok f ∧ satFitter inp info m nu f.x0 = .ok (c, f') ∧ satNpoi info = 2 ∧
      (FitParams.freezeParams rx ["s.*"] (FitParams.FreezeState.init f.parms)).1.frozenParams = ["scale"] ∧
      (FitParams.freezeParams rx ["s.*"] (FitParams.FreezeState.init f'.parms)).1.frozenParams =
        satParams info ++ ["scale"] := by
  refine ⟨Ex72.inp, Ex72.info, muModel 2 ["mu"] [1] false, _, ⟨["scale"], [1], [0]⟩, _, _, rfl, rfl, rfl, ?_, ?_⟩
  · change (FitParams.freezeParams rx ["s.*"] (FitParams.FreezeState.init ["mu", "scale"])).1.frozenParams = _
    unfold FitParams.freezeParams FitParams.matchParams FitParams.compileAll FitParams.compileAll
    rw [hrx]
    decide +kernel
  · change (FitParams.freezeParams rx ["s.*"] (FitParams.FreezeState.init
      ["mu", "saturated_a_eta0", "saturated_a_eta1", "scale"])).1.frozenParams =
        ["saturated_a_eta0", "saturated_a_eta1", "scale"]
    unfold FitParams.freezeParams FitParams.matchParams FitParams.compileAll FitParams.compileAll
    rw [hrx]
    decide +kernel

end Verif.SatTest
