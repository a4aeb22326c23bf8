import Verif.Lemmas.LinearMapping
import Verif.Lemmas.Quadratic
import Verif.Model.LinearFit
import Verif.Model.SatTest
import Verif.Props.CompositeModel
import Verif.Props.Covariance

/-!
C99 A fit treated as linear has a quadratic likelihood.
-/

namespace Verif.LinearFit

open Verif.BBB Verif.Yields Verif.ParamModels Verif.FitParams Verif.Regularization Verif.Quadratic Matrix

noncomputable section

/-! ### specification -/

namespace Spec

/-- The value is, wherever `D` holds, that of one fixed polynomial of degree two in the parameters (and a number). -/
def quadraticOn {n : ℕ} (D : (Fin n → ℝ) → Prop) (f : (Fin n → ℝ) → Res (Option ℝ)) : Prop :=
  ∃ (c : ℝ) (g : Fin n → ℝ) (H : Matrix (Fin n) (Fin n) ℝ), H.IsSymm ∧
    ∀ x, D x → ∀ v, f x = .ok v → v = some (c + ∑ i, g i * x i + 1 / 2 * ∑ i, ∑ j, H i j * x i * x j)

/-- The rates are affine in the parameters of the model. -/
def affine (m : PModel ℝ) : Prop :=
  ∀ full, ∃ (a : Nat → Nat → ℝ) (k : Nat → Nat → Fin m.nparams → ℝ), ∀ (y : Fin m.nparams → ℝ) (r : ParamModels.Rates ℝ),
    m.compute (List.ofFn y) full = .ok r → ∀ b p, r.at b p = a b p + ∑ i, k b p i * y i

/-- What the flag of a parameter model promises to the fit: affine rates, and POIs that are not squared. -/
def sound (m : PModel ℝ) : Prop := m.isLinear = true → affine m ∧ (m.npoi = 0 ∨ m.allowNeg = true)

/-- The processes with a statistical uncertainty have a positive sum in every bin that has one. -/
def active (F : Fitter) (x : Fin F.n → ℝ) : Prop :=
  ∀ nexp norm, F.yields (!F.regs.isEmpty) (F.params x) (F.theta x) = .ok (nexp, norm) → ∀ s, F.stat = some s → s.mode = .lite →
    ∀ b, (∑ p : Fin F.shape.nproc, s.sumw2 b p) ≠ 0 → 0 < ∑ p : Fin F.shape.nproc, if s.sumw2 b p = 0 then 0 else norm b p

/-- The output of a mapping is affine in the yields of the bins. -/
def affineMapping (nb : Nat) (flat : Grid.Tensor ℝ → Res (List ℝ)) : Prop :=
  ∃ (a : Nat → ℝ) (s : Nat → Finset Nat) (k : Nat → Nat → ℝ), ∀ (y : Nat → ℝ) (l : List ℝ),
    flat ⟨[nb], fun i => y (i.getD 0 0)⟩ = .ok l → ∀ i < l.length, l.getD i 0 = a i + ∑ j ∈ s i, k i j * y j

end Spec

/-! ### helper lemmas -/

theorem quadraticOn_of {n : ℕ} {D : (Fin n → ℝ) → Prop} {f : (Fin n → ℝ) → Res (Option ℝ)} {h : (Fin n → ℝ) → ℝ} (hq : Qd h)
    (hf : ∀ x, D x → ∀ v, f x = .ok v → v = some (h x)) : Spec.quadraticOn D f := by
  obtain ⟨q, hs, hv⟩ := hq
  refine ⟨q.c, q.g, q.H, hs, fun x hx v h => ?_⟩
  rw [hf x hx v h, hv x, Cov.Quad.val]
  have : x ⬝ᵥ q.H *ᵥ x = ∑ i, ∑ j, q.H i j * x i * x j := by
    simp only [dotProduct, Matrix.mulVec, Finset.mul_sum]
    exact Finset.sum_congr rfl fun i _ => Finset.sum_congr rfl fun j _ => by ring
  rw [this]; rfl

theorem affine_of_no_params {m : PModel ℝ} (h : m.nparams = 0) : Spec.affine m := by
  intro full
  have e : ∀ y y' : Fin m.nparams → ℝ, y = y' := fun y y' => funext fun i => absurd i.2 (by omega)
  cases hc : m.compute [] full with
  | error e' =>
    refine ⟨fun _ _ => 0, fun _ _ _ => 0, fun y r hr => ?_⟩
    have : List.ofFn y = [] := List.eq_nil_of_length_eq_zero (by simp [h])
    rw [this, hc] at hr; exact nomatch hr
  | ok r0 =>
    refine ⟨fun b p => r0.at b p, fun _ _ _ => 0, fun y r hr b p => ?_⟩
    have : List.ofFn y = [] := List.eq_nil_of_length_eq_zero (by simp [h])
    rw [this, hc] at hr
    cases hr
    simp

/-! ### the models -/

/-- `Ones`: the flag is right. -/
theorem c99_ones (nproc : Nat) : Spec.sound (onesModel nproc) := fun _ =>
  ⟨affine_of_no_params rfl, .inl rfl⟩

/-- `SaturatedProjectModel` as the saturated test constructs it: the flag is right. -/
theorem c99_saturated (inp : ABCD.InData ℝ) (info : AxisModels.MapInfo) (m : PModel ℝ) (h : SatTest.satModel inp info = .ok m) :
    Spec.sound m := by
  unfold SatTest.satModel at h
  split at h
  · exact nomatch h
  · cases h
    intro hl
    have h0 : AxisModels.satNpoi info = 0 := by simpa using hl
    exact ⟨affine_of_no_params h0, .inl h0⟩

theorem mu_at (k nproc : Nat) (y : Fin k → ℝ) (l : List ℝ) (h : muCompute nproc (List.ofFn y) = .ok l) (b p : Nat) :
    (⟨1, l.length, fun _ p => l.getD p 1⟩ : ParamModels.Rates ℝ).at b p =
      (if (if nproc = 1 then 0 else p) < k then 0 else 1) +
        ∑ i : Fin k, (if i.1 = (if nproc = 1 then 0 else p) then 1 else 0) * y i := by
  unfold muCompute at h
  rw [List.length_ofFn] at h
  split at h
  · exact nomatch h
  · rename_i hle
    cases h
    have hlen : (List.ofFn y ++ List.replicate (nproc - k) (1 : ℝ)).length = nproc := by
      simp only [List.length_append, List.length_ofFn, List.length_replicate]
      omega
    unfold ParamModels.Rates.at
    dsimp only
    rw [hlen]
    generalize (if nproc = 1 then 0 else p) = q
    by_cases hlt : q < k
    · rw [if_pos hlt, zero_add, List.getD_eq_getElem?_getD, List.getElem?_append_left (by rw [List.length_ofFn]; exact hlt),
        ← List.getD_eq_getElem?_getD, getD_ofFn, dif_pos hlt,
        Finset.sum_eq_single ⟨q, hlt⟩]
      · simp
      · intro i _ hi
        rw [if_neg (fun e => hi (Fin.ext e)), zero_mul]
      · simp
    · rw [if_neg hlt, Finset.sum_eq_zero, add_zero,
        List.getD_eq_getElem?_getD, List.getElem?_append_right (by rw [List.length_ofFn]; exact Nat.le_of_not_lt hlt)]
      · cases h : (List.replicate (nproc - k) (1 : ℝ))[q - (List.ofFn y).length]? with
        | none => rfl
        | some v => exact (List.mem_replicate.1 (List.mem_of_getElem? h)).2
      · intro i _
        have hi : i.1 < k := i.2
        rw [if_neg (by omega), zero_mul]

/-- `Mu`: the flag is right. -/
theorem c99_mu (nproc : Nat) (signals : List String) (xdef : List ℝ) (neg : Bool) :
    Spec.sound (SatTest.muModel nproc signals xdef neg) := by
  intro hl
  refine ⟨fun full => ?_, ?_⟩
  · refine ⟨fun _ p => if (if nproc = 1 then 0 else p) < signals.length then 0 else 1,
      fun _ p i => if i.1 = (if nproc = 1 then 0 else p) then 1 else 0, fun y r hr b p => ?_⟩
    · have hr' : (match muCompute nproc (List.ofFn y) with
        | .error e => .error e
        | .ok l => .ok ⟨1, l.length, fun _ p => l.getD p 1⟩ : Res (ParamModels.Rates ℝ)) = .ok r := hr
      split at hr'
      · exact nomatch hr'
      · rename_i l hl'
        cases hr'
        exact mu_at signals.length nproc y l hl' b p
  · simpa [SatTest.muModel] using hl

/-- Product of affine functions of which at most one is not constant. -/
theorem prod_affine {n : ℕ} (gs : List ((Fin n → ℝ) → ℝ)) (j : Nat) (hg : ∀ (i : Nat) g, gs[i]? = some g → Aff g)
    (hc : ∀ (i : Nat) g, gs[i]? = some g → i ≠ j → ∃ c, ∀ x, g x = c) : Aff fun x => (gs.map fun g => g x).prod := by
  induction gs generalizing j with
  | nil => exact (Aff.const 1).congr fun x => by simp
  | cons g gs ih =>
    cases j with
    | zero =>
      have hrest : ∃ c, ∀ x, (gs.map fun g => g x).prod = c := by
        have : ∀ g ∈ gs, ∃ c, ∀ x, g x = c := fun g hg' => by
          obtain ⟨i, hi⟩ := List.getElem?_of_mem hg'
          exact hc (i + 1) g (by simpa using hi) (by omega)
        clear ih hg hc
        induction gs with
        | nil => exact ⟨1, fun x => by simp⟩
        | cons g gs ih =>
          obtain ⟨c, hc⟩ := ih fun g hg => this g (by simp [hg])
          obtain ⟨d, hd⟩ := this g (by simp)
          exact ⟨d * c, fun x => by rw [List.map_cons, List.prod_cons, hc, hd]⟩
      obtain ⟨c, hc'⟩ := hrest
      exact ((hg 0 g rfl).mul_right c).congr fun x => by rw [List.map_cons, List.prod_cons, hc']
    | succ j =>
      obtain ⟨c, hc'⟩ := hc 0 g rfl (by omega)
      refine ((ih j (fun i g' h => hg (i + 1) g' (by simpa using h)) fun i g' h hne =>
        hc (i + 1) g' (by simpa using h) (by omega)).mul_left c).congr fun x => ?_
      rw [List.map_cons, List.prod_cons, hc']

/-- A composite of models whose flags are right: its flag is right. -/
theorem c99_composite (ms : List (PModel ℝ)) (e : Option Bool) (c : PModel ℝ) (h : composite ms e = .ok c)
    (hms : ∀ m ∈ ms, Spec.sound m) : Spec.sound c := by
  intro hl
  have hlin := c45_linear h hl
  -- every submodel is affine, and constant unless it is the one with parameters
  have hsub : ∃ j0, ∀ (j : Nat) m, ms[j]? = some m → Spec.affine m ∧ (j ≠ j0 → m.nparams = 0) := by
    rcases hlin with h0 | ⟨-, j0, m0, hj0, hl0, hu⟩
    · exact ⟨0, fun j m hj => ⟨affine_of_no_params (h0 m (List.mem_of_getElem? hj)), fun _ => h0 m (List.mem_of_getElem? hj)⟩⟩
    · refine ⟨j0, fun j m hj => ?_⟩
      by_cases hp : 0 < m.nparams
      · have := hu j m hj hp
        subst this
        rw [hj0] at hj; cases hj
        exact ⟨(hms m0 (List.mem_of_getElem? hj0) hl0).1, fun h => absurd rfl h⟩
      · exact ⟨affine_of_no_params (by omega), fun _ => by omega⟩
  obtain ⟨j0, hsub⟩ := hsub
  refine ⟨fun full => ?_, ?_⟩
  · have key : ∀ b p, ∃ f : (Fin c.nparams → ℝ) → ℝ, Aff f ∧ ∀ y r, c.compute (List.ofFn y) full = .ok r → r.at b p = f y := by
      intro b p
      -- the affine function of submodel `j`
      have hg : ∀ (j : Nat) m, ms[j]? = some m → ∃ g : (Fin c.nparams → ℝ) → ℝ, Aff g ∧ (j ≠ j0 → ∃ v, ∀ y, g y = v) ∧
          ∀ y r, m.compute (handed (List.ofFn y) (0 + ((ms.take j).map (·.npoi)).sum)
            ((ms.map (·.npoi)).sum + ((ms.take j).map (·.npou)).sum) m) full = .ok r → r.at b p = g y := by
        intro j m hj
        obtain ⟨ha, hz⟩ := hsub j m hj
        obtain ⟨a, k, hak⟩ := ha full
        refine ⟨fun y => a b p + ∑ i : Fin m.nparams, k b p i * (List.ofFn y).getD (ParamModels.Spec.pos ms j i m) 0, ?_, ?_, ?_⟩
        · refine (Aff.const _).add (Aff.sum _ fun i _ => Aff.mul_left _ ?_)
          by_cases hi : ParamModels.Spec.pos ms j i m < c.nparams
          · exact (Aff.coord ⟨_, hi⟩).congr fun y => by rw [getD_ofFn, dif_pos hi]
          · exact (Aff.const 0).congr fun y => by rw [getD_ofFn, dif_neg hi]
        · intro hne
          refine ⟨a b p, fun y => ?_⟩
          have h0 := hz hne
          have : ∑ i : Fin m.nparams, k b p i * (List.ofFn y).getD (ParamModels.Spec.pos ms j i m) 0 = 0 :=
            Finset.sum_eq_zero fun i _ => absurd i.2 (by omega)
          simp only [this, add_zero]
        · intro y r hr
          obtain ⟨hlen, hget⟩ := handed_isSub h (x := List.ofFn y) (by simp) hj
          generalize handed (List.ofFn y) (0 + ((ms.take j).map (·.npoi)).sum)
            ((ms.map (·.npoi)).sum + ((ms.take j).map (·.npou)).sum) m = v at hr hlen hget
          have hv : v = List.ofFn fun i : Fin m.nparams => v.getD i 0 := by
            refine List.ext_getElem? fun i => ?_
            rw [List.getElem?_ofFn]
            split
            · rename_i hi
              simp only
              rw [List.getD_eq_getElem?_getD, List.getElem?_eq_getElem (by omega)]; rfl
            · rw [List.getElem?_eq_none (by omega)]
          rw [hv] at hr
          rw [hak _ r hr b p]
          congr 1
          refine Finset.sum_congr rfl fun i _ => ?_
          rw [List.getD_eq_getElem?_getD, List.getD_eq_getElem?_getD, hget i i.2]
      choose! g hg1 hg2 hg3 using hg
      refine ⟨fun y => ((ms.mapIdx fun j m => g j m).map fun g => g y).prod, ?_, fun y r hr => ?_⟩
      · refine prod_affine _ j0 (fun i f hf => ?_) fun i f hf hne => ?_
        · rw [List.getElem?_mapIdx, Option.map_eq_some_iff] at hf
          obtain ⟨m, hm, rfl⟩ := hf
          exact hg1 i m hm
        · rw [List.getElem?_mapIdx, Option.map_eq_some_iff] at hf
          obtain ⟨m, hm, rfl⟩ := hf
          exact hg2 i m hm hne
      · obtain ⟨rs, hlen, hrs, hprod⟩ := c45_product h (List.ofFn y) (by simp) full r hr
          (fun j => (ms[j]?.map fun m => handed (List.ofFn y) (0 + ((ms.take j).map (·.npoi)).sum)
            ((ms.map (·.npoi)).sum + ((ms.take j).map (·.npou)).sum) m).getD [])
          (fun j m hm => by rw [hm]; exact handed_isSub h (by simp) hm)
        rw [hprod b p]
        congr 1
        refine List.ext_getElem? fun i => ?_
        rw [List.getElem?_map, List.getElem?_map, List.getElem?_mapIdx]
        cases hm : ms[i]? with
        | none =>
          rw [List.getElem?_eq_none (by rw [hlen]; exact List.getElem?_eq_none_iff.1 hm)]; rfl
        | some m =>
          obtain ⟨ri, e1, e2⟩ := hrs i m hm
          rw [hm] at e2
          rw [e1]
          simp only [Option.map_some]
          rw [hg3 i m hm y ri e2]
    choose f hf1 hf2 using key
    choose a k hak using hf1
    exact ⟨a, k, fun y r hr b p => by rw [hf2 b p y r hr, hak b p y]; rfl⟩
  · have hf := composite_priors h
    rw [hf.2.2] at hl
    simp only [Bool.or_eq_true, beq_iff_eq, Bool.and_eq_true] at hl
    obtain ⟨e1, -, -, -, e5, -⟩ := composite_fields h
    rcases hl with hl | ⟨⟨h1, -⟩, -⟩
    · left; rw [e1]; omega
    · exact .inr h1

/-! ### from the parameters to the yields -/

section chain
variable (F : Fitter)

theorem stopAt_self (b : Bool) (v : ℝ) : stopAt b v v = v := by unfold stopAt; split <;> rfl

theorem poi_aff (h : F.model.npoi = 0 ∨ F.model.allowNeg = true) (i : Fin F.model.npoi) :
    Aff fun x : Fin F.n → ℝ => getPoi F.cfg F.mask F.off x x i := by
  rcases h with h | h
  · exact absurd i.2 (by omega)
  · have : ∀ x : Fin F.n → ℝ, getPoi F.cfg F.mask F.off x x i =
        x (Fin.castAdd F.shape.nsyst (Fin.castAdd F.model.npou i)) * (if F.doBlinding then F.off.poi i else 1) := fun x => by
      unfold getPoi
      dsimp only
      rw [stopAt_self, if_pos h]
      by_cases hd : F.doBlinding = true
      · rw [if_pos hd, if_pos hd]
      · rw [if_neg hd, if_neg hd, mul_one]
    exact ((Aff.coord _).mul_right _).congr this

theorem nui_aff (i : Fin F.model.npou) : Aff fun x : Fin F.n → ℝ => getNui F.cfg F.mask x x i :=
  (Aff.coord _).congr fun x => by unfold getNui; dsimp only; rw [stopAt_self]

theorem theta_aff' (i : Fin F.shape.nsyst) : Aff fun x : Fin F.n → ℝ => getTheta F.cfg F.mask F.off x x i := by
  have : ∀ x : Fin F.n → ℝ, getTheta F.cfg F.mask F.off x x i =
      x (Fin.natAdd (F.model.npoi + F.model.npou) i) + (if F.doBlinding then F.off.theta i else 0) := fun x => by
    unfold getTheta
    dsimp only
    rw [stopAt_self]
    by_cases hd : F.doBlinding = true
    · rw [if_pos hd, if_pos hd]
    · rw [if_neg hd, if_neg hd, add_zero]
  exact ((Aff.coord _).add (Aff.const _)).congr this

theorem theta_aff (i : Nat) : Aff fun x : Fin F.n → ℝ => F.theta x i := by
  unfold Fitter.theta
  by_cases h : i < F.shape.nsyst
  · exact (theta_aff' F ⟨i, h⟩).congr fun x => by rw [dif_pos h]
  · exact (Aff.const 0).congr fun x => by rw [dif_neg h]

theorem append_aff {n a b : ℕ} {f : (Fin n → ℝ) → Fin a → ℝ} {g : (Fin n → ℝ) → Fin b → ℝ} (hf : ∀ i, Aff fun x => f x i)
    (hg : ∀ i, Aff fun x => g x i) (i : Fin (a + b)) : Aff fun x => Fin.append (f x) (g x) i := by
  refine Fin.addCases (fun j => ?_) (fun j => ?_) i
  · exact (hf j).congr fun x => by rw [Fin.append_left]
  · exact (hg j).congr fun x => by rw [Fin.append_right]

theorem getX_aff (h : F.model.npoi = 0 ∨ F.model.allowNeg = true) (i : Fin F.n) :
    Aff fun x : Fin F.n → ℝ => getX F.cfg F.mask F.off x x i :=
  append_aff (fun i => append_aff (poi_aff F h) (nui_aff F) i) (theta_aff' F) i

/-- for a fit flagged linear the rates are affine in the fit parameters -/
theorem rates_aff (hm : Spec.affine F.model) (h : F.model.npoi = 0 ∨ F.model.allowNeg = true) (full : Bool) (b p : Nat) :
    ∃ f : (Fin F.n → ℝ) → ℝ, Aff f ∧ ∀ x r, F.model.compute (F.params x) full = .ok r → r.at b p = f x := by
  obtain ⟨a, k, hak⟩ := hm full
  refine ⟨fun x => a b p + ∑ i, k b p i * Fin.append (getPoi F.cfg F.mask F.off x x) (getNui F.cfg F.mask x x) i,
    (Aff.const _).add (Aff.sum _ fun i _ => Aff.mul_left _ (append_aff (poi_aff F h) (nui_aff F) i)), fun x r hr => ?_⟩
  have : F.params x = List.ofFn (Fin.append (getPoi F.cfg F.mask F.off x x) (getNui F.cfg F.mask x x)) := by
    rw [List.ofFn_fin_append]; rfl
  rw [this] at hr
  exact hak _ r hr b p

/-- flags of the tensor needed -/
structure Lin (F : Fitter) : Prop where
  model : Spec.affine F.model
  poi : F.model.npoi = 0 ∨ F.model.allowNeg = true
  symm : F.shape.symmetric = true
  normal : F.shape.logNormal = false

theorem mtheta_aff (hF : Lin F) (c : Nat) : Aff fun x : Fin F.n → ℝ => mtheta F.shape (F.theta x) c :=
  (theta_aff F c).congr fun x => by unfold mtheta; rw [if_pos hF.symm]

theorem yields_aff (hF : Lin F) (full : Bool) :
    ∃ (E : Nat → (Fin F.n → ℝ) → ℝ) (N : Nat → Nat → (Fin F.n → ℝ) → ℝ), (∀ b, Aff (E b)) ∧ (∀ b p, Aff (N b p)) ∧
      ∀ x nexp norm, F.yields full (F.params x) (F.theta x) = .ok (nexp, norm) →
        (∀ b, nexp b = E b x) ∧ ∀ b p, norm b p = N b p x := by
  choose R hR1 hR2 using fun b p => rates_aff F hF.model hF.poi full b p
  have hat : ∀ (r : ParamModels.Rates ℝ) b p,
      (⟨r.rows, fun b p => r.val b (if r.cols = 1 then 0 else p)⟩ : Yields.Rates).at b p = r.at b p := fun r b p => by
    unfold Yields.Rates.at ParamModels.Rates.at
    dsimp only
    by_cases h : r.rows = 1 <;> simp [h]
  cases hb : F.body with
  | dense d =>
    set d' := d.scaled F.shape F.model.nparams F.rinit with hd'
    have hY : ∀ b p, Aff fun x : Fin F.n → ℝ => d'.norm b p * R b p x + d'.logsnorm F.shape (F.theta x) b p := fun b p => by
      refine ((hR1 b p).mul_left _).add ?_
      unfold Dense.logsnorm
      exact Aff.sum _ fun c _ => (mtheta_aff F hF c).mul_left _
    refine ⟨fun b x => ∑ p ∈ Finset.range F.shape.nproc, (d'.norm b p * R b p x + d'.logsnorm F.shape (F.theta x) b p),
      fun b p x => d'.norm b p * R b p x + d'.logsnorm F.shape (F.theta x) b p, fun b => Aff.sum _ fun p _ => hY b p, hY,
      fun x nexp norm h => ?_⟩
    unfold Fitter.yields at h
    rw [hb] at h
    split at h
    · exact nomatch h
    · rename_i r hr
      by_cases hc : r.cols = 1 ∨ r.cols = F.shape.nproc
      · rw [if_pos hc] at h
        dsimp only at h
        unfold Dense.compute at h
        by_cases hw : (⟨r.rows, fun b p => r.val b (if r.cols = 1 then 0 else p)⟩ : Yields.Rates).rows = 1 ∨
          (⟨r.rows, fun b p => r.val b (if r.cols = 1 then 0 else p)⟩ : Yields.Rates).rows = F.shape.rowsOut full
        · rw [if_pos hw] at h
          cases h
          have : ∀ b p, d'.yield F.shape ⟨r.rows, fun b p => r.val b (if r.cols = 1 then 0 else p)⟩ (F.theta x) b p =
              d'.norm b p * R b p x + d'.logsnorm F.shape (F.theta x) b p := fun b p => by
            unfold Dense.yield
            rw [hF.normal, hat, hR2 b p x r hr]
            simp
          exact ⟨fun b => Finset.sum_congr rfl fun p _ => this b p, this⟩
        · rw [if_neg hw] at h; exact nomatch h
      · rw [if_neg hc] at h; exact nomatch h
  | sparse t =>
    set t' := t.scaled F.shape F.model.nparams F.rinit with ht'
    have hY : ∀ (e : (Nat × Nat × ℝ) × Nat), Aff fun x : Fin F.n → ℝ =>
        e.1.2.2 * R e.1.1 e.1.2.1 x + t'.logsnorm F.shape (F.theta x) e.2 := fun e => by
      refine ((hR1 _ _).mul_left _).add ?_
      unfold Sparse.logsnorm
      exact Aff.listSum _ fun c _ => (mtheta_aff F hF _).mul_left _
    set L : List ((Nat × Nat × ℝ) × Nat) :=
      if (!full && decide (F.shape.nbinsfull ≠ F.shape.nbins)) = true then t'.norm.zipIdx.filter fun e => e.1.1 < F.shape.nbins
      else t'.norm.zipIdx with hL
    refine ⟨fun b x => ((L.filter fun e => e.1.1 == b).map fun e =>
        e.1.2.2 * R e.1.1 e.1.2.1 x + t'.logsnorm F.shape (F.theta x) e.2).sum,
      fun b p x => ((L.filter fun e => e.1.1 == b && e.1.2.1 == p).map fun e =>
        e.1.2.2 * R e.1.1 e.1.2.1 x + t'.logsnorm F.shape (F.theta x) e.2).sum,
      fun b => Aff.listSum _ fun e _ => hY e, fun b p => Aff.listSum _ fun e _ => hY e,
      fun x nexp norm h => ?_⟩
    unfold Fitter.yields at h
    rw [hb] at h
    split at h
    · exact nomatch h
    · rename_i r hr
      by_cases hc : r.cols = 1 ∨ r.cols = F.shape.nproc
      · rw [if_pos hc] at h
        dsimp only at h
        unfold Sparse.compute at h
        by_cases hw : (⟨r.rows, fun b p => r.val b (if r.cols = 1 then 0 else p)⟩ : Yields.Rates).rows = 1 ∨
          (⟨r.rows, fun b p => r.val b (if r.cols = 1 then 0 else p)⟩ : Yields.Rates).rows = F.shape.nbinsfull
        · rw [if_pos hw] at h
          cases h
          set G : ((Nat × Nat × ℝ) × Nat) → Nat × Nat × ℝ := fun e => (e.1.1, e.1.2.1,
            e.1.2.2 * R e.1.1 e.1.2.1 x + t'.logsnorm F.shape (F.theta x) e.2) with hG
          have hv : t'.values F.shape ⟨r.rows, fun b p => r.val b (if r.cols = 1 then 0 else p)⟩ (F.theta x) =
              t'.norm.zipIdx.map G := by
            unfold Sparse.values
            refine List.map_congr_left fun e _ => ?_
            obtain ⟨e, i⟩ := e
            dsimp only
            rw [hF.normal, hat, hR2 _ _ x r hr]
            simp [hG]
          have hv' : (if (!full && decide (F.shape.nbinsfull ≠ F.shape.nbins)) = true then
              (t'.norm.zipIdx.map G).filter fun e => decide (e.1 < F.shape.nbins) else t'.norm.zipIdx.map G) = L.map G := by
            rw [hL]
            split
            · rw [List.filter_map]; rfl
            · rfl
          rw [hv, hv']
          refine ⟨fun b => ?_, fun b p => ?_⟩
          · dsimp only
            rw [List.filter_map, List.map_map]; rfl
          · dsimp only
            rw [List.filter_map, List.map_map]; rfl
        · rw [if_neg hw] at h; exact nomatch h
      · rw [if_neg hc] at h; exact nomatch h

end chain

/-! ### β, data term, constraints, regularisation -/

section terms
variable (F : Fitter)

/-- fit types for which the flag can be set -/
def gaussian (f : Fit) : Prop := f = .chisq ∨ f = .covariance

theorem betaLite_aff {s : Stat} (hk : s.kind = .normAdd) (hf : gaussian F.fit) {N : Nat → Nat → (Fin F.n → ℝ) → ℝ}
    (hN : ∀ b p, Aff (N b p)) (b : Nat) : Aff fun x => F.betaLite s (fun b p => N b p x) b := by
  have hE : ∀ b, Aff fun x => (F.liteBin s (fun b p => N b p x) b).nexp := fun b => by
    unfold LiteBin.nexp Fitter.liteBin
    exact Aff.sum _ fun p _ => hN b p
  unfold Fitter.betaLite
  by_cases hb : b < F.shape.nbins
  · simp only [dif_pos hb, hk]
    rcases hf with hf | hf <;> rw [hf]
    · unfold LiteBin.profile
      dsimp only
      have : ∀ x, (F.liteBin s (fun b p => N b p x) b).varbeta = ∑ p : Fin F.shape.nproc, s.sumw2 b p := fun _ => rfl
      simp only [this]
      show Aff fun x => (√(∑ p : Fin F.shape.nproc, s.sumw2 b p) * (F.nobs b - (F.liteBin s (fun b p => N b p x) b).nexp) +
        F.varnobs b * s.beta0 b 0) / (F.varnobs b + ∑ p : Fin F.shape.nproc, s.sumw2 b p)
      exact ((((Aff.const _).sub (hE b)).mul_left _).add (Aff.const _)).div _
    · dsimp only
      unfold CovLite.profileAdd
      have h1 : ∀ x, (F.covLite s (fun b p => N b p x)).matAdd = (F.covLite s (fun _ _ => 0)).matAdd := fun _ => rfl
      simp only [h1]
      refine Aff.mulVec _ (fun j => ?_) _
      simp only [Pi.add_apply]
      refine Aff.add ?_ (Aff.const _)
      have h2 : ∀ x, (fun i => √((F.covLite s (fun b p => N b p x)).varbeta i)) =
        fun i => √((F.covLite s (fun _ _ => 0)).varbeta i) := fun _ => rfl
      simp only [h2]
      refine Aff.mulVec _ (fun j => Aff.mulVec _ (fun j => ?_) _) _
      exact (Aff.const _).sub (hE j)
  · exact (Aff.const _).congr fun x => by rw [dif_neg hb]

theorem betaFull_aff {s : Stat} (hk : s.kind = .normAdd) (hf : gaussian F.fit) {N : Nat → Nat → (Fin F.n → ℝ) → ℝ}
    (hN : ∀ b p, Aff (N b p)) (b : Nat) :
    ∃ B : Fin F.shape.nproc → (Fin F.n → ℝ) → ℝ, (∀ p, Aff (B p)) ∧
      ∀ x, F.betaFull s (fun b p => N b p x) b = some fun p => B p x := by
  unfold Fitter.betaFull
  by_cases hb : b < F.shape.nbins
  · simp only [dif_pos hb, hk]
    rcases hf with hf | hf <;> rw [hf]
    · dsimp only
      unfold FullBin.profile
      dsimp only
      have hE : Aff fun x => (F.fullBin s (fun b p => N b p x) b).nexp := by
        unfold FullBin.nexp Fitter.fullBin
        exact Aff.sum _ fun p _ => hN b p
      refine ⟨_, fun p => ?_, fun x => rfl⟩
      have hV : ∀ x, (F.fullBin s (fun b p => N b p x) b).varsum = ∑ p : Fin F.shape.nproc, s.sumw2 b p := fun _ => rfl
      simp only [hV]
      show Aff fun x => s.beta0 b p - √(s.sumw2 b p) * (((F.fullBin s (fun b p => N b p x) b).nexp +
        ((∑ p : Fin F.shape.nproc, √(s.sumw2 b p) * s.beta0 b p) + (∑ p : Fin F.shape.nproc, s.sumw2 b p) / F.varnobs b *
          (F.nobs b - (F.fullBin s (fun b p => N b p x) b).nexp)) /
          (1 + (∑ p : Fin F.shape.nproc, s.sumw2 b p) / F.varnobs b) - F.nobs b) / F.varnobs b)
      refine (Aff.const _).sub (Aff.mul_left _ (Aff.div _ (Aff.sub (hE.add (Aff.div _ ?_)) (Aff.const _))))
      exact (Aff.const _).add (((Aff.const _).sub hE).mul_left _)
    · dsimp only
      refine ⟨_, fun p => ?_, fun x => rfl⟩
      have hE : ∀ i : Fin F.shape.nbins, Aff fun x => ∑ p, (F.covFull s (fun b p => N b p x)).norm i p :=
        fun i => Aff.sum _ fun p _ => hN i p
      refine Aff.sub (f := fun _ => s.beta0 b p) (Aff.const _) (Aff.mul_left (√(s.sumw2 b p)) (Aff.mulVec F.W (fun j => ?_) _))
      refine Aff.sub (Aff.add ?_ (hE j)) (Aff.const _)
      refine Aff.mulVec (diagonal (fun i : Fin F.shape.nbins => ∑ p : Fin F.shape.nproc, s.sumw2 i p) * F.W + 1)⁻¹ (fun j => ?_) j
      refine Aff.add ?_ (Aff.const (∑ p : Fin F.shape.nproc, √(s.sumw2 j p) * s.beta0 j p))
      refine Aff.mulVec (diagonal (fun i : Fin F.shape.nbins => ∑ p : Fin F.shape.nproc, s.sumw2 i p)) (fun j => ?_) j
      refine Aff.mulVec F.W (fun j => ?_) j
      exact (Aff.const _).sub (hE j)
  · exact ⟨fun p _ => s.beta0 b p, fun p => Aff.const _, fun x => by rw [dif_neg hb]⟩

theorem applied_add {P : Type*} [Fintype P] (b : LiteBin P) (β : ℝ) (h : b.varbeta ≠ 0 → 0 < b.nActive) :
    b.applied .normAdd β = b.nexp + √b.varbeta * β := by
  unfold LiteBin.applied LiteBin.apply
  dsimp only
  rw [Finset.sum_add_distrib, ← Finset.sum_div, ← Finset.mul_sum]
  by_cases hv : b.varbeta = 0
  · rw [hv]; simp [LiteBin.nexp]
  · have hA := h hv
    rw [if_pos hA]
    have : (∑ p, if b.sumw2 p = 0 then 0 else b.norm p) = b.nActive := rfl
    rw [this, mul_div_assoc, div_self hA.ne', mul_one]
    rfl

/-- yields and constraint term of β: affine and quadratic -/
theorem withBeta_quad (hs : F.statLinear = true) (hf : gaussian F.fit) {E : Nat → (Fin F.n → ℝ) → ℝ}
    {N : Nat → Nat → (Fin F.n → ℝ) → ℝ} (hE : ∀ b, Aff (E b)) (hN : ∀ b p, Aff (N b p)) :
    ∃ (A : Nat → (Fin F.n → ℝ) → ℝ) (L : Option ((Fin F.n → ℝ) → ℝ)), (∀ b, Aff (A b)) ∧ (∀ l, L = some l → Qd l) ∧
      ∀ x, (∀ s, F.stat = some s → s.mode = .lite → ∀ b, (∑ p : Fin F.shape.nproc, s.sumw2 b p) ≠ 0 →
          0 < ∑ p : Fin F.shape.nproc, if s.sumw2 b p = 0 then 0 else N b p x) →
        F.withBeta (fun b => E b x) (fun b p => N b p x) = some (fun b => A b x, L.map fun l => l x) := by
  unfold Fitter.statLinear at hs
  cases hst : F.stat with
  | none =>
    refine ⟨E, none, hE, by simp, fun x _ => ?_⟩
    unfold Fitter.withBeta; rw [hst]; rfl
  | some s =>
    rw [hst] at hs
    have hk : s.kind = .normAdd := by simpa using hs
    cases hm : s.mode with
    | lite =>
      have hB := fun b => betaLite_aff F hk hf hN b
      refine ⟨fun b x => (∑ p : Fin F.shape.nproc, N b p x) + √(∑ p : Fin F.shape.nproc, s.sumw2 b p) *
          F.betaLite s (fun b p => N b p x) b,
        some fun x => ∑ b ∈ Finset.range F.shape.nbinsfull, 1 / 2 * (F.betaLite s (fun b p => N b p x) b - s.beta0 b 0) ^ 2,
        fun b => (Aff.sum Finset.univ fun (p : Fin F.shape.nproc) _ => hN b p).add ((hB b).mul_left _), fun l h => ?_, fun x hx => ?_⟩
      · cases h
        exact Qd.sum _ fun b _ => (((hB b).sub (Aff.const _)).sq).mul_left _
      · unfold Fitter.withBeta
        rw [hst]
        dsimp only
        rw [hm]
        dsimp only
        have h1 : ∀ b, (F.liteBin s (fun b p => N b p x) b).applied .normAdd (F.betaLite s (fun b p => N b p x) b) =
            (∑ p : Fin F.shape.nproc, N b p x) + √(∑ p : Fin F.shape.nproc, s.sumw2 b p) *
              F.betaLite s (fun b p => N b p x) b := fun b => by
          rw [applied_add (F.liteBin s (fun b p => N b p x) b) _ fun hv => hx s rfl hm b hv]
          rfl
        simp only [hk, h1, lbeta, Option.map_some]
    | full =>
      choose B hB1 hB2 using fun b => betaFull_aff F hk hf hN b
      refine ⟨fun b x => ∑ p : Fin F.shape.nproc, (N b p x + √(s.sumw2 b p) * B b p x),
        some fun x => ∑ b ∈ Finset.range F.shape.nbinsfull, ∑ p : Fin F.shape.nproc, 1 / 2 * (B b p x - s.beta0 b p) ^ 2,
        fun b => Aff.sum _ fun p _ => (hN b p).add ((hB1 b p).mul_left _), fun l h => ?_, fun x hx => ?_⟩
      · cases h
        exact Qd.sum _ fun b _ => Qd.sum _ fun p _ => (((hB1 b p).sub (Aff.const _)).sq).mul_left _
      · unfold Fitter.withBeta
        rw [hst]
        dsimp only
        rw [hm]
        dsimp only
        have h1 : ∀ b, F.betaFull s (fun b p => N b p x) b = some fun p => B b p x := fun b => hB2 b x
        simp only [h1, hk]
        rw [if_pos (fun _ _ => by rfl)]
        simp only [Option.getD_some, Option.map_some, lbeta]
        rfl

theorem ln_quad (hf : gaussian F.fit) {A : Nat → (Fin F.n → ℝ) → ℝ} (hA : ∀ b, Aff (A b)) : Qd fun x => F.ln fun b => A b x := by
  unfold Fitter.ln
  rcases hf with hf | hf <;> rw [hf] <;> dsimp only
  · unfold lnChisq
    exact (Qd.sum Finset.univ fun (b : Fin F.shape.nbins) _ => (((hA b).sub (Aff.const (F.nobs b))).sq).div (F.varnobs b)).mul_left _
  · unfold lnCov
    refine Qd.mul_left _ ?_
    unfold dotProduct
    refine Qd.sum _ fun b _ => Aff.mul ((Aff.const _).sub (hA b)) (Aff.mulVec _ (fun j => ?_) b)
    exact (Aff.const _).sub (hA j)

theorem lc_quad (h : F.model.npoi = 0 ∨ F.model.allowNeg = true) :
    Qd fun x : Fin F.n → ℝ => lc false F.cw F.x0 (getX F.cfg F.mask F.off x x) := by
  unfold lc
  refine Qd.sum _ fun i _ => Qd.add (Qd.mul_left _ (((getX_aff F h i).sub (Aff.const _)).sq)) ?_
  exact (Qd.const 0).congr fun x => by simp

theorem ext_quad : ∃ L : Option ((Fin F.n → ℝ) → ℝ), (∀ l, L = some l → Qd l) ∧
    ∀ x : Fin F.n → ℝ, Ext.computeExternal F.ext (List.ofFn x) = L.map fun l => l x := by
  unfold Ext.computeExternal
  cases F.ext.isEmpty with
  | true => exact ⟨none, by simp, fun x => rfl⟩
  | false => exact ⟨some _, fun l h => by cases h; exact quad_external F.ext, fun x => rfl⟩

open Classical in
/-- one regularizer with an affine mapping -/
theorem penalty_quad (r : Svd ℝ × Grid.Tensor ℝ) (hr : Spec.affineMapping F.shape.nbinsfull r.1.mapping.flat)
    {A : Nat → (Fin F.n → ℝ) → ℝ} (hA : ∀ b, Aff (A b)) :
    ∃ P : (Fin F.n → ℝ) → ℝ, Qd P ∧ ∀ x v,
      r.1.penalty r.2 ⟨[F.shape.nbinsfull], fun i => A (i.getD 0 0) x⟩ = .ok v → v = P x := by
  obtain ⟨a, s, k, hak⟩ := hr
  set T : List Nat → (Fin F.n → ℝ) → ℝ := fun i x => if r.2.val i ≠ 0 then
    (if Grid.ravel r.1.shape i < r.1.shape.prod then a (Grid.ravel r.1.shape i) +
      ∑ j ∈ s (Grid.ravel r.1.shape i), k (Grid.ravel r.1.shape i) j * A j x else 0) / r.2.val i else 1 with hT
  have hT' : ∀ i, Aff (T i) := fun i => by
    simp only [hT]
    by_cases h0 : r.2.val i ≠ 0
    · by_cases h1 : Grid.ravel r.1.shape i < r.1.shape.prod
      · simp only [if_pos h0, if_pos h1]
        exact ((Aff.const _).add (Aff.sum _ fun j _ => (hA j).mul_left _)).div _
      · simp only [if_pos h0, if_neg h1]
        exact (Aff.const 0).div _
    · simp only [if_neg h0]
      exact Aff.const 1
  have hC : ∀ i, Aff fun x => ((Grid.grid (List.replicate r.1.shape.length 3)).map fun o =>
      (kernel o : ℝ) * T (List.zipWith source r.1.shape (List.zipWith (· + ·) i o)) x).sum := fun i =>
    Aff.listSum _ fun o _ => (hT' _).mul_left _
  refine ⟨_, Qd.listSum (Grid.grid r.1.shape) fun i _ => (hC i).mul (hC i), fun x v h => ?_⟩
  unfold Svd.penalty at h
  split at h
  · exact nomatch h
  · rename_i l hl
    unfold Grid.ofFlat at h
    by_cases hlen : l.length = r.1.shape.prod
    · rw [if_pos hlen] at h
      dsimp only at h
      split at h
      · exact nomatch h
      · cases h
        have hval := hak (fun j => A j x) l hl
        have ht : ∀ i, (ratioTo r.2 ⟨r.1.shape, fun i => l.getD (Grid.ravel r.1.shape i) 0⟩).val i = T i x := fun i => by
          unfold ratioTo
          simp only [hT]
          by_cases h0 : r.2.val i ≠ 0
          · rw [if_pos h0, if_pos h0]
            by_cases h1 : Grid.ravel r.1.shape i < r.1.shape.prod
            · rw [if_pos h1, hval _ (by omega)]
            · rw [if_neg h1, List.getD_eq_getElem?_getD, List.getElem?_eq_none (by omega)]; rfl
          · rw [if_neg h0, if_neg h0]
        unfold curvature
        simp only [ht]
        rfl
    · rw [if_neg hlen] at h; exact nomatch h

theorem penalties_quad (rs : List (Svd ℝ × Grid.Tensor ℝ))
    (hr : ∀ r ∈ rs, Spec.affineMapping F.shape.nbinsfull r.1.mapping.flat) {A : Nat → (Fin F.n → ℝ) → ℝ} (hA : ∀ b, Aff (A b)) :
    ∃ Ps : List ((Fin F.n → ℝ) → ℝ), Ps.length = rs.length ∧ (∀ P ∈ Ps, Qd P) ∧
      ∀ x vs, F.penalties (fun b => A b x) rs = .ok vs → vs = Ps.map fun P => P x := by
  induction rs with
  | nil => exact ⟨[], rfl, by simp, fun x vs h => by cases h; rfl⟩
  | cons r rs ih =>
    obtain ⟨Ps, h0, h1, h2⟩ := ih fun r hr' => hr r (by simp [hr'])
    obtain ⟨P, h3, h4⟩ := penalty_quad F r (hr r (by simp)) hA
    refine ⟨P :: Ps, by simp [h0], fun Q hQ => ?_, fun x vs h => ?_⟩
    · rcases List.mem_cons.1 hQ with rfl | hQ
      · exact h3
      · exact h1 Q hQ
    · unfold Fitter.penalties at h
      split at h
      · exact nomatch h
      · rename_i v hv
        split at h
        · exact nomatch h
        · rename_i vs' hvs
          cases h
          rw [h4 x v hv, h2 x vs' hvs]; rfl

end terms

/-! ### property theorems -/

/-- C99: in a fit that is flagged linear for its structure (not by `--forceLinear`), with a parameter model whose own flag is
right and with regularizers of affine mappings only, the loss is one quadratic polynomial of the fit parameters and always a
number: at every point without bin-by-bin treatment and in its full mode, in the lite mode wherever every bin with a
statistical uncertainty has a positive yield to attach it to.  Frozen parameters, blinding, priors, masked bins and external
terms are included. -/
theorem c99_quadratic_partial (F : Fitter) (hm : Spec.sound F.model) (hf : F.force = false) (hl : F.isLinear = true)
    (hr : ∀ r ∈ F.regs, Spec.affineMapping F.shape.nbinsfull r.1.mapping.flat) :
    Spec.quadraticOn (Spec.active F) F.loss := by
  unfold Fitter.isLinear at hl
  rw [hf] at hl
  simp only [Bool.false_or, Bool.and_eq_true, Bool.or_eq_true, beq_iff_eq, Bool.not_eq_true'] at hl
  obtain ⟨⟨⟨⟨h1, h2⟩, h3⟩, h4⟩, h5⟩ := hl
  obtain ⟨hm1, hm2⟩ := hm h2
  obtain ⟨E, N, hE, hN, hy⟩ := yields_aff F ⟨hm1, hm2, h3, h4⟩ (!F.regs.isEmpty)
  obtain ⟨A, L, hA, hL, hb⟩ := withBeta_quad F h5 h1 hE hN
  obtain ⟨X, hX, hx⟩ := ext_quad F
  obtain ⟨Ps, hP0, hP, hp⟩ := penalties_quad F F.regs hr hA
  have hpen : ∃ Q : Option ((Fin F.n → ℝ) → ℝ), (∀ l, Q = some l → Qd l) ∧
      ∀ x : Fin F.n → ℝ, penaltyTerm F.tau2 (Ps.map fun P => P x) = Q.map fun l => l x := by
    unfold penaltyTerm
    cases hPs : Ps with
    | nil => exact ⟨none, by simp, fun x => by simp⟩
    | cons P Ps' =>
      refine ⟨some fun x => (Ps.map fun P => P x * F.tau2).sum, fun l h => ?_, fun x => ?_⟩
      · cases h
        exact Qd.listSum _ fun P hP' => (hP P hP').mul_right _
      · rw [if_neg (by simp), hPs, List.map_map]
        rfl
  obtain ⟨Q, hQ, hq⟩ := hpen
  have hopt : ∀ {a : (Fin F.n → ℝ) → ℝ} (O : Option ((Fin F.n → ℝ) → ℝ)), Qd a → (∀ l, O = some l → Qd l) →
      Qd fun x => (match O.map fun l => l x with
        | some b => a x + b
        | none => a x) := fun {a} O ha hO => by
    cases O with
    | none => exact ha
    | some l => exact ha.add (hO l rfl)
  have hall : Qd fun x : Fin F.n → ℝ => nllTotal (F.ln fun b => A b x) (lc false F.cw F.x0 (getX F.cfg F.mask F.off x x))
      (L.map fun l => l x) (Q.map fun l => l x) (X.map fun l => l x) :=
    hopt X (hopt Q (hopt L ((ln_quad F h1 hA).add (lc_quad F hm2)) hL) hQ) hX
  refine quadraticOn_of hall fun x hD v hv => ?_
  unfold Fitter.loss at hv
  split at hv
  · exact nomatch hv
  · rename_i nexp norm hyx
    obtain ⟨e1, e2⟩ := hy x nexp norm hyx
    have e1' : nexp = fun b => E b x := funext e1
    have e2' : norm = fun b p => N b p x := funext fun b => funext fun p => e2 b p
    have hact := hD nexp norm hyx
    subst e1' e2'
    rw [hb x hact] at hv
    dsimp only at hv
    split at hv
    · exact nomatch hv
    · rename_i ps hps
      cases hv
      rw [hp x ps hps, hq x, hx x]

/-- C99 at every point: without bin-by-bin treatment, or with one parameter per bin and process. -/
theorem c99_everywhere (F : Fitter) (hm : Spec.sound F.model) (hf : F.force = false) (hl : F.isLinear = true)
    (hr : ∀ r ∈ F.regs, Spec.affineMapping F.shape.nbinsfull r.1.mapping.flat)
    (hs : ∀ s, F.stat = some s → s.mode = .full) : Spec.quadraticOn (fun _ => True) F.loss := by
  obtain ⟨c, g, H, hH, h⟩ := c99_quadratic_partial F hm hf hl hr
  refine ⟨c, g, H, hH, fun x _ v hv => h x ?_ v hv⟩
  intro nexp norm _ s hst hmode
  rw [hs s hst] at hmode
  exact nomatch hmode

/-! ### where the flag is wrong -/

/-- C99, one step: if moreover the loss is a number everywhere and curved upwards in every direction, then the single step of
the linear branch, from every starting point and without frozen parameters, ends at the unique minimum of the loss. -/
theorem c99_one_step (F : Fitter) (hm : Spec.sound F.model) (hf : F.force = false) (hl : F.isLinear = true)
    (hr : ∀ r ∈ F.regs, Spec.affineMapping F.shape.nbinsfull r.1.mapping.flat)
    (hs : ∀ s, F.stat = some s → s.mode = .full) (hx : ∀ x, ∃ v, F.loss x = .ok v)
    (hc : ∀ x d : Fin F.n → ℝ, d ≠ 0 → ∀ u v w, F.loss x = .ok (some u) → F.loss (x + d) = .ok (some v) →
      F.loss (x - d) = .ok (some w) → 2 * u < v + w) :
    ∃ (ℓ : (Fin F.n → ℝ) → ℝ) (q : Cov.Quad F.n), (∀ x, F.loss x = .ok (some (ℓ x))) ∧ q.H.IsSymm ∧ (∀ x, q.val x = ℓ x) ∧
      ∀ x, ∃ x', Cov.minimizeDense q (fun _ => false) x = .ok x' ∧ ∀ y, y ≠ x' → ℓ x' < ℓ y := by
  obtain ⟨c, g, H, hH, h⟩ := c99_everywhere F hm hf hl hr hs
  set q : Cov.Quad F.n := ⟨c, g, H⟩ with hq
  have hv : ∀ x, F.loss x = .ok (some (q.val x)) := fun x => by
    obtain ⟨v, hv⟩ := hx x
    rw [hv, h x trivial v hv, Cov.Quad.val]
    have : x ⬝ᵥ H *ᵥ x = ∑ i, ∑ j, H i j * x i * x j := by
      simp only [dotProduct, Matrix.mulVec, Finset.mul_sum]
      exact Finset.sum_congr rfl fun i _ => Finset.sum_congr rfl fun j _ => by ring
    rw [hq]
    dsimp only
    rw [this]
    rfl
  refine ⟨q.val, q, hv, hH, fun _ => rfl, fun x => ?_⟩
  have hpos : Cov.Spec.posOnFloating (fun _ : Fin F.n => false = true) q.H := fun z _ hz => by
    have := hc 0 z hz _ _ _ (hv 0) (hv (0 + z)) (hv (0 - z))
    rw [zero_add, zero_sub] at this
    have e := Cov.quadForm_eq q.H z
    unfold Cov.Quad.val at this
    rw [dotProduct_neg, Matrix.mulVec_neg, neg_dotProduct_neg] at this
    simp only [dotProduct_zero, Matrix.mulVec_zero] at this
    rw [← e]
    linarith
  obtain ⟨x', h1, -, h2⟩ := Cov.c36_dense_partial q hH (fun _ => false) (fun _ => rfl) hpos x
  exact ⟨x', h1, fun y hy => h2 y (fun i hi => nomatch hi) hy⟩

/-! ### which mappings are affine -/

/-- C99 for regularizers: the selection of bins, with rebinning and sums over axes, is affine in the bins. -/
theorem c99_select (nb : Nat) (m : Mappings.ChanMapping ℝ) : Spec.affineMapping nb (Mappings.selectFlat m) := by
  let _ : Div (ℕ →₀ ℝ) := ⟨fun a _ => a⟩
  rcases hw : (LinearMapping.reterm (W := ℕ →₀ ℝ) m.term).select (LinearMapping.symb nb) false true with e | t
  · refine ⟨fun _ => 0, fun _ => ∅, fun _ _ => 0, fun y l h => ?_⟩
    unfold Mappings.selectFlat at h
    rw [← LinearMapping.insert_symb, LinearMapping.mp_select (LinearMapping.insert y)
      (LinearMapping.reterm m.term) m.term rfl rfl rfl rfl rfl rfl rfl, hw] at h
    exact nomatch h
  · refine ⟨fun _ => 0, fun i => (t.flat.getD i 0).support, fun i j => t.flat.getD i 0 j, fun y l h i hi => ?_⟩
    unfold Mappings.selectFlat at h
    rw [← LinearMapping.insert_symb, LinearMapping.mp_select (LinearMapping.insert y)
      (LinearMapping.reterm m.term) m.term rfl rfl rfl rfl rfl rfl rfl, hw] at h
    cases h
    rw [LinearMapping.mp_flat, zero_add, LinearMapping.getD_map]
    rfl

/-- C99 for regularizers: the projection on axes is affine in the bins; the normalised one is not
(`c99_regularised_violated`). -/
theorem c99_project (nb : Nat) (p : Mappings.Project ℝ) : Spec.affineMapping nb (p.flat false) := by
  let _ : Div (ℕ →₀ ℝ) := ⟨fun a _ => a⟩
  set p' : Mappings.Project (ℕ →₀ ℝ) := ⟨LinearMapping.reterm p.term, p.projIdxs, p.transposeIdxs, p.hasData, []⟩ with hp'
  have hcomp : ∀ y : Nat → ℝ, p.compute false true ⟨[nb], fun i => y (i.getD 0 0)⟩ =
      LinearMapping.mpR (LinearMapping.insert y) (p'.compute false true (LinearMapping.symb nb)) := fun y => by
    unfold Mappings.Project.compute
    rw [← LinearMapping.insert_symb, LinearMapping.mp_select (LinearMapping.insert y) p'.term p.term rfl rfl rfl rfl rfl rfl rfl]
    cases p'.term.select (LinearMapping.symb nb) false true with
    | error e => rfl
    | ok t => exact LinearMapping.mp_project (LinearMapping.insert y) p' p rfl rfl t
  rcases hw : p'.compute false true (LinearMapping.symb nb) with e | t
  · refine ⟨fun _ => 0, fun _ => ∅, fun _ _ => 0, fun y l h => ?_⟩
    unfold Mappings.Project.flat at h
    rw [hcomp, hw] at h
    exact nomatch h
  · refine ⟨fun _ => 0, fun i => (t.flat.getD i 0).support, fun i j => t.flat.getD i 0 j, fun y l h i hi => ?_⟩
    unfold Mappings.Project.flat at h
    rw [hcomp, hw] at h
    cases h
    rw [LinearMapping.mp_flat, zero_add, LinearMapping.getD_map]
    rfl

theorem quad_line {n : ℕ} {f : (Fin n → ℝ) → Res (Option ℝ)} (h : Spec.quadraticOn (fun _ => True) f) :
    ∃ c g k : ℝ, ∀ m v, f (fun _ => m) = .ok (some v) → v = c + g * m + k * m ^ 2 := by
  obtain ⟨c, g, H, -, h⟩ := h
  refine ⟨c, ∑ i, g i, 1 / 2 * ∑ i, ∑ j, H i j, fun m v hv => ?_⟩
  have := Option.some.inj (h _ trivial _ hv)
  rw [this, Finset.sum_mul, mul_assoc, Finset.sum_mul]
  congr 2
  refine Finset.sum_congr rfl fun i _ => ?_
  rw [Finset.sum_mul]
  exact Finset.sum_congr rfl fun j _ => by ring

namespace Ex

/-- one bin, one process scaled by a signal strength that may be negative, additive bin-by-bin uncertainty, one parameter per
bin -/
def oneBin : Fitter where
  model := SatTest.muModel 1 ["s"] [1] true
  shape := ⟨1, 1, 1, 0, true, false⟩
  body := .dense ⟨fun _ _ => 1, fun _ _ _ _ => 0⟩
  rinit := ⟨1, fun _ _ => 1⟩
  fit := .chisq
  nobs := fun _ => 1
  varnobs := fun _ => 1
  W := 1
  stat := some ⟨.lite, .normAdd, fun _ _ => 1, fun _ _ => 1, fun _ _ => 0, 0, fun _ _ _ => 0⟩
  doBlinding := false
  off := ⟨fun _ => 1, fun _ => 0⟩
  mask := fun _ => false
  cw := fun _ => 0
  x0 := fun _ => 0
  regs := []
  tau2 := 1
  ext := []
  force := false

/-- the signal strength `m` -/
def pt (m : ℝ) : Fin oneBin.n → ℝ := fun _ => m

theorem oneBin_params (m : ℝ) : oneBin.params (pt m) = [m] := by
  simp [Fitter.params, oneBin, pt, getPoi, SatTest.muModel, stopAt]
theorem oneBin_yields (m : ℝ) : ∃ nexp norm, oneBin.yields false [m] (oneBin.theta (pt m)) = .ok (nexp, norm) ∧ norm 0 0 = m := by
  refine ⟨_, _, rfl, ?_⟩
  simp [Dense.yield, oneBin, Dense.scaled, PModel.nparams, SatTest.muModel, Dense.logsnorm, Shape.ncol, Yields.Rates.at]
theorem oneBin_loss (m : ℝ) : oneBin.loss (pt m) = .ok (some
    (1 / 2 * (m + (1 - m) / 2 * m / (if 0 < m then m else 1) - 1) ^ 2 + 1 / 2 * ((1 - m) / 2) ^ 2)) := by
  obtain ⟨nexp, norm, h1, h2⟩ := oneBin_yields m
  unfold Fitter.loss
  have h0 : (!oneBin.regs.isEmpty) = false := rfl
  rw [h0, oneBin_params, h1]
  have hn : ∀ i : Fin oneBin.shape.nproc, norm 0 i = m := fun i => by
    have : i.1 = 0 := by have := i.2; simp [oneBin] at this; exact this
    rw [this, h2]
  set st : Stat := ⟨.lite, .normAdd, fun _ _ => 1, fun _ _ => 1, fun _ _ => 0, 0, fun _ _ _ => 0⟩ with hs
  have hb : oneBin.betaLite st norm 0 = (1 - m) / 2 := by
    have : oneBin.betaLite st norm 0 =
      (√(∑ _p : Fin 1, (1 : ℝ)) * (1 - ∑ p : Fin 1, norm 0 p) + 1 * 0) / (1 + ∑ _p : Fin 1, (1 : ℝ)) := rfl
    rw [this]
    simp [h2]
    norm_num
  have ha : (oneBin.liteBin st norm 0).applied .normAdd ((1 - m) / 2) = m + (1 - m) / 2 * m / (if 0 < m then m else 1) := by
    have : (oneBin.liteBin st norm 0).applied .normAdd ((1 - m) / 2) = ∑ p : Fin 1, (norm 0 p + √(∑ _p : Fin 1, (1 : ℝ)) *
      ((1 - m) / 2) * (if (1 : ℝ) = 0 then 0 else norm 0 p) / (if (∑ p : Fin 1, if (1 : ℝ) = 0 then 0 else norm 0 p) > 0 then
        (∑ p : Fin 1, if (1 : ℝ) = 0 then 0 else norm 0 p) else 1)) := rfl
    rw [this]
    simp [h2]
  dsimp only
  unfold Fitter.withBeta
  rw [show oneBin.stat = some st from rfl]
  dsimp only
  show Except.ok (some (nllTotal (lnChisq (fun _ : Fin 1 => (1 : ℝ)) (fun _ => 1) fun b => (oneBin.liteBin st norm b).applied .normAdd
    (oneBin.betaLite st norm b)) (lc false oneBin.cw oneBin.x0 _) (some (∑ b ∈ Finset.range 1,
      lbeta .normAdd _ _ 0 (oneBin.betaLite st norm b))) none none)) = _
  have hcw : oneBin.cw = fun _ => 0 := rfl
  simp [nllTotal, lnChisq, lc, lbeta, hb, ha, hcw]



/-- a channel with one axis of two bins -/
def chanInp : ABCD.InData ℝ where
  procs := ["s", "b"]
  chans := [("ch", { axes := [{ name := "x", size := 2 }], start := 0 })]
  nbins := 2
  nbinsfull := 2
  norm := fun b p => if b = p then 1 else 0
/-- normalised to the sum of both bins -/
def normP : Mappings.Project ℝ where
  term := ⟨0, 2, [2], true, [], [.slc none none none], [], [], [{ name := "x", size := 2 }]⟩
  projIdxs := []
  transposeIdxs := [0]
  hasData := true
  info := [("ch", ⟨[{ name := "x", size := 2 }], false, ["s", "b"]⟩)]
/-- it is what the options `Normalize ch x` give -/
example : Mappings.projectInit chanInp "ch" ["x"] = .ok normP := by
  rfl

theorem normP_flat (y : Nat → ℝ) : normP.flat true ⟨[2], fun i => y (i.getD 0 0)⟩ = .ok [y 0 / (y 0 + (y 1 + 0)) + 0, y 1 / (y 0 + (y 1 + 0)) + 0] := by
  rfl

/-- the same as the object the regularizer holds -/
def normMp : Workspace.Mp ℝ where
  key := "Normalize ch x"
  info := [("ch", ⟨[{ name := "x", size := 2 }], false, false⟩)]
  flat := normP.flat true
  perProcess := fun _ => .ok []

/-- the signal strength scales the first bin; the second bin is fixed; curvature of the normalised distribution -/
def twoBin : Fitter where
  model := SatTest.muModel 2 ["s"] [1] true
  shape := ⟨2, 2, 2, 0, true, false⟩
  body := .dense ⟨fun b p => if b = p then 1 else 0, fun _ _ _ _ => 0⟩
  rinit := ⟨1, fun _ _ => 1⟩
  fit := .chisq
  nobs := fun _ => 1
  varnobs := fun _ => 1
  W := 1
  stat := none
  doBlinding := false
  off := ⟨fun _ => 1, fun _ => 0⟩
  mask := fun _ => false
  cw := fun _ => 0
  x0 := fun _ => 0
  regs := [(⟨normMp, [2]⟩, ⟨[2], fun _ => 1 / 2⟩)]
  tau2 := 1
  ext := []
  force := false

theorem norm_penalty [DecidableEq ℝ] (y : Nat → ℝ) : (⟨normMp, [2]⟩ : Svd ℝ).penalty ⟨[2], fun _ => 1 / 2⟩ ⟨[2], fun i => y (i.getD 0 0)⟩ =
    .ok (8 * ((y 0 - y 1) / (y 0 + y 1)) ^ 2) := by
  unfold Svd.penalty
  rw [show (⟨normMp, [2]⟩ : Svd ℝ).mapping.flat = normP.flat true from rfl, normP_flat]
  dsimp only
  rw [show (Grid.ofFlat [2] [y 0 / (y 0 + (y 1 + 0)) + 0, y 1 / (y 0 + (y 1 + 0)) + 0]) = .ok ⟨[2], fun i => 
    [y 0 / (y 0 + (y 1 + 0)) + 0, y 1 / (y 0 + (y 1 + 0)) + 0].getD (Grid.ravel [2] i) 0⟩ from rfl]
  simp [curvature, kernel, ratioTo, source, Grid.grid, Grid.ravel, List.range, List.range.loop]
  ring
theorem twoBin_params (m : ℝ) : twoBin.params (fun _ => m) = [m] := by
  simp [Fitter.params, twoBin, getPoi, SatTest.muModel, stopAt]
theorem twoBin_yields (m : ℝ) : ∃ nexp norm, twoBin.yields true [m] (twoBin.theta (fun _ => m)) = .ok (nexp, norm) ∧ nexp 0 = m ∧ nexp 1 = 1 := by
  refine ⟨_, _, rfl, ?_⟩
  simp [Dense.yield, twoBin, Dense.scaled, PModel.nparams, SatTest.muModel, Dense.logsnorm, Shape.ncol, Yields.Rates.at]
theorem twoBin_loss (m : ℝ) : twoBin.loss (fun _ => m) = .ok (some (1 / 2 * (m - 1) ^ 2 + 8 * ((m - 1) / (m + 1)) ^ 2)) := by
  obtain ⟨nexp, norm, h1, h2, h3⟩ := twoBin_yields m
  unfold Fitter.loss
  have h0 : (!twoBin.regs.isEmpty) = true := rfl
  rw [h0, twoBin_params, h1]
  have hcw : twoBin.cw = fun _ => 0 := rfl
  dsimp only
  rw [show twoBin.withBeta nexp norm = some (nexp, none) from rfl]
  dsimp only
  have hp : twoBin.penalties nexp twoBin.regs = .ok [8 * ((nexp 0 - nexp 1) / (nexp 0 + nexp 1)) ^ 2] := by
    rw [show twoBin.regs = [(⟨normMp, [2]⟩, ⟨[2], fun _ => 1 / 2⟩)] from rfl]
    unfold Fitter.penalties
    rw [show twoBin.shape.nbinsfull = 2 from rfl]
    rw [norm_penalty]
    rfl
  rw [hp]
  dsimp only
  show Except.ok (some (nllTotal (lnChisq (fun _ : Fin 2 => (1 : ℝ)) (fun _ => 1) fun b => nexp b) (lc false twoBin.cw twoBin.x0 _)
    none (penaltyTerm 1 [8 * ((nexp 0 - nexp 1) / (nexp 0 + nexp 1)) ^ 2]) none)) = _
  simp [nllTotal, lnChisq, lc, penaltyTerm, hcw, h2, h3]

end Ex

/-- C99 fails without the positive sum: one bin with an additive uncertainty, one parameter per bin, and a signal strength that
may be negative.  The branch for bins without active yield makes the loss ¼(m-1)² for positive and a different polynomial for
negative signal strength, yet the fit is treated as linear. -/
theorem c99_lite_violated : ∃ F : Fitter, Spec.sound F.model ∧ F.force = false ∧ F.isLinear = true ∧ F.regs = [] ∧
    (∀ x, ∃ v, F.loss x = .ok (some v)) ∧ ¬ Spec.quadraticOn (fun _ => True) F.loss := by
  refine ⟨Ex.oneBin, c99_mu _ _ _ _, rfl, rfl, rfl, fun x => ?_, fun h => ?_⟩
  · rw [show x = Ex.pt (x (0 : Fin 1)) from funext fun i => congrArg x (Subsingleton.elim (α := Fin 1) i 0), Ex.oneBin_loss]
    exact ⟨_, rfl⟩
  · obtain ⟨c, g, k, h⟩ := quad_line h
    have h0 := h 0 _ (Ex.oneBin_loss 0)
    have h1 := h 1 _ (Ex.oneBin_loss 1)
    have h2 := h 2 _ (Ex.oneBin_loss 2)
    have h3 := h 3 _ (Ex.oneBin_loss 3)
    norm_num at h0 h1 h2 h3
    linarith

/-- C99 fails with a regularizer whose mapping is not affine: the flag does not look at the regularizers.  With the curvature
of a normalised distribution the loss is ½(m-1)² + 8((m-1)/(m+1))². -/
theorem c99_regularised_violated : ∃ F : Fitter, Spec.sound F.model ∧ F.force = false ∧ F.isLinear = true ∧ F.stat = none ∧
    (∀ x, ∃ v, F.loss x = .ok (some v)) ∧ ¬ Spec.quadraticOn (fun _ => True) F.loss := by
  refine ⟨Ex.twoBin, c99_mu _ _ _ _, rfl, rfl, rfl, fun x => ?_, fun h => ?_⟩
  · rw [show x = fun _ => x (0 : Fin 1) from funext fun i => congrArg x (Subsingleton.elim (α := Fin 1) i 0), Ex.twoBin_loss]
    exact ⟨_, rfl⟩
  · obtain ⟨c, g, k, h⟩ := quad_line h
    have h0 := h 0 _ (Ex.twoBin_loss 0)
    have h1 := h 1 _ (Ex.twoBin_loss 1)
    have h2 := h 3 _ (Ex.twoBin_loss 3)
    have h3 := h 7 _ (Ex.twoBin_loss 7)
    norm_num at h0 h1 h2 h3
    linarith

namespace Ex

/-- the same with the projection in place of the normalised one -/
def projBin : Fitter := { twoBin with regs := [(⟨{ normMp with flat := normP.flat false }, [2]⟩, ⟨[2], fun _ => 1⟩)] }

theorem projP_flat (y : Nat → ℝ) : normP.flat false ⟨[2], fun i => y (i.getD 0 0)⟩ = .ok [y 0 + 0, y 1 + 0] := by
  rfl

theorem proj_penalty [DecidableEq ℝ] (y : Nat → ℝ) : (⟨{ normMp with flat := normP.flat false }, [2]⟩ : Svd ℝ).penalty
    ⟨[2], fun _ => 1⟩ ⟨[2], fun i => y (i.getD 0 0)⟩ = .ok (2 * (y 0 - y 1) ^ 2) := by
  unfold Svd.penalty
  rw [show (⟨{ normMp with flat := normP.flat false }, [2]⟩ : Svd ℝ).mapping.flat = normP.flat false from rfl, projP_flat]
  dsimp only
  rw [show (Grid.ofFlat [2] [y 0 + 0, y 1 + 0]) = .ok ⟨[2], fun i => [y 0 + 0, y 1 + 0].getD (Grid.ravel [2] i) 0⟩ from rfl]
  simp [curvature, kernel, ratioTo, source, Grid.grid, Grid.ravel, List.range, List.range.loop]
  ring

theorem projBin_loss (m : ℝ) : projBin.loss (fun _ => m) = .ok (some (1 / 2 * (m - 1) ^ 2 + 2 * (m - 1) ^ 2)) := by
  obtain ⟨nexp, norm, h1, h2, h3⟩ := twoBin_yields m
  unfold Fitter.loss
  have h0 : (!projBin.regs.isEmpty) = true := rfl
  rw [h0, show projBin.params (fun _ => m) = [m] from twoBin_params m,
    show projBin.yields true [m] (projBin.theta fun _ => m) = .ok (nexp, norm) from h1]
  have hcw : projBin.cw = fun _ => 0 := rfl
  dsimp only
  rw [show projBin.withBeta nexp norm = some (nexp, none) from rfl]
  dsimp only
  have hp : projBin.penalties nexp projBin.regs = .ok [2 * (nexp 0 - nexp 1) ^ 2] := by
    rw [show projBin.regs = [(⟨{ normMp with flat := normP.flat false }, [2]⟩, ⟨[2], fun _ => 1⟩)] from rfl]
    unfold Fitter.penalties
    rw [show projBin.shape.nbinsfull = 2 from rfl]
    rw [proj_penalty]
    rfl
  rw [hp]
  dsimp only
  show Except.ok (some (nllTotal (lnChisq (fun _ : Fin 2 => (1 : ℝ)) (fun _ => 1) fun b => nexp b) (lc false projBin.cw projBin.x0 _)
    none (penaltyTerm 1 [2 * (nexp 0 - nexp 1) ^ 2]) none)) = _
  simp [nllTotal, lnChisq, lc, penaltyTerm, hcw, h2, h3]

theorem projBin_regs : ∀ r ∈ projBin.regs, Spec.affineMapping projBin.shape.nbinsfull r.1.mapping.flat := fun r hr => by
  rw [show projBin.regs = [(⟨{ normMp with flat := normP.flat false }, [2]⟩, ⟨[2], fun _ => 1⟩)] from rfl, List.mem_singleton] at hr
  subst hr
  exact c99_project 2 normP

end Ex

/-- the positive region of the first witness meets the hypotheses -/
example : Spec.sound Ex.oneBin.model ∧ Ex.oneBin.force = false ∧ Ex.oneBin.isLinear = true ∧ Ex.oneBin.regs = [] ∧
    Spec.active Ex.oneBin (Ex.pt 2) ∧ Ex.oneBin.loss (Ex.pt 2) = .ok (some (1 / 4)) := by
  refine ⟨c99_mu _ _ _ _, rfl, rfl, rfl, fun nexp norm h s hs _ b _ => ?_, ?_⟩
  · rw [show (!Ex.oneBin.regs.isEmpty) = false from rfl, Ex.oneBin_params] at h
    cases hs
    cases h
    show 0 < ∑ p : Fin 1, _
    simp [Dense.yield, Ex.oneBin, Dense.scaled, PModel.nparams, SatTest.muModel, Dense.logsnorm, Shape.ncol, Yields.Rates.at]
  · rw [Ex.oneBin_loss]
    norm_num

/-- a fit with a regularizer that meets all hypotheses: the step ends at the minimum -/
example : ∃ (ℓ : (Fin Ex.projBin.n → ℝ) → ℝ) (q : Cov.Quad Ex.projBin.n), (∀ x, Ex.projBin.loss x = .ok (some (ℓ x))) ∧
    q.H.IsSymm ∧ (∀ x, q.val x = ℓ x) ∧
    ∀ x, ∃ x', Cov.minimizeDense q (fun _ => false) x = .ok x' ∧ ∀ y, y ≠ x' → ℓ x' < ℓ y := by
  have hx : ∀ x : Fin Ex.projBin.n → ℝ, x = fun _ => x (0 : Fin 1) := fun x =>
    funext fun i => congrArg x (Subsingleton.elim (α := Fin 1) i 0)
  have hl : ∀ x, Ex.projBin.loss x = .ok (some (1 / 2 * (x (0 : Fin 1) - 1) ^ 2 + 2 * (x (0 : Fin 1) - 1) ^ 2)) := fun x => by
    rw [hx x, Ex.projBin_loss]
  refine c99_one_step Ex.projBin (c99_mu _ _ _ _) rfl rfl Ex.projBin_regs (fun s hs => nomatch hs) (fun x => ⟨_, hl x⟩)
    fun x d hd u v w hu hv hw => ?_
  rw [hl] at hu hv hw
  cases hu
  cases hv
  cases hw
  have hd0 : d (0 : Fin 1) ≠ 0 := fun h => hd (by rw [hx d, h]; rfl)
  have := pow_pos (abs_pos.2 hd0) 2
  rw [sq_abs] at this
  rw [show (x + d) (0 : Fin 1) = x (0 : Fin 1) + d (0 : Fin 1) from rfl, show (x - d) (0 : Fin 1) = x (0 : Fin 1) - d (0 : Fin 1) from rfl]
  nlinarith

/-- a composite of a signal strength and a model without parameters keeps the flag and its meaning -/
example : ∃ c, composite [SatTest.muModel 2 ["s"] [1] true, onesModel 2] none = .ok c ∧ c.isLinear = true ∧ Spec.sound c := by
  refine ⟨_, rfl, rfl, c99_composite [SatTest.muModel 2 ["s"] [1] true, onesModel 2] none _ rfl fun m hm => ?_⟩
  rcases List.mem_pair.1 hm with rfl | rfl
  · exact c99_mu _ _ _ _
  · exact c99_ones _

end

end Verif.LinearFit
