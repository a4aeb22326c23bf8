import Verif.Props.Covariance

/-
C37: the statistical part of the impacts.  `_cov_stat_floating` inverts the Hessian of the leading (not constrained)
parameters alone, with everything else fixed.
-/

namespace Verif.Cov

open Matrix

noncomputable section

variable {n : ℕ}

theorem covStat_eq {parms : Fin n → String} {frozen : List String} {H : Mat n} {nstat : ℕ} (h : nstat ≤ n)
    (hs : H.IsSymm)
    (hp : Spec.posOnFloating (fun i => parms (Fin.castLE h i) ∈ frozen) (H.submatrix (Fin.castLE h) (Fin.castLE h)))
    {edm : ℝ} {c : Mat nstat}
    (he : fitterEdmvalCov (fun i => parms (Fin.castLE h i)) frozen 0 0 (H.submatrix (Fin.castLE h) (Fin.castLE h)) =
      .ok (edm, c)) : covStatFloating parms frozen H nstat h = .ok c := by
  have hs' : (H.submatrix (Fin.castLE h) (Fin.castLE h)).IsSymm := hs.submatrix _
  unfold covStatFloating
  unfold fitterEdmvalCov at he
  dsimp only at he ⊢
  by_cases hf : frozen = []
  · subst hf
    have hpd := (nil_posDef_iff (fun i => parms (Fin.castLE h i)) hs').2 hp
    simp only [List.length_nil, gt_iff_lt, Nat.lt_irrefl, if_false, edmvalCov_ok hpd, if_true] at he ⊢
    rw [tfInv, if_neg hpd.det_pos.ne']
    injection he with he
    rw [← (Prod.mk.inj he).2]
  · have hl : frozen.length > 0 := List.length_pos_iff.2 hf
    have hpd := (gather_posDef_iff (fun i => parms (Fin.castLE h i)) frozen hs').2 hp
    rw [if_pos hl, edmvalCov_ok hpd] at he
    rw [if_neg hl.ne', tfInv, if_neg hpd.det_pos.ne']
    injection he with he
    rw [← (Prod.mk.inj he).2]

/-- a vector of leading entries, zero elsewhere -/
def pad {nstat : ℕ} (u : Vec nstat) : Vec n := fun j => if hj : j.val < nstat then u ⟨j.val, hj⟩ else 0

theorem pad_lead {nstat : ℕ} (h : nstat ≤ n) (u : Vec nstat) (i : Fin nstat) :
    (pad u : Vec n) (Fin.castLE h i) = u i := by simp [pad]

theorem sum_pad {nstat : ℕ} (h : nstat ≤ n) (u : Vec nstat) (f : Vec n) :
    ∑ j, (pad u : Vec n) j * f j = ∑ a, u a * f (Fin.castLE h a) := by
  have hinj : Function.Injective (Fin.castLE h) := Fin.castLE_injective h
  symm
  have e1 : ∑ a, u a * f (Fin.castLE h a) = ∑ a, (pad u : Vec n) (Fin.castLE h a) * f (Fin.castLE h a) :=
    Finset.sum_congr rfl fun a _ => by rw [pad_lead]
  rw [e1]
  have e2 := Finset.sum_map Finset.univ ⟨Fin.castLE h, hinj⟩ fun j => (pad u : Vec n) j * f j
  refine Eq.trans e2.symm ?_
  refine Finset.sum_subset (Finset.subset_univ _) fun j _ hj => ?_
  have : ¬ j.val < nstat := fun hj' => hj (Finset.mem_map.2 ⟨⟨j.val, hj'⟩, Finset.mem_univ _, Fin.ext rfl⟩)
  simp [pad, this]

theorem lead_pos {parms : Fin n → String} {frozen : List String} {H : Mat n} {nstat : ℕ} (h : nstat ≤ n)
    (hpos : Spec.posOnFloating (fun i => parms i ∈ frozen) H) :
    Spec.posOnFloating (fun i => parms (Fin.castLE h i) ∈ frozen) (H.submatrix (Fin.castLE h) (Fin.castLE h)) := by
  intro z hz hne
  have := hpos (pad z) (fun i hi => by
    unfold pad
    split
    · next hj => exact hz ⟨i.val, hj⟩ hi
    · rfl) (fun h0 => hne (by funext i; rw [← pad_lead h z i, h0]; rfl))
  have e : ∑ i, ∑ j, (pad z : Vec n) i * H i j * (pad z : Vec n) j =
      ∑ i, ∑ j, z i * H.submatrix (Fin.castLE h) (Fin.castLE h) i j * z j := by
    have e1 : ∀ i, ∑ j, (pad z : Vec n) i * H i j * (pad z : Vec n) j =
        (pad z : Vec n) i * ∑ j, z j * H i (Fin.castLE h j) := by
      intro i
      rw [← sum_pad h z fun j => H i j, Finset.mul_sum]
      exact Finset.sum_congr rfl fun j _ => by ring
    rw [Finset.sum_congr rfl fun i _ => e1 i, sum_pad h z fun i => ∑ j, z j * H i (Fin.castLE h j)]
    refine Finset.sum_congr rfl fun i _ => ?_
    rw [Finset.mul_sum]
    exact Finset.sum_congr rfl fun j _ => by rw [Matrix.submatrix_apply]; ring
  rw [e] at this
  exact this

/-- C37, statistical part: for every Hessian that is positive definite on the floating parameters the covariance
with the constrained parameters fixed exists, is zero for frozen parameters, inverts the Hessian of the floating
leading parameters, and its variances are positive and never exceed the variances of the whole fit: a statistical
impact is at most the total uncertainty. -/
theorem c37_statistical (parms : Fin n → String) (frozen : List String) (cov : Mat n) (grad : Vec n) (H : Mat n)
    (hs : H.IsSymm) (hpos : Spec.posOnFloating (fun i => parms i ∈ frozen) H) (nstat : ℕ) (h : nstat ≤ n) :
    ∃ edm cov' c, fitterEdmvalCov parms frozen cov grad H = .ok (edm, cov') ∧
      covStatFloating parms frozen H nstat h = .ok c ∧
      (∀ i j : Fin nstat, parms (Fin.castLE h i) ∈ frozen ∨ parms (Fin.castLE h j) ∈ frozen → c i j = 0) ∧
      (∀ i j : Fin nstat, parms (Fin.castLE h i) ∉ frozen → parms (Fin.castLE h j) ∉ frozen →
        (∑ k : Fin nstat, c i k * H (Fin.castLE h k) (Fin.castLE h j)) = if i = j then 1 else 0) ∧
      (∀ i : Fin nstat, parms (Fin.castLE h i) ∉ frozen →
        0 < c i i ∧ c i i ≤ cov' (Fin.castLE h i) (Fin.castLE h i)) := by
  obtain ⟨edm, cov', he, hinv, hsym, -, -, -⟩ := c35_covariance_partial parms frozen cov grad H hs hpos
  have hp := lead_pos h hpos
  obtain ⟨edm2, c, hc, hcinv, hcsym, -, hc0, -⟩ := c35_covariance_partial (fun i => parms (Fin.castLE h i)) frozen 0 0
    (H.submatrix (Fin.castLE h) (Fin.castLE h)) (hs.submatrix _) hp
  have hz := hc0 fun _ _ _ => rfl
  have hci : ∀ i j : Fin nstat, parms (Fin.castLE h i) ∉ frozen → parms (Fin.castLE h j) ∉ frozen →
      (∑ k : Fin nstat, c i k * H (Fin.castLE h k) (Fin.castLE h j)) = if i = j then 1 else 0 := by
    intro i j hi hj
    rw [← hcinv i j hi hj]
    refine Finset.sum_congr rfl fun k _ => ?_
    by_cases hk : parms (Fin.castLE h k) ∉ frozen
    · rw [if_pos hk]; rfl
    · rw [if_neg hk, hz i k (.inr (not_not.1 hk)), zero_mul]
  refine ⟨edm, cov', c, he, covStat_eq h hs hp hc, hz, hci, fun i hi => ?_⟩
  -- the two rows, with zeros at the frozen parameters
  let u : Vec n := pad fun k => c i k
  let v : Vec n := fun k => if parms k ∉ frozen then cov' (Fin.castLE h i) k else 0
  let Q : Vec n → Vec n → ℝ := fun a b => ∑ k, (∑ l, a l * H l k) * b k
  have hQsym : ∀ a b, Q a b = Q b a := by
    intro a b
    simp only [Q, Finset.sum_mul]
    rw [Finset.sum_comm]
    refine Finset.sum_congr rfl fun l _ => Finset.sum_congr rfl fun k _ => ?_
    have : H l k = H k l := congrFun (congrFun hs k) l
    rw [this]; ring
  have hQ : ∀ a, Q a a = ∑ i, ∑ j, a i * H i j * a j := by
    intro a
    simp only [Q, Finset.sum_mul]
    rw [Finset.sum_comm]
  have hu0 : ∀ k, parms k ∈ frozen → u k = 0 := by
    intro k hk
    simp only [u, pad]
    split
    · next hj => exact hz i ⟨k.val, hj⟩ (.inr hk)
    · rfl
  have hv0 : ∀ k, parms k ∈ frozen → v k = 0 := fun k hk => by simp [v, hk]
  have hvH : ∀ b : Vec n, (∀ k, parms k ∈ frozen → b k = 0) → Q v b = b (Fin.castLE h i) := by
    intro b hb
    have : ∀ k, (∑ l, v l * H l k) * b k = if k = Fin.castLE h i then b k else 0 := by
      intro k
      by_cases hk : parms k ∈ frozen
      · rw [hb k hk]; simp
      · have h1 : ∑ l, v l * H l k = if Fin.castLE h i = k then 1 else 0 := by
          rw [← hinv _ k hi hk]
          refine Finset.sum_congr rfl fun l _ => ?_
          by_cases hl : parms l ∉ frozen <;> simp [v, hl]
        rw [h1]
        by_cases hik : k = Fin.castLE h i <;> simp [hik, eq_comm]
    simp only [Q, this, Finset.sum_ite_eq', Finset.mem_univ, if_true]
  have huu : Q u u = c i i := by
    have e1 : Q u u = ∑ k, u k * ∑ l, u l * H l k := Finset.sum_congr rfl fun k _ => mul_comm _ _
    rw [e1, sum_pad h (fun k => c i k) fun k => ∑ l, u l * H l k]
    have e2 : ∀ k : Fin nstat, c i k * ∑ l, u l * H l (Fin.castLE h k) = if k = i then c i i else 0 := by
      intro k
      by_cases hk : parms (Fin.castLE h k) ∈ frozen
      · rw [hz i k (.inr hk), zero_mul, if_neg]
        rintro rfl; exact hi hk
      · rw [sum_pad h (fun k => c i k) fun l => H l (Fin.castLE h k), hci i k hi hk]
        by_cases hik : i = k
        · subst hik; simp
        · rw [if_neg hik, if_neg (Ne.symm hik), mul_zero]
    rw [Finset.sum_congr rfl fun k _ => e2 k]
    simp
  have hui : u (Fin.castLE h i) = c i i := pad_lead h _ i
  have hvi : v (Fin.castLE h i) = cov' (Fin.castLE h i) (Fin.castLE h i) := by simp [v, hi]
  have hnn : ∀ a : Vec n, (∀ k, parms k ∈ frozen → a k = 0) → 0 ≤ Q a a := by
    intro a ha
    by_cases h0 : a = 0
    · subst h0; simp [Q]
    · rw [hQ]; exact (hpos a ha h0).le
  constructor
  · have hne : u ≠ 0 := by
      intro h0
      have h1 := hci i i hi hi
      rw [← sum_pad h (fun k => c i k) fun l => H l (Fin.castLE h i)] at h1
      change ∑ l, u l * _ = _ at h1
      rw [h0] at h1
      simp at h1
    have := hpos u hu0 hne
    rw [← hQ, huu] at this
    exact this
  · have hd := hnn (v - u) (fun k hk => by rw [Pi.sub_apply, hv0 k hk, hu0 k hk, sub_zero])
    have hexp : Q (v - u) (v - u) = Q v v - Q v u - Q u v + Q u u := by
      simp only [Q, Pi.sub_apply, ← Finset.sum_sub_distrib, ← Finset.sum_add_distrib]
      refine Finset.sum_congr rfl fun k _ => ?_
      have : ∑ l, (v l - u l) * H l k = ∑ l, v l * H l k - ∑ l, u l * H l k := by
        rw [← Finset.sum_sub_distrib]; exact Finset.sum_congr rfl fun l _ => by ring
      rw [this]; ring
    rw [hexp, hQsym u v, hvH v hv0, hvH u hu0, huu, hui, hvi] at hd
    linarith

/-- a Hessian with a correlation between the leading and a constrained parameter, one parameter frozen -/
example : ∃ (H : Mat 3) (parms : Fin 3 → String) (frozen : List String), H.IsSymm ∧
    Spec.posOnFloating (fun i => parms i ∈ frozen) H ∧ H 0 2 ≠ 0 ∧ frozen = ["b"] ∧ 2 ≤ 3 := by
  refine ⟨!![2, 0, 1; 0, 0, 0; 1, 0, 2], ![("a" : String), "b", "c"], ["b"], ?_, ?_, by simp, rfl, by norm_num⟩
  · ext i j; fin_cases i <;> fin_cases j <;> rfl
  · intro z hz hne
    have h1 : z 1 = 0 := hz 1 (by simp)
    have e : ∑ i, ∑ j, z i * (!![2, 0, 1; 0, 0, 0; 1, 0, 2] : Mat 3) i j * z j =
        z 0 ^ 2 + (z 0 + z 2) ^ 2 + z 2 ^ 2 := by
      simp [Fin.sum_univ_three]; ring
    rw [e]
    by_contra hle
    apply hne
    have h0 : z 0 = 0 := pow_eq_zero_iff (two_ne_zero) |>.1
      (le_antisymm (by nlinarith [sq_nonneg (z 0 + z 2), sq_nonneg (z 2)]) (sq_nonneg _))
    have h2 : z 2 = 0 := pow_eq_zero_iff (two_ne_zero) |>.1
      (le_antisymm (by nlinarith [sq_nonneg (z 0 + z 2), sq_nonneg (z 0)]) (sq_nonneg _))
    funext i; fin_cases i <;> simp [h0, h1, h2]

end

end Verif.Cov
