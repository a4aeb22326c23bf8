import Verif.Model.Impacts
import Verif.Lemmas.Cov
import Mathlib.Algebra.QuadraticDiscriminant

namespace Verif.Impacts

open Verif.Cov Matrix

noncomputable section

variable {n : ℕ}

theorem posSemidef_iff' {C : Mat n} : C.PosSemidef ↔ C.IsSymm ∧ ∀ x : Vec n, 0 ≤ x ⬝ᵥ C.mulVec x := by
  rw [posSemidef_iff_dotProduct_mulVec]
  simp [IsHermitian, IsSymm, conjTranspose_eq_transpose_of_trivial]

theorem symm_dot {C : Mat n} (hs : C.IsSymm) (u v : Vec n) : u ⬝ᵥ C.mulVec v = v ⬝ᵥ C.mulVec u := by
  rw [dotProduct_mulVec, ← mulVec_transpose, hs.eq, dotProduct_comm]

theorem quad_add {C : Mat n} (hs : C.IsSymm) (u v : Vec n) :
    (u + v) ⬝ᵥ C.mulVec (u + v) = u ⬝ᵥ C.mulVec u + 2 * (u ⬝ᵥ C.mulVec v) + v ⬝ᵥ C.mulVec v := by
  simp only [mulVec_add, dotProduct_add, add_dotProduct]
  rw [symm_dot hs v u]; ring

/-- Cauchy–Schwarz for the form on a set of vectors closed under the combinations used -/
theorem cs_of {C : Mat n} (hs : C.IsSymm) (u v : Vec n) (h : ∀ t : ℝ, 0 ≤ (u + t • v) ⬝ᵥ C.mulVec (u + t • v)) :
    (u ⬝ᵥ C.mulVec v) ^ 2 ≤ (u ⬝ᵥ C.mulVec u) * (v ⬝ᵥ C.mulVec v) := by
  have h1 : ∀ t : ℝ, 0 ≤ (v ⬝ᵥ C.mulVec v) * (t * t) + (2 * (u ⬝ᵥ C.mulVec v)) * t + u ⬝ᵥ C.mulVec u := by
    intro t
    have := h t
    rw [quad_add hs, mulVec_smul, dotProduct_smul, dotProduct_smul, smul_dotProduct] at this
    simp only [smul_eq_mul] at this
    linarith
  have := discrim_le_zero h1
  rw [discrim] at this
  nlinarith

theorem cs {C : Mat n} (h : C.PosSemidef) (u v : Vec n) :
    (u ⬝ᵥ C.mulVec v) ^ 2 ≤ (u ⬝ᵥ C.mulVec u) * (v ⬝ᵥ C.mulVec v) :=
  cs_of (posSemidef_iff'.1 h).1 u v fun _ => (posSemidef_iff'.1 h).2 _

theorem single_quad (C : Mat n) (i j : Fin n) : Pi.single i 1 ⬝ᵥ C.mulVec (Pi.single j 1) = C i j := by
  simp

theorem cs_entry {C : Mat n} (h : C.PosSemidef) (i j : Fin n) : C i j ^ 2 ≤ C i i * C j j := by
  have := cs h (Pi.single i 1) (Pi.single j 1)
  simpa only [single_quad] using this

/-- the quadratic form of the inverse is the largest value of `2 a·v − a·G a` -/
theorem variational {m : ℕ} {G : Mat m} (hG : G.PosDef) (v a : Vec m) :
    2 * (a ⬝ᵥ v) - a ⬝ᵥ G.mulVec a ≤ v ⬝ᵥ G⁻¹.mulVec v := by
  have hs := (posDef_iff'.1 hG).1
  have h := (posSemidef_iff'.1 hG.posSemidef).2 (a - G⁻¹.mulVec v)
  have e : (a - G⁻¹.mulVec v) = a + -(G⁻¹.mulVec v) := by abel
  have e2 : G.mulVec (G⁻¹.mulVec v) = v := by rw [mulVec_mulVec, mul_inv_of_posDef hG, one_mulVec]
  rw [e, quad_add hs] at h
  simp only [mulVec_neg, dotProduct_neg, neg_dotProduct, neg_neg, e2] at h
  rw [dotProduct_comm (G⁻¹.mulVec v) v] at h
  linarith

theorem variational_eq {m : ℕ} {G : Mat m} (hG : G.PosDef) (v : Vec m) :
    2 * (G⁻¹.mulVec v ⬝ᵥ v) - G⁻¹.mulVec v ⬝ᵥ G.mulVec (G⁻¹.mulVec v) = v ⬝ᵥ G⁻¹.mulVec v := by
  have e2 : G.mulVec (G⁻¹.mulVec v) = v := by rw [mulVec_mulVec, mul_inv_of_posDef hG, one_mulVec]
  rw [e2, dotProduct_comm]; ring

/-- square of the impact of the group `l` for a row `v` -/
def groupSq (C : Mat n) (v : Vec n) (l : List (Fin n)) : ℝ :=
  gatherV l v ⬝ᵥ (gatherM l C)⁻¹.mulVec (gatherV l v)

theorem groupColumn_ok {C : Mat n} {rows : List (Vec n)} {l : List (Fin n)} {c : List ℝ}
    (h : groupColumn C rows l = .ok c) :
    (gatherM l C).det ≠ 0 ∧ c = rows.map fun v => Real.sqrt (groupSq C v l) := by
  unfold groupColumn at h
  split at h
  · cases h
  · next hd => cases h; exact ⟨hd, rfl⟩

theorem mapM_ok {α β : Type} {f : α → Res β} {l : List α} {r : List β} (h : l.mapM f = .ok r) :
    List.Forall₂ (fun a b => f a = .ok b) l r := by
  induction l generalizing r with
  | nil => cases h; exact .nil
  | cons a l ih =>
    rw [List.mapM_cons] at h
    cases ha : f a with
    | error e => rw [ha] at h; cases h
    | ok b =>
      rw [ha] at h
      cases hl : l.mapM f with
      | error e => rw [hl] at h; cases h
      | ok bs =>
        rw [hl] at h
        cases h
        exact .cons ha (ih hl)

theorem mapM_ok' {α β : Type} {f : α → Res β} {l : List α} (h : ∀ a ∈ l, ∃ b, f a = .ok b) :
    ∃ r, l.mapM f = .ok r := by
  induction l with
  | nil => exact ⟨[], rfl⟩
  | cons a l ih =>
    obtain ⟨b, hb⟩ := h a (by simp)
    obtain ⟨r, hr⟩ := ih fun x hx => h x (by simp [hx])
    exact ⟨b :: r, by rw [List.mapM_cons, hb, hr]; rfl⟩

theorem mapM_some {α β : Type} {f : α → Option β} {l : List α} {r : List β} (h : l.mapM f = some r) :
    List.Forall₂ (fun a b => f a = some b) l r := by
  induction l generalizing r with
  | nil => cases h; exact .nil
  | cons a l ih =>
    rw [List.mapM_cons] at h
    cases ha : f a with
    | none => rw [ha] at h; cases h
    | some b =>
      rw [ha] at h
      cases hl : l.mapM f with
      | none => rw [hl] at h; cases h
      | some bs =>
        rw [hl] at h
        cases h
        exact .cons ha (ih hl)

theorem mapM_some' {α β : Type} {f : α → Option β} {l : List α} (h : ∀ a ∈ l, ∃ b, f a = some b) :
    ∃ r, l.mapM f = some r := by
  induction l with
  | nil => exact ⟨[], rfl⟩
  | cons a l ih =>
    obtain ⟨b, hb⟩ := h a (by simp)
    obtain ⟨r, hr⟩ := ih fun x hx => h x (by simp [hx])
    exact ⟨b :: r, by rw [List.mapM_cons, hb, hr]; rfl⟩

theorem forall₂_getElem? {α β : Type} {R : α → β → Prop} {l : List α} {r : List β} (h : List.Forall₂ R l r) (k : ℕ) :
    (∀ a, l[k]? = some a → ∃ b, r[k]? = some b ∧ R a b) ∧ (∀ b, r[k]? = some b → ∃ a, l[k]? = some a ∧ R a b) := by
  induction h generalizing k with
  | nil => simp
  | @cons a b l r h _ ih =>
    cases k with
    | zero => simp [h]
    | succ k => simpa using ih k

theorem gather_posSemidef {C : Mat n} (h : C.PosSemidef) (l : List (Fin n)) : (gatherM l C).PosSemidef :=
  h.submatrix l.get

theorem posDef_of_det {m : ℕ} {G : Mat m} (h : G.PosSemidef) (hd : G.det ≠ 0) : G.PosDef := by
  rw [posDef_iff']
  have h2 := posSemidef_iff'.1 h
  refine ⟨h2.1, fun x hx => lt_of_le_of_ne (h2.2 x) fun h0 => ?_⟩
  apply hx
  apply Matrix.eq_zero_of_mulVec_eq_zero hd
  -- `x·Gx = 0` implies `Gx = 0` by Cauchy–Schwarz
  have h3 := cs h (G.mulVec x) x
  rw [← h0, mul_zero] at h3
  have h4 : G.mulVec x ⬝ᵥ G.mulVec x = 0 := by nlinarith [sq_nonneg (G.mulVec x ⬝ᵥ G.mulVec x)]
  exact dotProduct_self_eq_zero.1 h4

theorem nodup_of_det {C : Mat n} {l : List (Fin n)} (hd : (gatherM l C).det ≠ 0) : l.Nodup := by
  rw [List.nodup_iff_injective_get]
  intro a b h
  by_contra hne
  exact hd (Matrix.det_zero_of_row_eq hne (by funext c; simp only [gatherM, of_apply, h]))

theorem groupSq_ge {C : Mat n} (hC : C.PosSemidef) {l : List (Fin n)} (hd : (gatherM l C).det ≠ 0) (v : Vec n)
    (z : Vec n) (hz : ∀ i, i ∉ l → z i = 0) : 2 * (z ⬝ᵥ v) - z ⬝ᵥ C.mulVec z ≤ groupSq C v l := by
  have hl := nodup_of_det hd
  have hG := posDef_of_det (gather_posSemidef hC l) hd
  have := variational hG (gatherV l v) (gatherV l z)
  rw [gather_quad hl C z hz, dotProduct_comm, gather_dot hl v z hz, dotProduct_comm v z] at this
  exact this

theorem groupSq_attained {C : Mat n} (hC : C.PosSemidef) {l : List (Fin n)} (hd : (gatherM l C).det ≠ 0) (v : Vec n) :
    ∃ z : Vec n, (∀ i, i ∉ l → z i = 0) ∧ groupSq C v l = 2 * (z ⬝ᵥ v) - z ⬝ᵥ C.mulVec z := by
  have hl := nodup_of_det hd
  have hG := posDef_of_det (gather_posSemidef hC l) hd
  set a := (gatherM l C)⁻¹.mulVec (gatherV l v) with ha
  refine ⟨ext l a, fun i hi => ext_out a hi, ?_⟩
  have h1 := variational_eq hG (gatherV l v)
  rw [← ha] at h1
  have h2 := gather_quad hl C (ext l a) (fun i hi => ext_out a hi)
  rw [gatherV_ext hl] at h2
  have h3 := gather_dot hl v (ext l a) (fun i hi => ext_out a hi)
  rw [gatherV_ext hl, dotProduct_comm] at h3
  rw [h2, h3, dotProduct_comm v] at h1
  rw [groupSq, ← ha, ← h1]

theorem groupSq_nonneg {C : Mat n} (hC : C.PosSemidef) {l : List (Fin n)} (hd : (gatherM l C).det ≠ 0) (v : Vec n) :
    0 ≤ groupSq C v l := by
  have := groupSq_ge hC hd v 0 (fun _ _ => rfl)
  simpa using this

theorem groupSq_mono {C : Mat n} (hC : C.PosSemidef) {l l' : List (Fin n)} (hd : (gatherM l C).det ≠ 0)
    (hd' : (gatherM l' C).det ≠ 0) (hsub : ∀ i ∈ l, i ∈ l') (v : Vec n) : groupSq C v l ≤ groupSq C v l' := by
  obtain ⟨z, hz, he⟩ := groupSq_attained hC hd v
  rw [he]
  exact groupSq_ge hC hd' v z fun i hi => hz i fun h => hi (hsub i h)

theorem groupSq_le_total {C : Mat n} (hC : C.PosSemidef) {l : List (Fin n)} (hd : (gatherM l C).det ≠ 0) (i : Fin n) :
    groupSq C (fun j => C i j) l ≤ C i i := by
  obtain ⟨z, hz, he⟩ := groupSq_attained hC hd fun j => C i j
  have hs := (posSemidef_iff'.1 hC).1
  have h := (posSemidef_iff'.1 hC).2 (z + -(Pi.single i 1))
  rw [quad_add hs] at h
  have h1 : z ⬝ᵥ (fun j => C i j) = z ⬝ᵥ C.mulVec (Pi.single i 1) := by
    rw [mulVec_single_one]
    simp only [dotProduct, Matrix.col_apply]
    exact Finset.sum_congr rfl fun j _ => by rw [hs.apply]
  simp only [mulVec_neg, dotProduct_neg, neg_dotProduct, neg_neg, single_quad] at h
  rw [he, h1]
  linarith

theorem groupSq_single {C : Mat n} (j : Fin n) (v : Vec n) : groupSq C v [j] = v j ^ 2 / C j j := by
  have h1 : ∀ a b, (gatherM [j] C)⁻¹ a b = (C j j)⁻¹ := by
    intro a b
    have : Unique (Fin [j].length) := inferInstanceAs (Unique (Fin 1))
    have hC : gatherM [j] C = Matrix.of fun _ _ => C j j := by
      ext a b
      rw [Subsingleton.elim a ⟨0, by simp⟩, Subsingleton.elim b ⟨0, by simp⟩]
      rfl
    rw [hC, Matrix.inv_subsingleton]
    simp [Matrix.diagonal, Subsingleton.elim a b, Ring.inverse_eq_inv']
  unfold groupSq
  have : (Finset.univ : Finset (Fin [j].length)) = {⟨0, by simp⟩} := rfl
  simp only [dotProduct, mulVec, gatherV, this, Finset.sum_singleton, h1]
  simp only [List.get_eq_getElem, List.getElem_cons_zero]
  ring

end

end Verif.Impacts
