import Verif.Model.Cov
import Verif.Model.ExternalTerms
import Mathlib.Tactic.Ring
import Mathlib.Tactic.Linarith

/-! Functions of the parameters that are affine or at most quadratic, and what preserves that. -/

namespace Verif.Quadratic

open Verif.Cov Matrix

variable {n : ℕ}

/-- affine -/
def Aff (f : (Fin n → ℝ) → ℝ) : Prop := ∃ (a : ℝ) (b : Fin n → ℝ), ∀ x, f x = a + b ⬝ᵥ x

/-- at most quadratic -/
def Qd (f : (Fin n → ℝ) → ℝ) : Prop := ∃ q : Quad n, q.H.IsSymm ∧ ∀ x, f x = q.val x

theorem Aff.congr {f g : (Fin n → ℝ) → ℝ} (hf : Aff f) (h : ∀ x, g x = f x) : Aff g := by
  obtain ⟨a, b, hf⟩ := hf
  exact ⟨a, b, fun x => (h x).trans (hf x)⟩

theorem Qd.congr {f g : (Fin n → ℝ) → ℝ} (hf : Qd f) (h : ∀ x, g x = f x) : Qd g := by
  obtain ⟨q, hs, hf⟩ := hf
  exact ⟨q, hs, fun x => (h x).trans (hf x)⟩

theorem Aff.const (a : ℝ) : Aff fun _ : Fin n → ℝ => a := ⟨a, 0, fun x => by simp⟩

theorem Aff.coord (i : Fin n) : Aff fun x : Fin n → ℝ => x i :=
  ⟨0, Pi.single i 1, fun x => by simp⟩

theorem Aff.add {f g : (Fin n → ℝ) → ℝ} (hf : Aff f) (hg : Aff g) : Aff fun x => f x + g x := by
  obtain ⟨a, b, hf⟩ := hf
  obtain ⟨a', b', hg⟩ := hg
  exact ⟨a + a', b + b', fun x => by dsimp only; rw [hf, hg, add_dotProduct]; ring⟩

theorem Aff.mul_left (c : ℝ) {f : (Fin n → ℝ) → ℝ} (hf : Aff f) : Aff fun x => c * f x := by
  obtain ⟨a, b, hf⟩ := hf
  exact ⟨c * a, c • b, fun x => by dsimp only; rw [hf, smul_dotProduct, smul_eq_mul]; ring⟩

theorem Aff.mul_right (c : ℝ) {f : (Fin n → ℝ) → ℝ} (hf : Aff f) : Aff fun x => f x * c :=
  (hf.mul_left c).congr fun _ => mul_comm _ _

theorem Aff.div (c : ℝ) {f : (Fin n → ℝ) → ℝ} (hf : Aff f) : Aff fun x => f x / c :=
  (hf.mul_right c⁻¹).congr fun _ => div_eq_mul_inv _ _

theorem Aff.neg {f : (Fin n → ℝ) → ℝ} (hf : Aff f) : Aff fun x => -f x :=
  (hf.mul_left (-1)).congr fun _ => by ring

theorem Aff.sub {f g : (Fin n → ℝ) → ℝ} (hf : Aff f) (hg : Aff g) : Aff fun x => f x - g x :=
  (hf.add hg.neg).congr fun _ => by ring

theorem Aff.sum {ι : Type*} (s : Finset ι) {f : ι → (Fin n → ℝ) → ℝ} (hf : ∀ i ∈ s, Aff (f i)) :
    Aff fun x => ∑ i ∈ s, f i x := by
  classical
  induction s using Finset.induction_on with
  | empty => exact (Aff.const 0).congr fun x => by simp
  | insert i s hi ih =>
    exact ((hf i (by simp)).add (ih fun j hj => hf j (by simp [hj]))).congr fun x => by
      rw [Finset.sum_insert hi]

theorem Aff.listSum {ι : Type*} (l : List ι) {f : ι → (Fin n → ℝ) → ℝ} (hf : ∀ i ∈ l, Aff (f i)) :
    Aff fun x => (l.map fun i => f i x).sum := by
  induction l with
  | nil => exact (Aff.const 0).congr fun x => by simp
  | cons i l ih =>
    exact ((hf i (by simp)).add (ih fun j hj => hf j (by simp [hj]))).congr fun x => by simp

theorem Aff.mulVec {m k : Type*} [Fintype k] (A : Matrix m k ℝ) {v : (Fin n → ℝ) → k → ℝ}
    (hv : ∀ j, Aff fun x => v x j) (i : m) : Aff fun x => (A *ᵥ v x) i := by
  unfold Matrix.mulVec dotProduct
  exact Aff.sum _ fun j _ => (hv j).mul_left _

theorem Qd.add {f g : (Fin n → ℝ) → ℝ} (hf : Qd f) (hg : Qd g) : Qd fun x => f x + g x := by
  obtain ⟨q, hs, hf⟩ := hf
  obtain ⟨q', hs', hg⟩ := hg
  refine ⟨⟨q.c + q'.c, q.g + q'.g, q.H + q'.H⟩, hs.add hs', fun x => ?_⟩
  dsimp only
  rw [hf, hg]
  simp only [Quad.val, add_dotProduct, Matrix.add_mulVec, dotProduct_add]
  ring

theorem Qd.mul_left (c : ℝ) {f : (Fin n → ℝ) → ℝ} (hf : Qd f) : Qd fun x => c * f x := by
  obtain ⟨q, hs, hf⟩ := hf
  refine ⟨⟨c * q.c, c • q.g, c • q.H⟩, hs.smul c, fun x => ?_⟩
  dsimp only
  rw [hf]
  simp only [Quad.val, smul_dotProduct, Matrix.smul_mulVec, dotProduct_smul, smul_eq_mul]
  ring

theorem Qd.mul_right (c : ℝ) {f : (Fin n → ℝ) → ℝ} (hf : Qd f) : Qd fun x => f x * c :=
  (hf.mul_left c).congr fun _ => mul_comm _ _

theorem Qd.div (c : ℝ) {f : (Fin n → ℝ) → ℝ} (hf : Qd f) : Qd fun x => f x / c :=
  (hf.mul_right c⁻¹).congr fun _ => div_eq_mul_inv _ _

theorem Aff.qd {f : (Fin n → ℝ) → ℝ} (hf : Aff f) : Qd f := by
  obtain ⟨a, b, hf⟩ := hf
  exact ⟨⟨a, b, 0⟩, Matrix.isSymm_zero, fun x => by simp [hf, Quad.val]⟩

theorem Aff.mul {f g : (Fin n → ℝ) → ℝ} (hf : Aff f) (hg : Aff g) : Qd fun x => f x * g x := by
  obtain ⟨a, b, hf⟩ := hf
  obtain ⟨a', b', hg⟩ := hg
  refine ⟨⟨a * a', a • b' + a' • b, Matrix.vecMulVec b b' + Matrix.vecMulVec b' b⟩, ?_, fun x => ?_⟩
  · ext i j
    simp [Matrix.vecMulVec_apply]
    ring
  · dsimp only
    rw [hf, hg]
    have h : ∀ u v : Fin n → ℝ, x ⬝ᵥ (Matrix.vecMulVec u v *ᵥ x) = (u ⬝ᵥ x) * (v ⬝ᵥ x) := fun u v => by
      simp only [Matrix.mulVec, dotProduct, Matrix.vecMulVec_apply]
      rw [Finset.sum_mul]
      refine Finset.sum_congr rfl fun i _ => ?_
      rw [Finset.mul_sum, Finset.mul_sum]
      exact Finset.sum_congr rfl fun j _ => by ring
    simp only [Quad.val, add_dotProduct, smul_dotProduct, Matrix.add_mulVec, dotProduct_add, h, smul_eq_mul]
    ring

theorem Aff.sq {f : (Fin n → ℝ) → ℝ} (hf : Aff f) : Qd fun x => f x ^ 2 :=
  (hf.mul hf).congr fun _ => pow_two _

theorem Qd.const (a : ℝ) : Qd fun _ : Fin n → ℝ => a := (Aff.const a).qd

theorem Qd.sum {ι : Type*} (s : Finset ι) {f : ι → (Fin n → ℝ) → ℝ} (hf : ∀ i ∈ s, Qd (f i)) :
    Qd fun x => ∑ i ∈ s, f i x := by
  classical
  induction s using Finset.induction_on with
  | empty => exact (Qd.const 0).congr fun x => by simp
  | insert i s hi ih =>
    exact ((hf i (by simp)).add (ih fun j hj => hf j (by simp [hj]))).congr fun x => by
      rw [Finset.sum_insert hi]

theorem Qd.listSum {ι : Type*} (l : List ι) {f : ι → (Fin n → ℝ) → ℝ} (hf : ∀ i ∈ l, Qd (f i)) :
    Qd fun x => (l.map fun i => f i x).sum := by
  induction l with
  | nil => exact (Qd.const 0).congr fun x => by simp
  | cons i l ih =>
    exact ((hf i (by simp)).add (ih fun j hj => hf j (by simp [hj]))).congr fun x => by simp

/-! lists whose entries are affine -/

theorem getD_ofFn {α : Type} {m : ℕ} (f : Fin m → α) (i : ℕ) (d : α) :
    (List.ofFn f).getD i d = if h : i < m then f ⟨i, h⟩ else d := by
  rw [List.getD_eq_getElem?_getD, List.getElem?_ofFn]
  split <;> rfl

/-- dot product of a fixed list with one of affine entries -/
theorem Aff.dotConst {ι : Type*} (g : List ℝ) (l : List ι) {f : ι → (Fin n → ℝ) → ℝ} (hf : ∀ i ∈ l, Aff (f i)) :
    Aff fun x => Ext.dot g (l.map fun i => f i x) := by
  induction l generalizing g with
  | nil => exact (Aff.const 0).congr fun x => by cases g <;> simp [Ext.dot]
  | cons i l ih =>
    cases g with
    | nil => exact (Aff.const 0).congr fun x => by simp [Ext.dot]
    | cons a g =>
      exact (((hf i (by simp)).mul_left a).add (ih g fun j hj => hf j (by simp [hj]))).congr fun x => by
        simp [Ext.dot]

/-- dot product of two lists of affine entries -/
theorem Aff.dotAff {ι κ : Type*} (k : List κ) (l : List ι) {g : κ → (Fin n → ℝ) → ℝ} {f : ι → (Fin n → ℝ) → ℝ}
    (hg : ∀ i ∈ k, Aff (g i)) (hf : ∀ i ∈ l, Aff (f i)) :
    Qd fun x => Ext.dot (k.map fun i => g i x) (l.map fun i => f i x) := by
  induction l generalizing k with
  | nil => exact (Qd.const 0).congr fun x => by cases k <;> simp [Ext.dot]
  | cons i l ih =>
    cases k with
    | nil => exact (Qd.const 0).congr fun x => by simp [Ext.dot]
    | cons a k =>
      exact (((hg a (by simp)).mul (hf i (by simp))).add
        (ih k (fun j hj => hg j (by simp [hj])) fun j hj => hf j (by simp [hj]))).congr fun x => by simp [Ext.dot]

theorem quad_term (t : Ext.Built ℝ) : Qd fun x : Fin n → ℝ => Ext.termValue (List.ofFn x) t := by
  have hx : ∀ i : ℕ, Aff fun x : Fin n → ℝ => (List.ofFn x).getD i 0 := fun i => by
    by_cases h : i < n
    · exact (Aff.coord ⟨i, h⟩).congr fun x => by rw [getD_ofFn, dif_pos h]
    · exact (Aff.const 0).congr fun x => by rw [getD_ofFn, dif_neg h]
  obtain ⟨idx, grad, hd, hc⟩ := t
  have hg : ∃ g : (Fin n → ℝ) → ℝ, Qd g ∧ ∀ x, Ext.termValue (List.ofFn x) ⟨idx, grad, none, none⟩ = g x := by
    cases grad with
    | none => exact ⟨_, Qd.const 0, fun x => by simp [Ext.termValue]⟩
    | some g => exact ⟨_, (Aff.dotConst g idx fun i _ => hx i).qd, fun x => by simp [Ext.termValue]⟩
  have hh : ∃ h : (Fin n → ℝ) → ℝ, Qd h ∧ ∀ x, Ext.termValue (List.ofFn x) ⟨idx, none, hd, hc⟩ = h x := by
    cases hd with
    | some h =>
      exact ⟨_, (Aff.dotAff idx h (fun i _ => hx i) fun r _ => Aff.dotConst r idx fun i _ => hx i).mul_left (1 / 2),
        fun x => by simp [Ext.termValue]⟩
    | none =>
      cases hc with
      | none => exact ⟨_, Qd.const 0, fun x => by simp [Ext.termValue]⟩
      | some es =>
        have he : Qd fun x : Fin n → ℝ => Ext.dot (idx.map fun i => (List.ofFn x).getD i 0)
            (Ext.csrMatvec idx.length es (idx.map fun i => (List.ofFn x).getD i 0)) := by
          unfold Ext.csrMatvec
          refine Aff.dotAff idx _ (fun i _ => hx i) fun r _ => Aff.listSum _ fun e _ => Aff.mul_left _ ?_
          cases h : idx[e.2.1]? with
          | none => exact (Aff.const 0).congr fun x => by simp [List.getD_eq_getElem?_getD, h]
          | some j => exact (hx j).congr fun x => by simp [List.getD_eq_getElem?_getD, h]
        exact ⟨_, he.mul_left (1 / 2), fun x => by simp [Ext.termValue]⟩
  obtain ⟨g, hg, hg'⟩ := hg
  obtain ⟨h, hh, hh'⟩ := hh
  refine (hg.add hh).congr fun x => ?_
  rw [← hg', ← hh']
  cases grad <;> cases hd <;> cases hc <;> simp [Ext.termValue]

theorem quad_external (ts : List (Ext.Built ℝ)) :
    Qd fun x : Fin n → ℝ => ts.foldl (fun acc t => acc + Ext.termValue (List.ofFn x) t) 0 := by
  have key : ∀ (a : (Fin n → ℝ) → ℝ), Qd a →
      Qd fun x => ts.foldl (fun acc t => acc + Ext.termValue (List.ofFn x) t) (a x) := by
    induction ts with
    | nil => exact fun a ha => ha
    | cons t ts ih => exact fun a ha => ih _ (ha.add (quad_term t))
  exact key _ (Qd.const 0)

end Verif.Quadratic
