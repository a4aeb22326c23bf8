import Verif.Model.LinearFit
import Mathlib.Algebra.BigOperators.Group.Finset.Basic

/-!
The bin-by-bin quantities do not depend on the order of the processes.
-/

namespace Verif.BBB

noncomputable section

variable {P B : Type*} [Fintype P] [Fintype B] [DecidableEq B]

namespace LiteBin

/-- the bin with its processes in another order -/
def perm (τ : P ≃ P) (c : LiteBin P) : LiteBin P :=
  { c with sumw := fun p => c.sumw (τ p), sumw2 := fun p => c.sumw2 (τ p), norm := fun p => c.norm (τ p) }

variable (τ : P ≃ P) (c : LiteBin P)

theorem perm_nexp : (c.perm τ).nexp = c.nexp := Equiv.sum_comp τ c.norm
theorem perm_nActive : (c.perm τ).nActive = c.nActive := Equiv.sum_comp τ fun p => if c.sumw2 p = 0 then 0 else c.norm p
theorem perm_nZero : (c.perm τ).nZero = c.nZero := Equiv.sum_comp τ fun p => if c.sumw2 p = 0 then c.norm p else 0
theorem perm_nActiveSafe : (c.perm τ).nActiveSafe = c.nActiveSafe := by unfold nActiveSafe; rw [perm_nActive]
theorem perm_liteVar : liteVar (c.perm τ).sumw2 = liteVar c.sumw2 := Equiv.sum_comp τ c.sumw2
theorem perm_liteSumw : liteSumw (c.perm τ).sumw (c.perm τ).sumw2 = liteSumw c.sumw c.sumw2 :=
  Equiv.sum_comp τ fun p => if c.sumw2 p = 0 then 0 else c.sumw p
theorem perm_varbeta : (c.perm τ).varbeta = c.varbeta := perm_liteVar τ c
theorem perm_k : (c.perm τ).k = c.k := by
  unfold k
  rw [perm_liteVar, perm_liteSumw]
  rfl
theorem perm_masked : (c.perm τ).masked = c.masked := by
  unfold masked
  rw [perm_liteVar, perm_liteSumw]
  rfl
theorem perm_profile (f : Fit) (κ : Kind) : (c.perm τ).profile f κ = c.profile f κ := by
  have hn : (c.perm τ).nobs = c.nobs := rfl
  have hv : (c.perm τ).varnobs = c.varnobs := rfl
  have hb : (c.perm τ).beta0 = c.beta0 := rfl
  by_cases h : c.masked
  · have h' : (c.perm τ).masked := by rw [perm_masked]; exact h
    unfold profile
    simp only [perm_nActiveSafe, perm_nZero, perm_k, perm_varbeta, perm_nexp, if_pos h, if_pos h', hn, hv, hb]
  · have h' : ¬ (c.perm τ).masked := by rw [perm_masked]; exact h
    unfold profile
    simp only [perm_nActiveSafe, perm_nZero, perm_k, perm_varbeta, perm_nexp, if_neg h, if_neg h', hn, hv, hb]
theorem perm_applied (κ : Kind) (β : ℝ) : (c.perm τ).applied κ β = c.applied κ β := by
  refine (Finset.sum_congr rfl fun p _ => ?_).trans (Equiv.sum_comp τ (c.apply κ β))
  have hm : ((c.perm τ).sumw2 p = 0 ∨ (c.perm τ).masked) ↔ (c.sumw2 (τ p) = 0 ∨ c.masked) := by rw [perm_masked]; rfl
  have hif : ∀ (v w : ℝ) (i : Decidable _) (j : Decidable _), @ite _ ((c.perm τ).sumw2 p = 0 ∨ (c.perm τ).masked) i v w =
      @ite _ (c.sumw2 (τ p) = 0 ∨ c.masked) j v w := fun v w i j => by
    by_cases h : c.sumw2 (τ p) = 0 ∨ c.masked
    · rw [if_pos h, if_pos (hm.2 h)]
    · rw [if_neg h, if_neg fun h' => h (hm.1 h')]
  cases κ
  · exact congrArg (c.norm (τ p) * ·) (hif _ _ _ _)
  · exact congrArg (c.norm (τ p) * ·) (hif _ _ _ _)
  · simp only [apply, perm_varbeta, perm_nActive]; rfl

end LiteBin

namespace FullBin

/-- the bin with its processes in another order -/
def perm (τ : P ≃ P) (c : FullBin P) : FullBin P :=
  { c with sumw := fun p => c.sumw (τ p), sumw2 := fun p => c.sumw2 (τ p), norm := fun p => c.norm (τ p), beta0 := fun p => c.beta0 (τ p) }

variable (τ : P ≃ P) (c : FullBin P)

omit [Fintype P] in
theorem perm_masked (p : P) : (c.perm τ).masked p = c.masked (τ p) := rfl
omit [Fintype P] in
theorem perm_k (p : P) : (c.perm τ).k p = c.k (τ p) := rfl
theorem perm_nexp : (c.perm τ).nexp = c.nexp := Equiv.sum_comp τ c.norm
open Classical in
theorem perm_n2k : (c.perm τ).n2k = c.n2k := Equiv.sum_comp τ fun p => if c.masked p then 0 else c.norm p ^ 2 / c.k p
theorem perm_varsum : (c.perm τ).varsum = c.varsum := Equiv.sum_comp τ c.sumw2

open Classical in
theorem perm_profile (f : Fit) (κ : Kind) : (c.perm τ).profile f κ = (c.profile f κ).map fun β p => β (τ p) := by
  have h1 : ∑ p, (c.perm τ).norm p * (c.perm τ).beta0 p = ∑ p, c.norm p * c.beta0 p := Equiv.sum_comp τ fun p => c.norm p * c.beta0 p
  have h2 : ∑ p, √((c.perm τ).sumw2 p) * (c.perm τ).beta0 p = ∑ p, √(c.sumw2 p) * c.beta0 p :=
    Equiv.sum_comp τ fun p => √(c.sumw2 p) * c.beta0 p
  have h3 : (∑ p, ((if (c.perm τ).masked p then 0 else (c.perm τ).norm p ^ 2 / (c.perm τ).k p) - (c.perm τ).beta0 p * (c.perm τ).norm p)) =
      ∑ p, ((if c.masked p then 0 else c.norm p ^ 2 / c.k p) - c.beta0 p * c.norm p) :=
    Equiv.sum_comp τ fun p => (if c.masked p then 0 else c.norm p ^ 2 / c.k p) - c.beta0 p * c.norm p
  have h4 : (∑ p, if (c.perm τ).masked p then 0 else (c.perm τ).norm p ^ 2 / (c.perm τ).k p) =
      ∑ p, if c.masked p then 0 else c.norm p ^ 2 / c.k p :=
    Equiv.sum_comp τ fun p => if c.masked p then 0 else c.norm p ^ 2 / c.k p
  have h5 : ∑ p, (c.perm τ).sumw2 p = ∑ p, c.sumw2 p := Equiv.sum_comp τ c.sumw2
  have h6 : (∑ p, ((c.perm τ).sumw2 p - √((c.perm τ).sumw2 p) * (c.perm τ).beta0 p - (c.perm τ).norm p)) =
      ∑ p, (c.sumw2 p - √(c.sumw2 p) * c.beta0 p - c.norm p) :=
    Equiv.sum_comp τ fun p => c.sumw2 p - √(c.sumw2 p) * c.beta0 p - c.norm p
  have hn : (c.perm τ).nobs = c.nobs := rfl
  have hv : (c.perm τ).varnobs = c.varnobs := rfl
  cases f <;> cases κ
  · rfl
  · simp only [profile, h3, h4, hn, Option.map_map]; rfl
  · simp only [profile, h5, h6, hn, Option.map_map]; rfl
  · rfl
  · simp only [profile, h1, perm_n2k, hn, hv]; rfl
  · simp only [profile, h2, perm_varsum, perm_nexp, hn, hv]; rfl
  · rfl
  · rfl
  · rfl

theorem perm_applied (κ : Kind) (β : P → ℝ) : (c.perm τ).applied κ (fun p => β (τ p)) = c.applied κ β := by
  refine (Finset.sum_congr rfl fun p _ => ?_).trans (Equiv.sum_comp τ (c.apply κ β))
  cases κ <;> rfl

end FullBin

namespace CovFull

/-- the bins with their processes in another order -/
def perm (τ : P ≃ P) (c : CovFull B P) : CovFull B P :=
  { c with
    norm := fun i p => c.norm i (τ p), k := fun i p => c.k i (τ p), varbeta := fun i p => c.varbeta i (τ p)
    beta0 := fun i p => c.beta0 i (τ p), masked := fun i p => c.masked i (τ p) }

variable (τ : P ≃ P) (c : CovFull B P)

open Classical in
omit [Fintype B] [DecidableEq B] in
theorem perm_n2k : (c.perm τ).n2k = c.n2k := funext fun i =>
  Equiv.sum_comp τ fun p => if c.masked i p then 0 else c.norm i p ^ 2 / c.k i p

theorem perm_profileMult : (c.perm τ).profileMult = fun i p => c.profileMult i (τ p) := by
  have h1 : (fun i => ∑ p, (c.perm τ).norm i p * (c.perm τ).beta0 i p) = fun i => ∑ p, c.norm i p * c.beta0 i p :=
    funext fun i => Equiv.sum_comp τ fun p => c.norm i p * c.beta0 i p
  unfold profileMult
  simp only [perm_n2k, h1]
  rfl

theorem perm_profileAdd : (c.perm τ).profileAdd = fun i p => c.profileAdd i (τ p) := by
  have h1 : (fun i => ∑ p, √((c.perm τ).varbeta i p) * (c.perm τ).beta0 i p) = fun i => ∑ p, √(c.varbeta i p) * c.beta0 i p :=
    funext fun i => Equiv.sum_comp τ fun p => √(c.varbeta i p) * c.beta0 i p
  have h2 : (fun i => ∑ p, (c.perm τ).varbeta i p) = fun i => ∑ p, c.varbeta i p := funext fun i => Equiv.sum_comp τ (c.varbeta i)
  have h3 : (fun i => ∑ p, (c.perm τ).norm i p) = fun i => ∑ p, c.norm i p := funext fun i => Equiv.sum_comp τ (c.norm i)
  unfold profileAdd
  simp only [h1, h2, h3]
  rfl

end CovFull

end

end Verif.BBB
