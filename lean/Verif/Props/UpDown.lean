import Verif.Model.IoTools
import Verif.Props.Scans

/-
C69: the columns named `up` and `down` of the impact plots hold the effects of the upward and downward variations
(bin/rabbit_plot_pulls_and_impacts.py), for the three procedures that fill the two bins (rabbit/impacts).
-/

namespace Verif.IoTools

open Verif.Scans

variable {V : Type} [Field V]

/-- C69 does not hold for global asymmetric impacts with the default signs: the column `up` of every source and parameter is the response
to the downward shift, the column `down` that to the upward shift. -/
theorem c69_global_violated (minimize : Nat → Vec V → Vec V → Refit V) (dxdx0 : Option (Nat → Nat → V)) (width : Nat → V) (sigma : V)
    (idxs : List Nat) (s : Sess V) (k idx : Nat) (hk : idxs[k]? = some idx) :
    ∃ row : Vec V × Vec V, (globalAsym minimize dxdx0 width sigma (-1, 1) idxs s).2[k]? = some row ∧
      ∀ p, impactColumns (row.1 p, row.2 p) = (Scans.Spec.response minimize (warmX dxdx0 s.x) s (2 * k + 1) idx (sigma * width idx) p,
        Scans.Spec.response minimize (warmX dxdx0 s.x) s (2 * k) idx (-(sigma * width idx)) p) := by
  refine ⟨_, (c65_rows minimize dxdx0 width sigma (-1, 1) idxs s).2 k idx hk, fun p => ?_⟩
  simp only [impactColumns, one_mul, neg_mul]

/-- C69 does not hold for non-profiled impacts: the column `up` is minus the response to the upward shift (the table stores nominal
minus shifted), and the same for `down`. -/
theorem c69_nonprofiled_violated (minimize : Nat → Vec V → Vec V → Vec V) (err : Nat → V) (systgroups : List (String × List Nat)) (s : Sess V)
    (k idx : Nat) (hk : s.fr.frozenIndices[k]? = some idx) :
    ∃ row : Vec V × Vec V, (nonprofiled minimize err systgroups s).2.rows[k]? = some row ∧
      ∀ p, impactColumns (row.1 p, row.2 p) =
        (-(minimize (2 * k + 1) (fun j => if j = idx then s.x0 idx - err idx else s.x j) (fun j => if j = idx then s.x0 idx - err idx else s.x0 j) p - s.x p),
         -(minimize (2 * k) (fun j => if j = idx then s.x0 idx + err idx else s.x j) (fun j => if j = idx then s.x0 idx + err idx else s.x0 j) p - s.x p)) := by
  refine ⟨_, (c40_rows minimize err systgroups s).2.2 k idx hk, fun p => ?_⟩
  simp only [impactColumns, Scans.Spec.nonprofResponse, neg_sub]

/-- C69 does not hold for the intervals of contour scans: if both sides are found, the column `constraint_up` is the lower end of the
interval and `constraint_down` minus the upper end. -/
theorem c69_constraints_violated (opt : Nat → Vec V → Contour V) (dx : Nat → List Nat → Vec V) (param : String) (calls : Nat) (s : Sess V)
    (idx : Nat) (hidx : paramIdx s.fr.parms param = .ok idx) (left1 low left2 high : Vec V)
    (h1 : opt calls (fun k => s.x k + -1 * dx idx s.fr.frozenIndices k) = .success left1 low)
    (h2 : opt (calls + 1) (fun k => s.x k + 1 * dx idx s.fr.frozenIndices k) = .success left2 high) :
    ∃ a b : Option (Vec V), (contourScan opt none dx param [-1, 1] calls s).2 = .ok [(some (low idx - s.x idx), a), (some (high idx - s.x idx), b)] ∧
      constraintColumns (low idx - s.x idx, high idx - s.x idx) = (-(high idx - s.x idx), low idx - s.x idx) := by
  refine ⟨some fun k => low k - s.x k, some fun k => high k - s.x k, ?_, rfl⟩
  unfold contourScan
  rw [hidx]
  simp only [contourLoop, contourSide, h1, h2]

/-- C69.  The larger of the two sizes, which sorts the plots, does not depend on the order. -/
theorem c69_size_partial [LinearOrder V] (slots : V × V) :
    max |(impactColumns slots).1| |(impactColumns slots).2| = max |slots.1| |slots.2| := max_comm _ _

-- a fit that follows the centre of the source: the upward shift moves the parameter up, and the column `up` is negative
example : ((globalAsym (fun _ _ x0 => ⟨x0, false⟩) none (fun _ => 1) 1 (-1, 1) [0] (⟨fun _ => 0, fun _ => 0, Ex.sess.fr⟩ : Sess ℚ)).2.map fun r =>
    impactColumns (r.1 0, r.2 0)) = [(1, -1)] := by decide +kernel

end Verif.IoTools
