import Verif.Model.ImpactPrint
import Mathlib.Analysis.SpecialFunctions.Complex.Arg

/-
What the plots of likelihood scans show: bin/rabbit_plot_likelihood_scan.py:69-98 and bin/rabbit_plot_likelihood_scan2D.py:108-131,
191-208, 330-369.

Simplifications: a plot is the list of its points; values of a scan are numbers or not finite (`none`); `np.argsort` is a parameter;
the labels of the stored axes are the numbers they were made from; `pcolormesh` and `contour` of matplotlib put the element `[i][j]` of
a matrix at the point with coordinates `x[j]`, `y[i]`, and refuse other shapes (grids of bin edges, one longer, do not occur); exact
arithmetic.
-/

namespace Verif.ScanPlot

open Verif.IoTools

variable {V : Type}

/-- the points of a one-dimensional scan (rabbit_plot_likelihood_scan.py:71-78): the finite ones, ordered by the parameter, twice the
likelihood -/
def scanPoints [Field V] (argsort : List V → List Nat) (xs : List V) (ys : List (Option V)) : Res (List (V × V)) :=
  (maskList (ys.map Option.isSome) xs).bind fun x =>
  (maskList (ys.map Option.isSome) ys).bind fun y =>
  let y := y.map fun v => v.getD 0 * 2
  (takeList x (argsort x)).bind fun x' => (takeList y (argsort x)).map fun y' => x'.zip y'

/-- the parabola of the covariance (rabbit_plot_likelihood_scan.py:100) -/
def parabola [Field V] (value variance v : V) : V := 1 / variance * (v - value) ^ 2

/-- larger and smaller eigenvalue (rabbit_plot_likelihood_scan2D.py:114-115) -/
noncomputable def eigen (a b c : ℝ) : ℝ × ℝ :=
  ((a + c) / 2 + Real.sqrt ((a - c) ^ 2 / 4 + b ^ 2), (a + c) / 2 - Real.sqrt ((a - c) ^ 2 / 4 + b ^ 2))

/-- `np.arctan2(y, x)` -/
noncomputable def arctan2 (y x : ℝ) : ℝ := Complex.arg ⟨x, y⟩

/-- the point of the ellipse at the angle `t` (rabbit_plot_likelihood_scan2D.py:108-127) -/
noncomputable def ellipse (a b c mu0 mu1 cl t : ℝ) : ℝ × ℝ :=
  let l := eigen a b c
  let theta := arctan2 (l.1 - a) b
  let sl1 := Real.sqrt (cl * l.1)
  let sl2 := Real.sqrt (cl * l.2)
  (mu0 + sl1 * Real.cos theta * Real.cos t - sl2 * Real.sin theta * Real.sin t,
   mu1 + sl1 * Real.sin theta * Real.cos t + sl2 * Real.cos theta * Real.sin t)

/-- the covariance of the scaled parameters (rabbit_plot_likelihood_scan2D.py:336-346): entries xx, xy, yy -/
def scaledCov [Mul V] (sx sy a b c : V) : V × V × V := (sx * sx * a, sx * sy * b, sy * sy * c)

/-- the coloured points of `pcolormesh(x, y, m)`, or the points between which `contour(x, y, m)` interpolates
(rabbit_plot_likelihood_scan2D.py:196-198, 259-266) -/
def mesh (x y : List V) (m : List (List V)) : Res (List ((V × V) × V)) :=
  if m.length = y.length ∧ ∀ r ∈ m, r.length = x.length then
    .ok ((y.zip m).flatMap fun yr => (x.zip yr.2).map fun xv => ((xv.1, yr.1), xv.2))
  else .error .type

/-- the map of a two-dimensional scan (rabbit_plot_likelihood_scan2D.py:191-198, 356-369): the axes are scaled, the likelihood doubled; the
stored matrix has the first parameter along its rows (fitter.py:2451-2495, workspace.py:363-377) -/
def scanMap [Field V] (sx sy : V) (x y : List V) (nll : List (List V)) : Res (List ((V × V) × V)) :=
  mesh (x.map (· * sx)) (y.map (· * sy)) (nll.map fun r => r.map (2 * ·))

end Verif.ScanPlot
