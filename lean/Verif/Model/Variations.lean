import Verif.Model.Impacts
import Verif.Model.ResultFile

/-
Histograms of predictions with every parameter varied (rabbit/fitter.py:1591-1629, 1976-1983; bin/rabbit_fit.py:486-515; rabbit/workspace.py:462-530).

Simplifications: reals for floating point, `none` for NaN; the derivative of the predictions is a parameter `J` (the tape), the prediction a vector
`expected` of the flat bins of all channels.
-/

namespace Verif.Variations

open Verif.Cov Verif.Impacts Verif.ResultFile Verif.Grid Matrix

noncomputable section

/-- a number or NaN -/
abbrev Num := Option ℝ

instance : Zero Num := ⟨some 0⟩

instance : One Num := ⟨some 1⟩

variable {n m : ℕ}

/-- `prefit_variance` (fitter.py:737-749) -/
def prefitVariance (cw : Vec n) (err : ℝ) : Vec n := fun i => if cw i = 0 then err ^ 2 else (cw i)⁻¹

/-- `expvars` (fitter.py:1621-1627): a row for every bin, in it down and up of the first parameter, of the second and so on -/
def flatVariations (corr : Bool) (cov : Mat n) (J : Matrix (Fin m) (Fin n) ℝ) (expected : Vec m) : List (List Num) :=
  (List.finRange m).map fun o => (List.finRange n).flatMap fun j =>
    [(variation corr cov J o j).map fun d => (downUp (expected o) d).1, (variation corr cov J o j).map fun d => (downUp (expected o) d).2]

/-- `var_axes` (workspace.py:484-487) -/
def varAxes (n : ℕ) : List HAxis := [⟨n, n + 1, true⟩, ⟨2, 2, false⟩]

/-- a channel of a mapping: name, axes and whether its bins include the flow bins -/
structure Chan where
  name : String
  axes : List HAxis
  flow : Bool

/-- the shape of the axes of a channel (workspace.py:493) -/
def Chan.shape (c : Chan) : List Nat := c.axes.map fun a => if c.flow then a.extent else a.size

/-- the axes of the histogram (workspace.py:504-511) -/
def Chan.histAxes (c : Chan) : List HAxis := if c.axes = [] then [⟨1, 1, false⟩] else c.axes

/-- one histogram (workspace.py:141-177, 205-218, 518-524) -/
def chanHist (c : Chan) (extra : List HAxis) (values : List (List Num)) (start : Nat) : Res (Tensor Num) :=
  if c.flow then channelHist c.histAxes extra values start
  else ofFlat ((c.histAxes ++ extra).map (·.size)) (((values.take (start + c.shape.prod)).drop start).flatten)

/-- the loop over the channels (workspace.py:489-524) -/
def histsFrom (extra : List HAxis) (values : List (List Num)) : Nat → List Chan → Res (List (String × Tensor Num))
  | _, [] => .ok []
  | start, c :: cs => (chanHist c extra values start).bind fun t =>
      (histsFrom extra values (start + c.shape.prod) cs).map fun r => (c.name, t) :: r

/-- `--computeVariations` (rabbit_fit.py:486-515): before a fit the covariance is replaced by the one of the constraints and put back -/
def saveVariations (prefit : Bool) (cw : Vec n) (cov : Option (Mat n)) (J : Matrix (Fin m) (Fin n) ℝ) (expected : Vec m) (chans : List Chan) :
    Res (Option (Mat n) × List (String × Tensor Num)) :=
  match cov with
  | none => .error .runtime
  | some C =>
    let used := if prefit then diagonal (prefitVariance cw 1) else C
    (histsFrom (varAxes n) (flatVariations false used J expected) 0 chans).map fun h => (some (if prefit then C else used), h)

end

end Verif.Variations
