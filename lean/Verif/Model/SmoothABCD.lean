import Verif.Model.ABCD
import Mathlib.Analysis.SpecialFunctions.Exp

/-
Smooth ABCD models (rabbit/param_models/smooth_abcd_model.py, smooth_extended_abcd_model.py).  Numbers are reals, `tf.exp`
is the exponential.  `parse_args` is not modelled; `order` is a natural number.  `initial_params` are not rounded to
single precision (smooth_extended_abcd_model.py:271).
-/

namespace Verif.SmoothABCD

open Verif.ParamModels Verif.Grid Verif.ABCD

noncomputable section
open Classical

variable {V : Type}

/-- `extended_sel` (smooth_abcd_model.py:132-134): the user's selection with one bin number for every outer axis -/
def extendSel (sel : Sel) (outer : List (Axis V)) (combo : List Nat) : Sel :=
  (outer.zip combo).foldl (fun s e => Dict.set s e.1.name (Int.ofNat e.2)) sel

/-- What the loop over regions stores for one region (smooth_abcd_model.py:99-139). -/
structure SReg (V : Type) where
  ch : String
  outer : List (Axis V)
  size : Nat
  idx : List (List Nat)

/-- list of results or the first exception -/
def allOk {α : Type} : List (Res α) → Res (List α)
  | [] => .ok []
  | r :: rs => match r with
    | .error e => .error e
    | .ok a => match allOk rs with
      | .error e => .error e
      | .ok as => .ok (a :: as)

/-- free axes after the fixed selections (smooth_abcd_model.py:106) -/
def freeAxes (axes : List (Axis V)) (sel : Sel) : List (Axis V) := axes.filter fun a => decide (a.name ∉ sel.keys)

/-- one pass of the loop over regions (smooth_abcd_model.py:99-139).  `size?` is `smooth_size` -/
def smoothRegion (inp : InData V) (ax : String) (size? : Option Nat) (r : Region) : Res (SReg V) :=
  match r with
  | [] => .error .exception
  | (ch, sel) :: _ => match inp.chans.get? ch with
    | none => .error .key
    | some c =>
      let remaining := freeAxes c.axes sel
      match remaining.find? fun a => decide (a.name = ax) with
      | none => .error .value
      | some sm =>
        if size? ≠ none ∧ size? ≠ some sm.size then .error .value
        else
          let outer := remaining.filter fun a => decide (a.name ≠ ax)
          match allOk ((grid (sizes outer)).map fun combo => getGlobalIndices inp.chans [(ch, extendSel sel outer combo)]) with
          | .error e => .error e
          | .ok idx => .ok ⟨ch, outer, sm.size, idx⟩

/-- the loop over regions -/
def smoothRegions (inp : InData V) (ax : String) : Option Nat → List Region → Res (List (SReg V))
  | _, [] => .ok []
  | size?, r :: rs => match smoothRegion inp ax size? r with
    | .error e => .error e
    | .ok s => match smoothRegions inp ax (some s.size) rs with
      | .error e => .error e
      | .ok ss => .ok (s :: ss)

/-- `x_cheby` (smooth_abcd_model.py:161-168) from the axis of region A -/
def xCheby (a : Axis ℝ) : List ℝ :=
  let lo := a.edges.headD 0
  let hi := a.edges.getLastD 0
  if lo < hi then a.centers.map fun x => 2 * (x - lo) / (hi - lo) - 1 else a.centers.map fun _ => 0

/-- one column of `basis` (smooth_abcd_model.py:170-175) -/
def cheb (x : ℝ) : Nat → ℝ
  | 0 => 1
  | 1 => x
  | k + 2 => 2 * x * cheb x (k + 1) - cheb x k

/-- label of an outer bin (smooth_abcd_model.py:224-229) -/
def outerLabel (outer : List (Axis V)) (combo : List Nat) : String :=
  if outer.isEmpty then "outer0" else cellLabel outer combo

/-- names of one region (smooth_abcd_model.py:216-234); `combos or [()]` is replaced by `combos`, an empty list was
refused before by `np.concatenate` -/
def smoothNames (proc region : String) (order : Nat) (s : SReg V) : List String :=
  (grid (sizes s.outer)).flatMap fun combo => (List.range (order + 1)).map fun k =>
    proc ++ "_" ++ s.ch ++ "_" ++ region ++ "_" ++ outerLabel s.outer combo ++ "_poly" ++ toString k

/-- The constructed `SmoothABCD` model: the bins and factors are held as for `ABCD`. -/
structure SModel where
  nOuter : Nat
  nSmooth : Nat
  order : Nat
  xs : List ℝ
  core : Model ℝ

/-- the smooth axis of a region's channel (smooth_abcd_model.py:158-160) -/
def smoothAxis (inp : InData ℝ) (ax : String) (r : Region) : Option (Axis ℝ) :=
  match r with
  | [] => none
  | (ch, _) :: _ => match inp.chans.get? ch with
    | none => none
    | some c => c.axes.find? fun a => decide (a.name = ax)

/-- every outer bin of a region holds `n` bins; a shorter one raises IndexError in `_build_scatter_idx`, a longer one does
not occur when the axis names of a channel differ -/
def full (n : Nat) (s : SReg V) : Bool := s.idx.all fun l => decide (l.length = n)

/-- `SmoothABCD.__init__` (smooth_abcd_model.py:80-244).  The axis of region A must report as many centres as bins. -/
def smoothInit (inp : InData ℝ) (ax proc : String) (rA rB rC rD : Region) (order : Nat) (yc : Bool) : Res SModel :=
  if ¬ inp.procs.contains proc then .error .value
  else
    let p := inp.procs.idxOf proc
    match smoothRegions inp ax none [rA, rB, rC, rD] with
    | .ok [A, B, C, D] =>
      if ¬ (B.idx.length = A.idx.length ∧ C.idx.length = A.idx.length ∧ D.idx.length = A.idx.length) then .error .value
      else match smoothAxis inp ax rA with
      | none => .error .exception
      | some sm =>
        if sm.centers.length ≠ A.size then .error .value
        else if A.idx.length = 0 then .error .value
        else match gather inp p A.idx.flatten, gather inp p B.idx.flatten, gather inp p C.idx.flatten,
            gather inp p D.idx.flatten with
        | .ok a, .ok b, .ok c, .ok d =>
          if ¬ (full A.size A ∧ full A.size B ∧ full A.size C ∧ full A.size D) then .error .index
          else .ok
          { nOuter := A.idx.length
            nSmooth := A.size
            order := order
            xs := xCheby sm
            core :=
            { n := A.idx.length * A.size
              proc := p
              mcFactor := zip4 mcFactor a b c d
              A := mkReg inp.nbins A.idx.flatten
              B := mkReg inp.nbins B.idx.flatten
              C := mkReg inp.nbins C.idx.flatten
              D := mkReg inp.nbins D.idx.flatten
              params := smoothNames proc "A" order A ++ smoothNames proc "B" order B ++ smoothNames proc "C" order C
              yieldCorr := yc } }
        | _, _, _, _ => .error .value
    | .ok _ => .error .value
    | .error e => .error e

/-- one entry of `tf.exp(tf.matmul(params, basis))` (smooth_abcd_model.py:329-331): outer bin `m`, position `x` -/
def rate (order : Nat) (p : List ℝ) (m : Nat) (x : ℝ) : ℝ :=
  Real.exp (((List.range (order + 1)).map fun k => p.getD (m * (order + 1) + k) 0 * cheb x k).sum)

/-- the flattened matrix of one region (smooth_abcd_model.py:319-336) -/
def rates (order nOuter : Nat) (xs : List ℝ) (p : List ℝ) : List ℝ :=
  (List.range nOuter).flatMap fun m => xs.map (rate order p m)

/-- `SmoothABCD.compute` (smooth_abcd_model.py:310-365) -/
def smoothCompute (inp : InData ℝ) (m : SModel) (param : List ℝ) (full : Bool) : Res (Rates ℝ) :=
  let nc := m.nOuter * (m.order + 1)
  if param.length ≠ 3 * nc then .error .value
  else
    let a := rates m.order m.nOuter m.xs (slice param 0 nc)
    let b := rates m.order m.nOuter m.xs (slice param nc (2 * nc))
    let c := rates m.order m.nOuter m.xs (slice param (2 * nc) (3 * nc))
    place inp m.core.proc full [(m.core.A, a), (m.core.B, b), (m.core.C, c), (m.core.D, dVals m.core a b c)]

/-- defaults (smooth_abcd_model.py:244) -/
def smoothDefault (m : SModel) : List ℝ := List.replicate (3 * (m.nOuter * (m.order + 1))) 0

/-! ### six regions -/

/-- The constructed `SmoothExtendedABCD` model. -/
structure SXModel where
  nOuter : Nat
  nSmooth : Nat
  order : Nat
  xs : List ℝ
  core : XModel ℝ
  default : List ℝ

/-- `SmoothExtendedABCD.__init__` (smooth_extended_abcd_model.py:95-279) -/
def sxInit (inp : InData ℝ) (ax proc : String) (rA rB rC rD rAx rBx : Region) (order : Nat) (init : Option (List ℝ))
    (yc : Bool) : Res SXModel :=
  if ¬ inp.procs.contains proc then .error .value
  else
    let p := inp.procs.idxOf proc
    match smoothRegions inp ax none [rA, rB, rC, rD, rAx, rBx] with
    | .ok [A, B, C, D, Ax, Bx] =>
      if ¬ (B.idx.length = A.idx.length ∧ C.idx.length = A.idx.length ∧ D.idx.length = A.idx.length ∧
          Ax.idx.length = A.idx.length ∧ Bx.idx.length = A.idx.length) then .error .value
      else match smoothAxis inp ax rA with
      | none => .error .exception
      | some sm =>
        if sm.centers.length ≠ A.size then .error .value
        else if A.idx.length = 0 then .error .value
        else match gather inp p A.idx.flatten, gather inp p B.idx.flatten, gather inp p C.idx.flatten,
            gather inp p D.idx.flatten, gather inp p Ax.idx.flatten, gather inp p Bx.idx.flatten with
        | .ok a, .ok b, .ok c, .ok d, .ok ax', .ok bx =>
          if ¬ (full A.size A ∧ full A.size B ∧ full A.size C ∧ full A.size D ∧ full A.size Ax ∧ full A.size Bx) then
            .error .index
          else if init ≠ none ∧ init.map List.length ≠ some (5 * (A.idx.length * (order + 1))) then .error .value
          else .ok
          { nOuter := A.idx.length
            nSmooth := A.size
            order := order
            xs := xCheby sm
            core :=
            { n := A.idx.length * A.size
              proc := p
              mcFactor := zip6 xmcFactor a b c d ax' bx
              A := mkReg inp.nbins A.idx.flatten
              B := mkReg inp.nbins B.idx.flatten
              C := mkReg inp.nbins C.idx.flatten
              D := mkReg inp.nbins D.idx.flatten
              Ax := mkReg inp.nbins Ax.idx.flatten
              Bx := mkReg inp.nbins Bx.idx.flatten
              params := smoothNames proc "A" order A ++ smoothNames proc "B" order B ++ smoothNames proc "C" order C ++
                smoothNames proc "Ax" order Ax ++ smoothNames proc "Bx" order Bx
              yieldCorr := yc }
            default := init.getD (List.replicate (5 * (A.idx.length * (order + 1))) 0) }
        | _, _, _, _, _, _ => .error .value
    | .ok _ => .error .value
    | .error e => .error e

/-- `SmoothExtendedABCD.compute` (smooth_extended_abcd_model.py:374-445) -/
def sxCompute (inp : InData ℝ) (m : SXModel) (param : List ℝ) (full : Bool) : Res (Rates ℝ) :=
  let nc := m.nOuter * (m.order + 1)
  if param.length ≠ 5 * nc then .error .value
  else
    let a := rates m.order m.nOuter m.xs (slice param 0 nc)
    let b := rates m.order m.nOuter m.xs (slice param nc (2 * nc))
    let c := rates m.order m.nOuter m.xs (slice param (2 * nc) (3 * nc))
    let ax := rates m.order m.nOuter m.xs (slice param (3 * nc) (4 * nc))
    let bx := rates m.order m.nOuter m.xs (slice param (4 * nc) (5 * nc))
    place inp m.core.proc full [(m.core.A, a), (m.core.B, b), (m.core.C, c), (m.core.D, xdVals m.core a b c ax bx),
      (m.core.Ax, ax), (m.core.Bx, bx)]

end

end Verif.SmoothABCD
