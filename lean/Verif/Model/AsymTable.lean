import Verif.Model.Scans
import Verif.Model.Impacts

/-
Which nuisances are scanned for traditional asymmetric impacts (rabbit/fitter.py:1146-1232, rabbit/impacts/asym_impacts.py:37-60) and the tables made from the
contour scans (asym_impacts.py:95-289).

Simplifications: as in Model/Scans.lean (`none` for NaN, the minimiser is a parameter); a row of parameter shifts is either given or NaN as a whole, as
`contour_scan` makes it; targets are different from each other (they are keys of a dictionary).
-/

namespace Verif.AsymTable

open Verif.Scans Verif.FitParams

section
variable {V : Type} [Field V] [LinearOrder V]

/-- `asymmetric_nuisance_mask` for the dense layout (asym_impacts.py:56-60): `logk b p k i` with `k = 1` for the half differences -/
def maskDense (nbins nproc nsyst : Nat) (logk : Nat → Nat → Nat → Nat → V) (atol : V) : List Bool :=
  (List.range nsyst).map fun i => (List.range nbins).any fun b => (List.range nproc).any fun p => decide (atol < |logk b p 1 i|)

/-- `asymmetric_nuisance_mask` for the sparse layout (asym_impacts.py:45-54): an entry is its row (of the norm), its column and its value; half differences are in the
columns from `nsyst` on -/
def maskSparse (nsyst : Nat) (entries : List ((Nat × Nat) × V)) (atol : V) : Res (List Bool) :=
  let nz := (entries.filter fun e => decide (nsyst ≤ e.1.2 ∧ atol < |e.2|)).map fun e => e.1.2 - nsyst
  if nz.all fun k => decide (k < nsyst) then .ok ((List.range nsyst).map fun i => decide (i ∈ nz)) else .error .index

/-- templates in one of the layouts -/
inductive Logk (V : Type) where
  | symmetric
  | sparse (entries : List ((Nat × Nat) × V))
  | dense (nbins nproc : Nat) (logk : Nat → Nat → Nat → Nat → V)

/-- `asymmetric_nuisance_mask` (asym_impacts.py:37-60) -/
def mask (nsyst : Nat) (logk : Logk V) (atol : V) : Res (List Bool) := match logk with
  | .symmetric => .ok (List.replicate nsyst false)
  | .sparse entries => maskSparse nsyst entries atol
  | .dense nb np f => .ok (maskDense nb np nsyst f atol)

/-- indices and names of the nuisances that are scanned (fitter.py:1182-1198) -/
def selectSysts (rx : Regex) (skip : Bool) (logk : Logk V) (incl excl : Option (List String)) (systs : List String) : Res (List (Nat × String)) :=
  (if skip then mask systs.length logk 0 else .ok (List.replicate systs.length true)).bind fun m =>
    (asymSelect rx incl excl systs).map fun sel =>
      (List.range systs.length).filterMap fun i => if m.getD i false && sel (systs.getD i "") then some (i, systs.getD i "") else none

end

section
variable {V : Type} [Field V]

/-- the shifts of one side; zero where the scan failed (asym_impacts.py:244-252) -/
def sideShift (r : List (Option V × Option (Vec V))) (k : Nat) : Vec V := match r[k]? with
  | some (_, some v) => v
  | _ => fun _ => 0

/-- the table of single nuisances (asym_impacts.py:220-252): down, up -/
def asymRows (scan : Nat → String → Sess V → Sess V × Res (List (Option V × Option (Vec V)))) : Nat → List String → Sess V →
    Sess V × Res (List (Vec V × Vec V))
  | _, [], s => (s, .ok [])
  | c, n :: ns, s => match scan c n s with
    | (s', .error e) => (s', .error e)
    | (s', .ok r) => match asymRows scan (c + 2) ns s' with
      | (s'', .error e) => (s'', .error e)
      | (s'', .ok rs) => (s'', .ok ((sideShift r 0, sideShift r 1) :: rs))

/-- the targets of grouped impacts (fitter.py:1206-1218) -/
def targetsOf (poi systs : List String) (npoi : Nat) (noi : List Nat) : List String := poi.take npoi ++ noi.map fun i => systs.getD i ""

end

noncomputable section

/-- names of the members of a group (asym_impacts.py:160); an index beyond the nuisances raises (here before the scans are made, which keep the state) -/
def memberNames (systs : List String) (idxs : List Nat) : Res (List String) := idxs.mapM fun i => match systs[i]? with
  | some n => .ok n
  | none => .error .index

/-- the interval of a target among the results of scans; NaN if it was not scanned -/
def interval (l : List (String × List (Option ℝ × Option (Vec ℝ)))) (t : String) (side : Nat) : Option ℝ := match l.find? fun p => p.1 == t with
  | some p => (p.2[side]?).bind (·.1)
  | none => none

/-- an array of sides and parameters that is NaN but in the columns of the targets (asym_impacts.py:141, 162-164, 175-177) -/
def tabulate (cols : List (String × Nat)) (f : String → Nat → Option ℝ) (side col : Nat) : Option ℝ := match cols.find? fun p => p.2 == col with
  | some p => f p.1 side
  | none => none

/-- the columns of the targets (asym_impacts.py:129) -/
def targetCols (parms targets : List String) : Res (List (String × Nat)) := targets.mapM fun t => (paramIdx parms t).map fun i => (t, i)

/-- the tables of all groups, of "stat" and "Total" from the scans (asym_impacts.py:157-190); `scans` are those of the groups and of "stat" -/
def groupTables (cols : List (String × Nat)) (totals : List (String × List (Option ℝ × Option (Vec ℝ)))) :
    List (List (String × List (Option ℝ × Option (Vec ℝ)))) → List (Nat → Nat → Option ℝ)
  | [] => [tabulate cols (interval totals)]
  | [stat] => [tabulate cols (interval stat), tabulate cols (interval totals)]
  | r :: rs => tabulate cols (fun t side => quadSide (side == 0) (interval totals t side) (interval r t side)) :: groupTables cols totals rs

/-- `grouped_asym_impacts` (asym_impacts.py:95-192): names and tables -/
def groupedAsym (rx : Regex) (scan : Nat → String → Sess ℝ → Sess ℝ × Res (List (Option ℝ × Option (Vec ℝ)))) (targets systs : List String)
    (groups : List (String × List Nat)) (constrained : Nat → Bool) (s : Sess ℝ) : Sess ℝ × Res (List String × List (Nat → Nat → Option ℝ)) :=
  match targetCols s.fr.parms targets with
  | .error e => (s, .error e)
  | .ok cols => match groups.mapM fun g => memberNames systs g.2 with
    | .error e => (s, .error e)
    | .ok members =>
      let stat := (List.range systs.length).filterMap fun i => if constrained i then some (systs.getD i "") else none
      match groupedScans rx scan targets (members ++ [stat]) s with
      | (s', .error e) => (s', .error e)
      | (s', .ok (totals, rs)) => (s', .ok (groups.map (·.1) ++ ["stat", "Total"], groupTables cols totals rs))

end

end Verif.AsymTable
