import Verif.Model.Limits
import Verif.Model.Scans

/-
The expected limits from the likelihood (bin/rabbit_limit.py:100-195): one scan of the likelihood of the Asimov data for every limit, level and quantile.
Simplifications: exact arithmetic; SciPy's minimiser, the observable of a mapping and the displacement from which the scan starts are parameters, as in
`Model/Scans.lean`; not-a-number is `none`; `norm.ppf` is a parameter; what the mode `gaussian` computes in the same loops changes nothing in the fitters and is in
`Model/Limits.lean`.
-/

namespace Verif.ExpectedScan

open Verif Verif.Scans

/-- the level of the scan (rabbit_limit.py:175-176) -/
def qmuA (ppf : ℝ → ℝ) (clS clB : ℝ) : ℝ := (ppf clB - ppf (clS * clB)) ^ 2

/-- `r.item()` (rabbit_limit.py:195): there has to be one value -/
def item (r : List (Option ℝ × Option (Vec ℝ))) : Res (Option ℝ) := match r with
  | [v] => .ok v.1
  | _ => .error .value

/-- the limits for one level (rabbit_limit.py:174-195); the minimiser `opt` and the displacement `dx` depend on the level of the scan, `calls` counts the scans -/
noncomputable def quantiles (ppf : ℝ → ℝ) (opt : ℝ → Nat → Vec ℝ → Contour ℝ) (obs : Option (Vec ℝ → ℝ)) (dx : ℝ → Nat → List Nat → Vec ℝ) (key : String) (clS : ℝ) :
    List ℝ → Nat → Sess ℝ → Sess ℝ × Res (List (Option ℝ))
  | [], _, s => (s, .ok [])
  | clB :: clBs, c, s => match contourScan (opt (qmuA ppf clS clB)) obs (dx (qmuA ppf clS clB)) key [1] c s with
    | (s1, .error e) => (s1, .error e)
    | (s1, .ok r) => match item r with
      | .error e => (s1, .error e)
      | .ok v => match quantiles ppf opt obs dx key clS clBs (c + 1) s1 with
        | (s2, .error e) => (s2, .error e)
        | (s2, .ok vs) => (s2, .ok (v :: vs))

/-- the limits for all levels (rabbit_limit.py:170-195) -/
noncomputable def levels (ppf : ℝ → ℝ) (opt : ℝ → Nat → Vec ℝ → Contour ℝ) (obs : Option (Vec ℝ → ℝ)) (dx : ℝ → Nat → List Nat → Vec ℝ) (key : String) (clbs : List ℝ) :
    List ℝ → Nat → Sess ℝ → Sess ℝ × Res (List (List (Option ℝ)))
  | [], _, s => (s, .ok [])
  | clS :: clSs, c, s => match quantiles ppf opt obs dx key clS clbs c s with
    | (s1, .error e) => (s1, .error e)
    | (s1, .ok r) => match levels ppf opt obs dx key clbs clSs (c + clbs.length) s1 with
      | (s2, .error e) => (s2, .error e)
      | (s2, .ok rs) => (s2, .ok (r :: rs))

/-- `limits_nll` (rabbit_limit.py:102-195): without a mapping the name has to be a parameter; with a mapping the observable is scanned -/
noncomputable def limitsNll (ppf : ℝ → ℝ) (opt : ℝ → Nat → Vec ℝ → Contour ℝ) (obs : Option (Vec ℝ → ℝ)) (dx : ℝ → Nat → List Nat → Vec ℝ) (clss clbs : List ℝ) :
    List String → Nat → Sess ℝ → Sess ℝ × Res (List (List (List (Option ℝ))))
  | [], _, s => (s, .ok [])
  | key :: keys, c, s =>
    if obs.isNone ∧ key ∉ s.fr.parms then (s, .error .runtime)
    else match levels ppf opt obs dx key clbs clss c s with
      | (s1, .error e) => (s1, .error e)
      | (s1, .ok r) => match limitsNll ppf opt obs dx clss clbs keys (c + clss.length * clbs.length) s1 with
        | (s2, .error e) => (s2, .error e)
        | (s2, .ok rs) => (s2, .ok (r :: rs))

end Verif.ExpectedScan
