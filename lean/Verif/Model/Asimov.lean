import Verif.Model.LinearFit

/-
The fit to the Asimov data (bin/rabbit_fit.py:936-941, rabbit/fitter.py:773-815, 2006-2008,
rabbit/bbstat/bbstat.py:230-251, 832-909): the fitter is reset, the regularizers are given the expectation, and the data
are the expectation without profiling.

The loss is the one of Model/LinearFit.lean.  Numbers are real.
-/

namespace Verif.LinearFit

open Verif.BBB Verif.Regularization

noncomputable section

/-- `default_beta0` (bbstat.py:230-235) -/
def defaultBeta0 : Kind → ℝ
  | .gamma | .normMult => 1
  | .normAdd => 0

namespace Fitter

/-- `defaultassign` (fitter.py:797-810) as far as the loss reads it: centres of the constraints, of β, and no blinding.
The parameters themselves are the argument of the loss. -/
def reset (F : Fitter) (x0default : Fin F.n → ℝ) : Fitter :=
  { F with
    x0 := x0default
    stat := F.stat.map fun s => { s with beta0 := fun _ _ => defaultBeta0 s.kind }
    off := if F.doBlinding then F.cfg.noOffsets else F.off }

/-- `profile_and_apply(profile=False)` (bbstat.py:832-909): β is the variable, which `beta_default_assign` has set to β0 -/
def unprofiled (F : Fitter) (nexp : Nat → ℝ) (norm : Nat → Nat → ℝ) : Nat → ℝ :=
  match F.stat with
  | none => nexp
  | some s => match s.mode with
    | .lite => fun b => (F.liteBin s norm b).applied s.kind (s.beta0 b 0)
    | .full => fun b => (F.fullBin s norm b).applied s.kind fun p => s.beta0 b p

/-- `expected_yield` (fitter.py:1820-1829, 2006-2008) at `x` -/
def expected (F : Fitter) (full : Bool) (x : Fin F.n → ℝ) : Res (Nat → ℝ) :=
  match F.yields full (F.params x) (F.theta x) with
  | .error e => .error e
  | .ok (nexp, norm) => .ok (F.unprofiled nexp norm)

/-- `set_expectations` of all regularizers (fitter.py:812-815) with the full expectation -/
def expectAll (F : Fitter) (nexp : Nat → ℝ) : List (Svd ℝ × Grid.Tensor ℝ) → Res (List (Svd ℝ × Grid.Tensor ℝ))
  | [] => .ok []
  | r :: rs => match r.1.expectations ⟨[F.shape.nbinsfull], fun i => nexp (i.getD 0 0)⟩ with
    | .error e => .error e
    | .ok t => match F.expectAll nexp rs with
      | .error e => .error e
      | .ok ts => .ok ((r.1, t) :: ts)

open Classical in
/-- What the reset and `set_nobs(expected_yield())` compute (rabbit_fit.py:938-941, fitter.py:773-786, 812-815): the data,
which a chi-square fit refuses unless positive, and the expectations of the regularizers. -/
def asimov (F : Fitter) (x0default : Fin F.n → ℝ) : Res ((Nat → ℝ) × List (Svd ℝ × Grid.Tensor ℝ)) :=
  let G := F.reset x0default
  match G.expected true x0default with
  | .error e => .error e
  | .ok nexp0 => match G.expectAll nexp0 G.regs with
    | .error e => .error e
    | .ok regs => match G.expected false x0default with
      | .error e => .error e
      | .ok values => if G.fit = .chisq ∧ ∃ b < G.shape.nbins, values b ≤ 0 then .error .runtime else .ok (values, regs)

/-- the fitter after these assignments (fitter.py:780-782) -/
def prepared (F : Fitter) (x0default : Fin F.n → ℝ) (d : (Nat → ℝ) × List (Svd ℝ × Grid.Tensor ℝ)) : Fitter :=
  { F.reset x0default with
    nobs := d.1
    varnobs := if F.fit = .chisq then d.1 else F.varnobs
    regs := d.2 }

end Fitter

end

end Verif.LinearFit
