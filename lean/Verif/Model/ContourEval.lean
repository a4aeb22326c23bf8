import Verif.Model.Scans

/-
The functions that a contour scan gives to SciPy (rabbit/fitter.py:2504-2720), with their caches, and the loop of the
driver over parameters and levels (bin/rabbit_fit.py:748-768).

SciPy is any sequence of calls of these functions.  The likelihood is given by its value, gradient, Hessian and product of
the Hessian with a vector at the values in `self.x` (with the gradients of frozen parameters removed); that
`loss_val_grad`, `loss_val_grad_hess` and `loss_val_grad_hessp` agree is part of the trusted reading of automatic
differentiation.  `np.array_equal` is equality of the entries.  Arrays are values: SciPy does not change an array that it has
passed before.
-/

namespace Verif.ContourEval

open Verif.Scans Verif.FitParams

section
variable {V : Type}

/-- the likelihood and its derivatives as functions of the parameters -/
structure Nll (V : Type) where
  val : List V → V
  grad : List V → List V
  hess : List V → List (List V)
  hessp : List V → List V → List V

/-- `hess_mode` (fitter.py:2549-2601); the last stands for any other text -/
inductive Mode where
  | exact | hvp | frozen | bfgs | sr1 | unknown
  deriving DecidableEq

/-- `self.x`, `lg_cache` and `h_cache` (fitter.py:2520, 2579) -/
structure State (V : Type) where
  x : List V
  lg : Option (List V × V × List V) := none
  h : Option (List V × List (List V)) := none

/-- the calls SciPy makes; `matvec` is a product with an operator returned before; `assign` is the reset between the sides -/
inductive Call (V : Type) where
  | loss (x : List V)
  | grad (x : List V)
  | hess (x v : List V)
  | matvec (x : List V) (scale : V) (p : List V)
  | objective (sign : V) (x : List V)
  | assign (x : List V)

/-- what the calls return -/
inductive Ans (V : Type) where
  | vals (l : List V)
  | mat (m : List (List V))
  | op (x : List V) (scale : V)
  | both (val : V) (grad : List V)
  | nothing

variable [Field V] [DecidableEq V]

/-- `_ensure_loss_grad` (fitter.py:2522-2529) -/
def ensureLossGrad (f : Nll V) (nllMin q : V) (x : List V) (s : State V) : State V :=
  match s.lg with
  | some (y, _, _) => if y = x then s else { s with x, lg := some (x, f.val x - nllMin - 1 / 2 * q, f.grad x) }
  | none => { s with x, lg := some (x, f.val x - nllMin - 1 / 2 * q, f.grad x) }

/-- `_ensure_hess` (fitter.py:2581-2591): also refreshes the other cache -/
def ensureHess (f : Nll V) (nllMin q : V) (x : List V) (s : State V) : State V :=
  let fresh : State V := { x, h := some (x, f.hess x), lg := some (x, f.val x - nllMin - 1 / 2 * q, f.grad x) }
  match s.h with
  | some (y, _) => if y = x then s else fresh
  | none => fresh

/-- the value and the gradient in the cache -/
def cached (s : State V) : V × List V :=
  match s.lg with
  | some (_, v, g) => (v, g)
  | none => (0, [])

/-- the Hessian in the cache -/
def cachedHess (s : State V) : List (List V) :=
  match s.h with
  | some (_, m) => m
  | none => []

def scaleMat (a : V) (m : List (List V)) : List (List V) := m.map fun r => r.map (a * ·)

/-- `v[0]` -/
def first (v : List V) : V := v.headD 0

/-- `scipy_hess` (fitter.py:2549-2595); `inv` is the inverse of the covariance.  The quasi-Newton modes are objects of
SciPy and make no calls. -/
def callHess (mode : Mode) (f : Nll V) (inv : List (List V)) (nllMin q : V) (x v : List V) (s : State V) : State V × Ans V :=
  match mode with
  | .hvp => (ensureLossGrad f nllMin q x s, .op x (first v))
  | .frozen => (s, .mat (scaleMat (first v) inv))
  | .exact => (ensureHess f nllMin q x s, .mat (scaleMat (first v) (cachedHess (ensureHess f nllMin q x s))))
  | _ => (s, .nothing)

/-- `objective_val_grad` for a parameter (fitter.py:2652-2660) -/
def objective (idx : Nat) (x0 sign : V) (x : List V) : V × List V :=
  (-sign * (x.getD idx 0 - x0), (List.range x.length).map fun k => if k = idx then -sign else 0)

/-- one call -/
def call (mode : Mode) (f : Nll V) (inv : List (List V)) (nllMin q : V) (idx : Nat) (x0 : V) (s : State V) : Call V → State V × Ans V
  | .loss x => (ensureLossGrad f nllMin q x s, .vals [(cached (ensureLossGrad f nllMin q x s)).1])
  | .grad x => (ensureLossGrad f nllMin q x s, .vals (cached (ensureLossGrad f nllMin q x s)).2)
  | .hess x v => callHess mode f inv nllMin q x v s
  | .matvec x scale p => ({ s with x }, .vals ((f.hessp x p).map (scale * ·)))
  | .objective sign x => ({ s with x }, .both (objective idx x0 sign x).1 (objective idx x0 sign x).2)
  | .assign x => ({ s with x }, .nothing)

/-- any sequence of calls -/
def calls (mode : Mode) (f : Nll V) (inv : List (List V)) (nllMin q : V) (idx : Nat) (x0 : V) : State V → List (Call V) → State V × List (Ans V)
  | s, [] => (s, [])
  | s, c :: cs =>
    let r := call mode f inv nllMin q idx x0 s c
    let rs := calls mode f inv nllMin q idx x0 r.1 cs
    (rs.1, r.2 :: rs.2)

/-- the functions of one scan: the caches are empty, an unknown mode is refused (fitter.py:2516-2601) -/
def session (mode : Mode) (f : Nll V) (inv : List (List V)) (nllMin q : V) (idx : Nat) (x : List V) (cs : List (Call V)) : Res (State V × List (Ans V)) :=
  if mode = .unknown then .error .value else .ok (calls mode f inv nllMin q idx (x.getD idx 0) { x } cs)

end

section
variable {V : Type} [Field V]

/-- `contours[i, j, ...] = params` for the levels of one parameter (bin/rabbit_fit.py:761-766); the minimiser and the
displacement depend on the level `q` -/
def levelRows (opt : V → Nat → Vec V → Contour V) (dx : V → Nat → List Nat → Vec V) (param : String) : List V → Nat → Sess V →
    Sess V × Res (List (List (Option (Vec V))))
  | [], _, s => (s, .ok [])
  | cl :: cls, c, s => match contourScan (opt (cl ^ 2)) none (dx (cl ^ 2)) param [-1, 1] c s with
    | (s1, .error e) => (s1, .error e)
    | (s1, .ok r) => match levelRows opt dx param cls (c + 2) s1 with
      | (s2, .error e) => (s2, .error e)
      | (s2, .ok rs) => (s2, .ok (r.map (·.2) :: rs))

/-- the loop over parameters (bin/rabbit_fit.py:748-768); without names all parameters are scanned -/
def paramRows (opt : V → Nat → Vec V → Contour V) (dx : V → Nat → List Nat → Vec V) (levels : List V) : List String → Nat → Sess V →
    Sess V × Res (List (List (List (Option (Vec V)))))
  | [], _, s => (s, .ok [])
  | p :: ps, c, s => match levelRows opt dx p levels c s with
    | (s1, .error e) => (s1, .error e)
    | (s1, .ok r) => match paramRows opt dx levels ps (c + 2 * levels.length) s1 with
      | (s2, .error e) => (s2, .error e)
      | (s2, .ok rs) => (s2, .ok (r :: rs))

def contourTable (opt : V → Nat → Vec V → Contour V) (dx : V → Nat → List Nat → Vec V) (levels : List V) (names : List String) (s : Sess V) :
    Sess V × Res (List String × List (List (List (Option (Vec V))))) :=
  let ps := if names.isEmpty then s.fr.parms else names
  match paramRows opt dx levels ps 0 s with
  | (s1, .error e) => (s1, .error e)
  | (s1, .ok rs) => (s1, .ok (ps, rs))

end

end Verif.ContourEval
