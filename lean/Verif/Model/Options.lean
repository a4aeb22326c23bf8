import Verif.Model.BBB
import Verif.Model.Py

/-
How the options of a fit are resolved (rabbit/fitter.py:101-205, rabbit/bbstat/bbstat.py:60-110, the tf.functions of
rabbit/fitter.py:2129-2198, the call of the minimiser in rabbit/fitter.py:2240-2316, the choices of rabbit/parsing.py).
Strings are those of the command line.  What SciPy and TensorFlow do with the resolved values is stated in the
specification of the property theorems.
-/

namespace Verif.Options

open Verif.BBB

/-- a value of `options.jitCompile`: `True` / `False` of a programmatic caller, or text -/
inductive Jit where
  | flag (b : Bool)
  | text (s : String)
deriving DecidableEq

/-- The options the constructor reads.  `none` where the attribute may be missing (`getattr` with a default). -/
structure Opts where
  jitCompile : Option Jit := none
  hvpMethod : Option String := none
  noHessian : Option Bool := none
  forceLinear : Option Bool := none
  chisqFit : Bool := false
  covarianceFit : Bool := false
  noBinByBinStat : Bool := false
  statMode : String := "lite"
  statType : String := "automatic"
  method : String := "trust-krylov"

/-- What the constructor reads of the input: kind of the systematics, storage of the templates, presence of the inverse
covariance of the data. -/
structure Input where
  systematicType : String
  sparse : Bool
  dataCovInv : Bool

/-- the function bound to `loss_val_grad_hessp` -/
inductive Hvp where
  | fwdrev | revrev
deriving DecidableEq

/-- `Fitter.jit_compile` (fitter.py:130-157) -/
def jitCompile (o : Opts) (sparse : Bool) : Res Bool :=
  let opt := o.jitCompile.getD (.text "auto")
  let s := match opt with
    | .flag true => "on"
    | .flag false => "off"
    | .text s => s
  if s ∉ ["auto", "on", "off"] then .error .value
  else if s = "off" then .ok false
  else if s = "on" then .ok (if sparse then false else true)
  else .ok (!sparse)

/-- which Hessian-vector product is used (fitter.py:2179-2198) -/
def hvp (o : Opts) (sparse : Bool) : Hvp :=
  let m := o.hvpMethod.getD "revrev"
  if m = "fwdrev" ∧ sparse = true then .revrev
  else if m = "fwdrev" then .fwdrev
  else .revrev

/-- whether that function is compiled (fitter.py:2166-2178) -/
def hvpJit (jit : Bool) : Hvp → Bool
  | .fwdrev => false
  | .revrev => jit

/-- `VALID_BIN_BY_BIN_STAT_TYPES` (bbstat.py:16) -/
def validTypes : List String := ["gamma", "normal-additive", "normal-multiplicative"]

/-- `binByBinStatType` (bbstat.py:76-85) -/
def statType (o : Opts) : String :=
  if o.statType = "automatic" then
    if o.covarianceFit then "normal-additive"
    else if o.statMode = "full" then "normal-multiplicative"
    else "gamma"
  else o.statType

/-- the type as used by the formulas -/
def kindOf (s : String) : Kind :=
  if s = "gamma" then .gamma else if s = "normal-additive" then .normAdd else .normMult

/-- the constructor of the bin-by-bin treatment up to the shape of β (bbstat.py:72-113): mode, type and whether it is
enabled.  An unknown mode leaves `beta_shape` unset, which the next statement reads. -/
def bbstat (o : Opts) : Res (Mode × Kind × Bool) :=
  let t := statType o
  let enabled := !o.noBinByBinStat
  if o.covarianceFit && enabled && !("normal".toList.isPrefixOf t.toList) then .error .exception
  else if t ∉ validTypes then .error .runtime
  else if o.statMode = "full" then .ok (.full, kindOf t, enabled)
  else if o.statMode = "lite" then .ok (.lite, kindOf t, enabled)
  else .error .attr

/-- What the constructor has decided. -/
structure Resolved where
  fit : Fit
  mode : Mode
  kind : Kind
  enabled : Bool
  jit : Bool
  hvp : Hvp
  /-- whether the function is compiled -/
  hvpJit : Bool
  computeCov : Bool
  forceLinear : Bool
deriving DecidableEq

/-- the checks and decisions of `Fitter.__init__` in their order (fitter.py:104-215).  Without an inverse covariance
`indata.getattr` is called, which does not exist (fitter.py:204-206). -/
def init (o : Opts) (i : Input) : Res Resolved :=
  if i.systematicType ∉ ["log_normal", "normal"] then .error .runtime
  else match jitCompile o i.sparse with
    | .error e => .error e
    | .ok jit =>
      if o.covarianceFit && o.chisqFit then .error .exception
      else if !o.chisqFit && o.covarianceFit && !i.dataCovInv then .error .attr
      else match bbstat o with
        | .error e => .error e
        | .ok (mode, kind, enabled) => .ok
          { fit := if o.chisqFit then .chisq else if o.covarianceFit then .covariance else .poisson
            mode := mode
            kind := kind
            enabled := enabled
            jit := jit
            hvp := hvp o i.sparse
            hvpJit := hvpJit jit (hvp o i.sparse)
            computeCov := !o.noHessian.getD false
            forceLinear := o.forceLinear.getD false }

/-- what is handed to the minimiser besides value and gradient (fitter.py:2266-2277) -/
inductive Extra where
  | none | hessp | hess
deriving DecidableEq

/-- (fitter.py:2266-2277) -/
def extra (method : String) : Extra :=
  if method ∈ ["trust-krylov", "trust-ncg"] then .hessp
  else if method ∈ ["trust-exact", "dogleg"] then .hess
  else .none

/-- `sci_opts` (fitter.py:2286-2292); numbers are those of the options -/
def sciOpts {V : Type} (maxiter gtol ftol : Option V) : Dict String V :=
  let d : Dict String V := []
  let d := match maxiter with | some v => d.set "maxiter" v | none => d
  let d := match gtol with | some v => d.set "gtol" v | none => d
  match ftol with | some v => d.set "ftol" v | none => d

/-- the keys `scipy.optimize.minimize` fills from `tol` when they are missing, for the methods of the command line (the
library, trusted; `minimize` lowers the case of the method's name) -/
def tolKeys (method : String) : List String :=
  let m := method.toLower
  (if m = "l-bfgs-b" then ["ftol"] else []) ++
    (if m ∈ ["bfgs", "cg", "l-bfgs-b", "dogleg", "trust-ncg", "trust-exact", "trust-krylov"] then ["gtol"] else [])

/-- the options that reach the method: `options.setdefault(key, tol)` with `tol=0.0` (fitter.py:2296-2305) -/
def effective {V : Type} [Zero V] (method : String) (maxiter gtol ftol : Option V) : Dict String V :=
  (tolKeys method).foldl (fun d k => if d.has k then d else d.set k 0) (sciOpts maxiter gtol ftol)

/-- the choices of the command line (parsing.py:190-235, 400-413): `argparse` accepts no other values -/
def cliOk (o : Opts) : Bool :=
  (match o.jitCompile with | some (.text s) => s ∈ ["auto", "on", "off"] | _ => false) &&
  (match o.hvpMethod with | some s => s ∈ ["fwdrev", "revrev"] | none => false) &&
  o.noHessian.isSome && o.forceLinear.isSome &&
  o.statMode ∈ ["lite", "full"] &&
  o.statType ∈ "automatic" :: validTypes &&
  o.method ∈ ["trust-krylov", "trust-exact", "BFGS", "L-BFGS-B", "CG", "trust-ncg", "dogleg"]

end Verif.Options
