import Verif.Model.IoTools
import Mathlib.Algebra.Order.Group.Abs
import Mathlib.Algebra.Order.Field.Basic

/-
The printout of impacts, bin/rabbit_print_impacts.py:32-131, on top of the readers of fit results.

Simplifications: the lines are pairs of label and printed number(s); `np.argsort`, rounding to five digits and the square root are
parameters; exact arithmetic; the loop over the bins of a histogram is left out, one bin is its values; the text of the headers is
left out.
-/

namespace Verif.ImpactPrint

open Verif.IoTools

/-- the options (rabbit_print_impacts.py:10-29) -/
structure Opt (V : Type) where
  sort : Bool := false
  asym : Bool := false
  ungroup : Bool := false
  relative : Bool := false
  nuisance : Option String := none
  scale : V
  kind : String := "traditional"

/-- an element of the array of impacts -/
inductive Item (V : Type) where
  | num (v : V)
  | row (l : List V)
deriving DecidableEq, Repr

/-- what is printed after a label -/
inductive Cell (V : Type) where
  | one (v : V)
  | two (hi lo : V)
deriving DecidableEq, Repr

variable {V : Type}

/-- the elements of an array; iterating over a scalar raises `TypeError` -/
def items : Arr V → Res (List (Item V))
  | .scalar _ => .error .type
  | .vec l => .ok (l.map .num)
  | .mat l => .ok (l.map .row)

/-- `max(l)`; `ValueError` for the empty list -/
def maxOf [Max V] : List V → Res V
  | [] => .error .value
  | a :: l => .ok (l.foldl max a)

/-- `min(l)` -/
def minOf [Min V] : List V → Res V
  | [] => .error .value
  | a :: l => .ok (l.foldl min a)

section
variable [Field V] [LinearOrder V]

/-- the number to sort by (rabbit_print_impacts.py:68-71) -/
def keyOf : Item V → Res V
  | .num v => .ok v
  | .row l => maxOf (l.map fun x => |x|)

def keysOf : List (Item V) → Res (List V)
  | [] => .ok []
  | x :: r => (keyOf x).bind fun k => (keysOf r).map fun t => k :: t

/-- `fimpact` (rabbit_print_impacts.py:75-84): the iteration over a number and the rounding of an array raise `TypeError` -/
def fimpact (rnd : V → V) (asym : Bool) (scale : V) : Item V → Res (Cell V)
  | .num v => if asym then .error .type else .ok (.one (rnd (v * scale)))
  | .row l =>
    if asym then (maxOf l).bind fun a => (minOf l).map fun b => .two (rnd (a * scale)) (rnd (b * scale)) else .error .type

/-- the lines of all labels (rabbit_print_impacts.py:95) -/
def lines (rnd : V → V) (asym : Bool) (scale : V) : List (String × Item V) → Res (List (String × Cell V))
  | [] => .ok []
  | (k, v) :: r => (fimpact rnd asym scale v).bind fun c => (lines rnd asym scale r).map fun t => (k, c) :: t

/-- sorting (rabbit_print_impacts.py:63-73) -/
def sorted (argsort : List V → List Nat) (o : Opt V) (xs : List (Item V)) (labels : List String) :
    Res (List (Item V) × List String) :=
  if o.sort then
    (keysOf xs).bind fun ks => (takeList labels (argsort ks)).bind fun ls => (takeList xs (argsort ks)).map fun ys => (ys, ls)
  else .ok (xs, labels)

/-- `printImpacts` (rabbit_print_impacts.py:62-95) -/
def printImpacts (argsort : List V → List Nat) (rnd : V → V) (o : Opt V) (impacts : Arr V) (labels : List String) (scale : V) :
    Res (List (String × Cell V)) :=
  (items impacts).bind fun xs => (sorted argsort o xs labels).bind fun (xs, labels) =>
  match o.nuisance with
  | some n =>
    if n = "" then lines rnd o.asym (scale * o.scale) (labels.zip xs)
    else if n ∈ labels then match xs[labels.idxOf n]? with
      | none => .error .index
      | some x => (fimpact rnd o.asym (scale * o.scale) x).map fun c => [(n, c)]
    else .error .value
  | none => lines rnd o.asym (scale * o.scale) (labels.zip xs)

/-- `printImpactsParm` (rabbit_print_impacts.py:46-59) -/
def printParm (sqrt : V → V) (search : String → String → Bool) (argsort : List V → List Nat) (rnd : V → V) (o : Opt V)
    (res : Dict String (Hist V)) (poi : String) : Res (List (String × Cell V)) :=
  if o.relative then .error .notImpl
  else (readImpacts sqrt search res poi (!o.ungroup) o.kind false (o.kind ≠ "nonprofiled") o.asym).bind fun r =>
    printImpacts argsort rnd o r.impacts r.labels 1

/-- `printImpactsHist` (rabbit_print_impacts.py:32-44): impacts on one bin with its content and variance -/
def printBin (sqrt : V → V) (argsort : List V → List Nat) (rnd : V → V) (o : Opt V) (labels : List String) (impacts : List V)
    (value variance : V) : Res (List (String × Cell V)) :=
  let all := impacts ++ [sqrt variance]
  printImpacts argsort rnd o (.vec (if o.relative then all.map (· / value) else all)) (labels ++ ["Total"]) (if o.relative then 100 else 1)

end

/-- the name of the histogram of impacts on the bins of a mapping (rabbit_print_impacts.py:102-119) -/
def binsKey (o : Opt V) : Res String :=
  if o.asym then .error .notImpl
  else if o.kind ≠ "global" ∧ o.kind ≠ "gaussian_global" then .error .notImpl
  else .ok ("hist_postfit_inclusive_global_impacts" ++ if o.ungroup then "" else "_grouped")

/-- the name under which the impacts of a kind are stored (workspace.py:535-568) -/
def storedKey (kind : String) (grouped : Bool) : String :=
  "hist_postfit_inclusive_" ++ kind ++ "_impacts" ++ if grouped then "_grouped" else ""

end Verif.ImpactPrint
