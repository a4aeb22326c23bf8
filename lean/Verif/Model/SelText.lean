import Verif.Model.Mappings
import Verif.Model.Datacard

/-
The text of an axis selection and the arguments of the mappings on the command line (rabbit/mappings/helpers.py:32-81,
mapping.py:218-253, ratio.py:110-158, angular_coefficients.py:94-133).

Simplifications: `int`, `complex` and `np.fromstring(…, sep=",")` are parameters; complex numbers (selections by value, for the
histogram library) are an arbitrary type with `z + 1`; the channel, the processes and the selections are handed to the constructors
modelled in `Mappings`.
-/

namespace Verif.SelText

open Verif.Mappings Verif.Datacard Verif.Grid

/-- conversions of the interpreter and of numpy -/
structure Env (V C : Type) where
  int : Line → Res Int
  cplx : Line → Res C
  succ : C → C
  edges : Line → Res (List V)

/-- what a bound of a slice can be -/
inductive Num (C : Type) where
  | int (n : Int)
  | cplx (z : C)
deriving DecidableEq, Repr

/-- `slice(start, stop, step)` -/
structure Slc (C : Type) where
  start : Option (Num C) := none
  stop : Option (Num C) := none
  step : Option (Num C) := none
deriving DecidableEq, Repr

/-- `(sel, rebin_axes, sum_axes)` (helpers.py:42-44, 81) -/
structure Out (V C : Type) where
  sel : Dict String (Slc C) := []
  rebin : Dict String (List V) := []
  sum : List String := []
deriving DecidableEq, Repr

variable {V C : Type}

/-- the pattern `[^()]*\)`: the next parenthesis closes (helpers.py:46) -/
def closes : Line → Bool
  | [] => false
  | c :: r => if c = ')' then true else if c = '(' then false else closes r

/-- `re.split(r",(?![^()]*\))", text)` (helpers.py:46) -/
def splitTop : Line → List Line
  | [] => [[]]
  | c :: r =>
    if c = ',' && !closes r then [] :: splitTop r
    else match splitTop r with
      | [] => [[c]]
      | a :: t => (c :: a) :: t

/-- `p in l` for strings -/
def contains (p : Line) : Line → Bool
  | [] => p.isPrefixOf []
  | c :: r => p.isPrefixOf (c :: r) || contains p r

/-- an integer, or a complex number if there is a `j` (helpers.py:54-57, 67-70) -/
def number (env : Env V C) (x : Line) : Res (Num C) :=
  if 'j' ∈ x then (env.cplx x).map .cplx else (env.int x).map .int

/-- an argument of `slice` (helpers.py:51-57) -/
def sliceArg (env : Env V C) (x : Line) : Res (Option (Num C)) :=
  if x = "None".toList then .ok none else (number env x).map some

/-- the arguments in order (helpers.py:50-57) -/
def sliceArgs (env : Env V C) : List Line → Res (List (Option (Num C)))
  | [] => .ok []
  | x :: r => match sliceArg env x with
    | .error e => .error e
    | .ok a => match sliceArgs env r with
      | .error e => .error e
      | .ok t => .ok (a :: t)

/-- `slice(*args)` (helpers.py:58) -/
def mkSlice : List (Option (Num C)) → Res (Slc C)
  | [b] => .ok ⟨none, b, none⟩
  | [a, b] => .ok ⟨a, b, none⟩
  | [a, b, c] => .ok ⟨a, b, c⟩
  | _ => .error .type

/-- `v[6:-1]` -/
def inner (v : Line) : Line := (v.drop 6).dropLast

/-- `x + 1` -/
def Num.succ (env : Env V C) : Num C → Num C
  | .int n => .int (n + 1)
  | .cplx z => .cplx (env.succ z)

/-- the selection of one axis (helpers.py:47-75) -/
def apply (env : Env V C) (o : Out V C) (k : String) (v : Line) : Res (Out V C) :=
  if contains "slice".toList v then
    match sliceArgs env (splitOn ',' (inner v)) with
    | .error e => .error e
    | .ok as => match mkSlice as with
      | .error e => .error e
      | .ok s => .ok { o with sel := Dict.set o.sel k s }
  else if v = "sum".toList then .ok { o with sum := o.sum ++ [k] }
  else if starts "rebin" v then
    match env.edges (inner v) with
    | .error e => .error e
    | .ok es => .ok { o with rebin := Dict.set o.rebin k es }
  else if v = "None".toList then .ok { o with sel := Dict.set o.sel k {} }
  else match number env v with
    | .error e => .error e
    | .ok x => .ok { o with sel := Dict.set o.sel k ⟨some x, some (x.succ env), none⟩, sum := o.sum ++ [k] }

/-- the loop over the pieces, with the name that is left in `k` (helpers.py:47-75) -/
def run (env : Env V C) : Out V C → Option String → List Line → Res (Out V C × Option String)
  | o, k, [] => .ok (o, k)
  | o, _, p :: r => match splitOn ':' p with
    | [k, v] => match apply env o (String.ofList k) v with
      | .error e => .error e
      | .ok o' => run env o' (some (String.ofList k)) r
    | _ => .error .value

/-- `parse_axis_selection` (helpers.py:32-81); the second loop asks for the same `k` every time -/
def parse (env : Env V C) (text : Line) : Res (Out V C) :=
  if text = "None:None".toList then .ok {}
  else match run env {} none (splitTop text) with
    | .error e => .error e
    | .ok (o, none) => .ok o
    | .ok (o, some k) => if Dict.has o.sel k then .ok o else .ok { o with sel := Dict.set o.sel k {} }

/-- a bound as the tensor library takes it in `values[self.selections]` (helpers.py:188-189): it raises `TypeError` for a complex
number -/
def toBound : Option (Num C) → Res (Option Int)
  | none => .ok none
  | some (.int n) => .ok (some n)
  | some (.cplx _) => .error .type

/-- a slice as the tensor library takes it -/
def toPick (s : Slc C) : Res Pick :=
  match toBound s.start, toBound s.stop, toBound s.step with
  | .ok a, .ok b, .ok c => .ok (.slc a b c)
  | _, _, _ => .error .type

def toPicks : Dict String (Slc C) → Res (Dict String Pick)
  | [] => .ok []
  | (k, s) :: r => match toPick s with
    | .error e => .error e
    | .ok p => match toPicks r with
      | .error e => .error e
      | .ok t => .ok ((k, p) :: t)

/-- the selections as they are applied to the predictions -/
def toSels (o : Out V C) : Res (Sels V) :=
  match toPicks o.sel with
  | .error e => .error e
  | .ok d => .ok ⟨d, o.rebin, o.sum⟩

/-- `[p for p in text.split(",") if p != "None"]` (mapping.py:231) -/
def procList (text : Line) : List String := ((splitOn ',' text).map String.ofList).filter (· ≠ "None")

/-- `":" in a` -/
def hasColon (a : Line) : Bool := ':' ∈ a

/-- `Select.parse_args` (mapping.py:218-253): the processes and the selections; the channel comes before `args` -/
def selectArgs (env : Env V C) (args : List Line) : Res (List String × Out V C) :=
  let procs := match args with
    | [] => []
    | a :: _ => if hasColon a then [] else procList a
  match parse env ((args.find? hasColon).getD "None:None".toList) with
  | .error e => .error e
  | .ok o => .ok (procs, o)

/-- the processes of a ratio (ratio.py:126-131) -/
def ratioProcs (args : List Line) : Res (List String × List String) :=
  match args[2]? with
  | none => .ok ([], [])
  | some a =>
    if hasColon a then .ok ([], [])
    else match args[3]? with
      | none => .error .index
      | some b => .ok (procList a, procList b)

/-- the texts of the two selections (ratio.py:134-137) -/
def ratioSels (args : List Line) : Line × Option Line :=
  match args.filter hasColon with
  | [] => ("None:None".toList, some "None:None".toList)
  | a :: r => (a, r.head?)

/-- the arguments of the constructor of a ratio -/
structure RatioArgs (V C : Type) where
  num : String
  den : String
  procsNum : List String
  procsDen : List String
  selNum : Out V C
  selDen : Out V C
deriving DecidableEq, Repr

/-- `Ratio.parse_args` (ratio.py:110-158) -/
def ratioArgs (env : Env V C) (args : List Line) : Res (RatioArgs V C) :=
  match ratioProcs args with
  | .error e => .error e
  | .ok (pn, pd) => match parse env (ratioSels args).1 with
    | .error e => .error e
    | .ok sn => match (ratioSels args).2 with
      | none => .error .index
      | some t => match parse env t with
        | .error e => .error e
        | .ok sd => match args with
          | a :: b :: _ => .ok ⟨String.ofList a, String.ofList b, pn, pd, sn, sd⟩
          | _ => .error .index

/-- `AngularCoefficients.parse_args` (angular_coefficients.py:94-133): channel, processes and selections -/
def angularArgs (env : Env V C) (args : List Line) : Res (String × List String × Out V C) :=
  let procs := match args with
    | _ :: a :: _ :: _ => if hasColon a then [] else procList a
    | _ => []
  let sel : Res (Out V C) := match args.filter hasColon with
    | [] => .ok {}
    | a :: _ => parse env a
  match sel with
  | .error e => .error e
  | .ok o => match args with
    | [] => .error .index
    | a :: _ => .ok (String.ofList a, procs, o)

end Verif.SelText
