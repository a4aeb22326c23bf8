/-
Python data structures used by every other model file: exceptions as values, insertion-ordered
dictionaries, sets.  Models the semantics of the built-ins that /repo/rabbit relies on.
-/

namespace Verif

/-- Exceptions as values: the class of the Python exception that is raised. -/
inductive Err where
  | exception | runtime | value | key | index | type | notImpl | attr | assertion | zeroDiv
deriving DecidableEq, Repr

/-- Result of a Python call that may raise. -/
abbrev Res (α : Type _) := Except Err α

/-- A Python `dict`: insertion-ordered association list (Python ≥ 3.7 semantics). -/
abbrev Dict (κ : Type _) (ν : Type _) := List (κ × ν)

namespace Dict
variable {κ ν : Type _} [DecidableEq κ]

/-- `d.get(k)` -/
def get? : Dict κ ν → κ → Option ν
  | [], _ => none
  | (k', v) :: d, k => if k' = k then some v else get? d k

/-- `d[k]` (raises `KeyError`) -/
def get (d : Dict κ ν) (k : κ) : Res ν :=
  match get? d k with
  | some v => .ok v
  | none => .error .key

/-- `d[k] = v`: an existing key keeps its position, a new key is appended. -/
def set : Dict κ ν → κ → ν → Dict κ ν
  | [], k, v => [(k, v)]
  | (k', v') :: d, k, v => if k' = k then (k', v) :: d else (k', v') :: set d k v

/-- `k in d` -/
def has (d : Dict κ ν) (k : κ) : Bool := (get? d k).isSome

/-- `list(d.keys())` -/
def keys (d : Dict κ ν) : List κ := d.map Prod.fst

/-- `{**d, **e}`: keys of `d` keep their position, values of `e` win. -/
def merge (d e : Dict κ ν) : Dict κ ν := e.foldl (fun acc kv => set acc kv.1 kv.2) d

end Dict

/-- `s.add(x)` for a Python `set`.  The list is the insertion order; the iteration order of a Python
set is unspecified, so code that iterates over a set takes an iteration-order parameter. -/
def setAdd {α : Type _} [DecidableEq α] (s : List α) (x : α) : List α :=
  if x ∈ s then s else s ++ [x]

/-- insertion before the first element that `x` may precede -/
def pyInsert {α : Type _} (le : α → α → Bool) (x : α) : List α → List α
  | [] => [x]
  | y :: l => if le x y then x :: y :: l else y :: pyInsert le x l

/-- Python's `sorted` for the order `le` (a total preorder): the stable sort. -/
def pySort {α : Type _} (le : α → α → Bool) (l : List α) : List α := l.foldr (pyInsert le) []

end Verif
