import Verif.Model.Py

/-
Reading pseudo-data (rabbit/inputdata.py:27-71) and the loop over the requested fits of the fit script
(bin/rabbit_fit.py:828-831, 915-989; the same loop in bin/rabbit_limit.py:301-360).
The fits themselves and the file format are not part of this model.
-/

namespace Verif.Driver

variable {α : Type}

/-! ## pseudo-data -/

/-- pseudo-data in memory: names, values (bins x sets) and variances, if any, with their own number of sets -/
structure Pseudo (α : Type) where
  names : List String
  ncols : Nat
  obs : Nat → Nat → α
  var : Option (Nat × (Nat → Nat → α))

/-- selection of the requested sets (inputdata.py:40-71); `none`: no pseudo-data requested, `some []`: all.
The values are those of the file; the variances are not selected. -/
def readPseudo (requested : Option (List String)) (file : Pseudo α) : Res (Option (Pseudo α)) :=
  match requested with
  | none => .ok none
  | some [] => .ok (some file)
  | some (r :: rs) =>
    if !(r :: rs).all file.names.contains then .error .value
    else
      let idx := (List.range file.names.length).filter fun i => (r :: rs).contains (file.names.getD i "")
      if idx.isEmpty then .error .value
      else .ok (some ⟨idx.map fun i => file.names.getD i "", idx.length, fun b k => file.obs b (idx.getD k 0), file.var⟩)

/-- `zip(tf.transpose(pseudodata_obs), …)` (rabbit_fit.py:920-929): values and variances of each data set -/
def datasets (p : Pseudo α) : List ((Nat → α) × Option (Nat → α)) :=
  match p.var with
  | none => (List.range p.ncols).map fun j => (fun b => p.obs b j, none)
  | some (m, v) => (List.range (min p.ncols m)).map fun j => (fun b => p.obs b j, some fun b => v b j)

/-! ## the requested fits -/

/-- list of fits (rabbit_fit.py:828-830): -1 asimov, 0 data, from 1 toys -/
def fitsOf (toys : List Int) : List Int :=
  toys.flatMap fun x => if x ≤ 0 then [x] else (List.range x.toNat).map fun k => 1 + Int.ofNat k

/-- `"_".join` -/
def join : List String → String
  | [] => ""
  | [a] => a
  | a :: b :: l => a ++ "_" ++ join (b :: l)

/-- the data of one fit -/
inductive Source where
  | asimov
  | data (j : Nat)
  | toy (k : Int) (j : Nat)
  | unchanged
deriving DecidableEq

/-- the label of the fit is appended to the group (rabbit_fit.py:935-942) -/
def labelled (ifit : Int) (group : List String) : List String :=
  if ifit = -1 then group ++ ["asimov"]
  else if ifit = 0 then group
  else if 1 ≤ ifit then group ++ [s!"toy{ifit}"]
  else group

/-- the label of the pseudo-data set (rabbit_fit.py:952-957) -/
def named (pseudo : Option (List String)) (j : Nat) (group : List String) : Res (List String) :=
  match pseudo with
  | none => .ok group
  | some names => match names[j]? with
    | none => .error .index
    | some n => .ok (if j = 0 then group ++ [n] else group.set (group.length - 1) n)

/-- the data that is fitted (rabbit_fit.py:934-950) -/
def source (ifit : Int) (j : Nat) : Source :=
  if ifit = -1 then .asimov else if ifit = 0 then .data j else if 1 ≤ ifit then .toy ifit j else .unchanged

/-- the loop over the data sets of one fit (rabbit_fit.py:931-987): key and data of each result.  `n` sets remain, `j` is
the index of the next -/
def setLoop (ifit : Int) (pseudo : Option (List String)) : (n j : Nat) → (group : List String) → Res (List (String × Source))
  | 0, _, _ => .ok []
  | n + 1, j, group =>
    match named pseudo j (labelled ifit group) with
    | .error e => .error e
    | .ok g => match setLoop ifit pseudo n (j + 1) g with
      | .error e => .error e
      | .ok rest => .ok ((join g, source ifit j) :: rest)

/-- the loop over the fits (rabbit_fit.py:915-987) -/
def fitLoop (pseudo : Option (List String)) (nsets : Nat) : List Int → Res (List (String × Source))
  | [] => .ok []
  | f :: fs =>
    match setLoop f pseudo nsets 0 ["results"] with
    | .error e => .error e
    | .ok l => match fitLoop pseudo nsets fs with
      | .error e => .error e
      | .ok rest => .ok (l ++ rest)

/-- all results of a run; without pseudo-data there is one data set -/
def results (toys : List Int) (pseudo : Option (List String)) : Res (List (String × Source)) :=
  fitLoop pseudo (match pseudo with
    | none => 1
    | some names => names.length) (fitsOf toys)

end Verif.Driver
