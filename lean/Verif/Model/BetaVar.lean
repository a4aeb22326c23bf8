import Mathlib.Analysis.Real.Sqrt
import Mathlib.Algebra.BigOperators.Group.Finset.Basic
import Verif.Model.Write
import Verif.Model.Batched
import Verif.Model.Grid
import Verif.Model.BBB

/-
Template variations of a masked channel that are correlated with the statistical nuisance parameters β of a fitted
channel: their registration (rabbit/tensorwriter.py:1264-1315), their place in the written file
(tensorwriter.py:1930-1991) and their use in the prediction (rabbit/bbstat/bbstat.py:843-863).

Simplifications: numbers in a field; contents are finite; the dictionaries of the writer that these calls do not read
are those of `Verif.Model.Writer`.
-/

namespace Verif.BetaVar

open Verif.Logk Verif.Writer

/-- A `hist.Hist`: axes and the content of every cell, flow cells included (multi-index in the with-flow layout). -/
structure BHist (V : Type) where
  axes : List Axis
  content : List Nat → V

/-- `dict_beta_variations[dest][source][process]` (rows: bins of the destination) and `has_beta_variations` -/
structure BState (V : Type) where
  dict : Dict String (Dict String (Dict String (List (List V)))) := []
  has : Bool := false

section
variable {V : Type} [Field V] [LinearOrder V]

/-- one cell of `h.project(*names)`: the sum over all cells of `h`, flow included, with that position on the kept axes
(behaviour of the package hist, trusted) -/
def projectCell (h : BHist V) (ps m : List Nat) : V :=
  (((Grid.grid (dims true h.axes)).filter fun idx => decide (ps.map (idx.getD · 0) = m)).map h.content).sum

/-- `h.project(*names).values(flow=flow)`, flattened; without flow the regular bins are read -/
def projectValues (h : BHist V) (ps : List Nat) (flow : Bool) : List V :=
  let axes := ps.map (Batched.axisAt h.axes)
  (List.range (prod (dims flow axes))).map fun k =>
    projectCell h ps (List.zipWith (fun a i => if flow then i else i + a.off) axes (unravel (dims flow axes) k))

/-- `values.reshape((n, -1))`: rows of equal length -/
def rowsOf (n : Nat) (l : List V) : List (List V) :=
  let m := l.length / n
  (List.range n).map fun r => (List.range m).map fun c => l.getD (r * m + c) 0

/-- `add_beta_variations` (tensorwriter.py:1264-1315).  `h.project` raises for repeated names; `reshape` raises when the
number of values is no multiple of the number of bins of the template (or that is zero).  The entry
`dict_beta_variations[dest]` was made by `add_channel`. -/
def addBeta (cfg : Cfg V) (h : BHist V) (proc src dest : String) (s : State V) (b : BState V) : Res (BState V) :=
  if cfg.sparse then .error .notImpl
  else match s.channels.get? src with
  | none => .error .runtime
  | some cs => match s.channels.get? dest with
    | none => .error .runtime
    | some cd =>
      if !cd.masked then .error .runtime
      else match (s.norm.get? dest).bind (·.get? proc) with
      | none => .error .key
      | some (.csr ..) => .error .type
      | some (.dense norm) =>
        if (cs.axes ++ cd.axes).any fun a => decide (a.name ∉ h.axes.map (·.name)) then .error .runtime
        else
          let names := (cd.axes ++ cs.axes).map (·.name)
          if ¬ names.Nodup then .error .value
          else
            let vals := projectValues h (names.map fun n => (h.axes.map (·.name)).idxOf n) cd.flow
            if norm.length = 0 ∨ vals.length % norm.length ≠ 0 then .error .value
            else
              let d := (b.dict.get? dest).getD []
              let e := (d.get? src).getD []
              .ok ⟨b.dict.set dest (d.set src (e.set proc (rowsOf norm.length vals))), true⟩

/-- the calls on a writer, with `add_beta_variations` -/
inductive BOp (V : Type) where
  | op (o : Op V)
  | beta (h : BHist V) (proc src dest : String)

/-- `add_channel` also empties `dict_beta_variations[name]` (tensorwriter.py:266), unless it raises before that -/
def resetBeta (o : Op V) (s : State V) (b : BState V) : BState V :=
  match o with
  | .channel _ name masked flow =>
    if flow && !masked then b else { b with dict := b.dict.set (name.getD s!"ch{s.channels.length}") [] }
  | _ => b

/-- one call; a call that raises leaves the variations as they were -/
def bstep (cfg : Cfg V) (x : State V × BState V) : BOp V → State V × BState V
  | .op o => ((step cfg o x.1).1, resetBeta o x.1 x.2)
  | .beta h proc src dest => match addBeta cfg h proc src dest x.1 x.2 with
    | .ok b => (x.1, b)
    | .error _ => x

/-- a history of calls on a fresh writer -/
def brun (cfg : Cfg V) (ops : List (BOp V)) : State V × BState V := ops.foldl (bstep cfg) ({}, {})

/-- bins of the source channel (tensorwriter.py:1957-1972): running over `nbinschan`, masked channels skipped -/
def srcRange (ch : Dict String Chan) (src : String) : Nat → Dict String Nat → Res (Nat × Nat)
  | _, [] => .error .runtime
  | k, (c, nb) :: rest => match ch.get? c with
    | none => .error .key
    | some x =>
      if x.masked then srcRange ch src k rest
      else if c = src then .ok (k, k + nb)
      else srcRange ch src (k + nb) rest

/-- one assignment to be made: bins of the destination, source, process number, values -/
structure BTask (V : Type) where
  start : Nat
  n : Nat
  src : String
  ip : Nat
  rows : List (List V)

/-- the loops over channels, processes with a template and sources (tensorwriter.py:1933-1977) -/
def betaTasks (s : State V) (b : BState V) (procs : List String) (lay : List Slot) : List (BTask V) :=
  lay.flatMap fun sl => procs.zipIdx.flatMap fun p =>
    if ((s.norm.get? sl.name).bind (·.get? p.1)).isSome then
      ((b.dict.get? sl.name).getD []).flatMap fun e => match e.2.get? p.1 with
        | some rows => [⟨sl.start, sl.n, e.1, p.2, rows⟩]
        | none => []
    else []

/-- `beta_variations[start:start + n, c:c + w, ip] = rows` with the broadcasting of numpy -/
def assignBlock (f : Nat → Nat → Nat → V) (t : BTask V) (c w : Nat) : Res (Nat → Nat → Nat → V) :=
  let r := t.rows.length
  let m := (t.rows.headD []).length
  if (r = t.n ∨ r = 1) ∧ (m = w ∨ m = 1) then
    .ok fun i j p =>
      if p = t.ip ∧ (t.start ≤ i ∧ i < t.start + t.n) ∧ (c ≤ j ∧ j < c + w) then
        (t.rows.getD (if r = 1 then 0 else i - t.start) []).getD (if m = 1 then 0 else j - c) 0
      else f i j p
  else .error .value

/-- body of the loops -/
def betaBody (s : State V) (f : Nat → Nat → Nat → V) (t : BTask V) : Res (Nat → Nat → Nat → V) :=
  match srcRange s.channels t.src 0 s.nbinschan with
  | .error e => .error e
  | .ok cd => assignBlock f t cd.1 (cd.2 - cd.1)

/-- `write` (tensorwriter.py:1635-2170) with the dataset `hbetavariations` (indices: bin, fitted bin, process); `none`
when no variation was registered.  The loops for the variations run inside those of `write`; both must succeed for a
file to be written, which of two errors is met first is not modelled. -/
def writeBeta (cfg : Cfg V) (iter : List String → List String) (x : State V × BState V) :
    Res (Tensor V × Option (Nat → Nat → Nat → V)) :=
  match (write cfg iter x.1).2 with
  | .error e => .error e
  | .ok t =>
    if !x.2.has then .ok (t, none)
    else match layoutFrom x.1.nbinschan 0 x.1.channels with
      | .error e => .error e
      | .ok lay => match loop (betaBody x.1) (fun _ _ _ => 0) (betaTasks x.1 x.2 t.procs lay) with
        | .error e => .error e
        | .ok f => .ok (t, some f)

end

/-! ### The prediction -/

/-- Inputs of `_compute_yields_with_beta` in mode "full": per bin and process the file's nominal yield, the yield at the
current parameters, the mask and `kstat` of β (bbstat.py:149-208); number of fitted bins; the variations. -/
structure Fit where
  nbins : Nat
  n0 : Nat → Nat → ℝ
  norm : Nat → Nat → ℝ
  masked : Nat → Nat → Prop
  k : Nat → Nat → ℝ
  betavar : Option (Nat → Nat → Nat → ℝ)

namespace Fit
variable (f : Fit)

open Classical in
/-- `dbeta` (bbstat.py:846-850) -/
noncomputable def dbeta (beta : Nat → Nat → ℝ) (j p : Nat) : ℝ :=
  if f.masked j p then 0 else √(f.k j p) * (beta j p - 1)

/-- `var` (bbstat.py:851): `einsum("ijk,jk->ik", betavar, dbeta)` -/
noncomputable def var (B : Nat → Nat → Nat → ℝ) (beta : Nat → Nat → ℝ) (i p : Nat) : ℝ :=
  ∑ j ∈ Finset.range f.nbins, B i j p * f.dbeta beta j p

/-- lines 843-854: only when the file has variations and the full set of bins is computed -/
noncomputable def varied (full : Bool) (beta : Nat → Nat → ℝ) (i p : Nat) : ℝ :=
  match f.betavar with
  | none => f.norm i p
  | some B =>
    if full then if 0 < f.n0 i p then f.norm i p * (1 + f.var B beta i p / f.n0 i p) else f.norm i p
    else f.norm i p

open Classical in
/-- predicted yield per process, types "gamma" and "normal-multiplicative" in mode "full" (bbstat.py:842-857) -/
noncomputable def pred (full : Bool) (beta : Nat → Nat → ℝ) (i p : Nat) : ℝ :=
  if f.masked i p then f.varied full beta i p else beta i p * f.varied full beta i p

/-- predicted yield per process, type "normal-additive" in mode "full" (bbstat.py:880-884), `varbeta` being given -/
noncomputable def predAdditive (varbeta : Nat → Nat → ℝ) (beta : Nat → Nat → ℝ) (i p : Nat) : ℝ :=
  f.norm i p + √(varbeta i p) * beta i p

end Fit

end Verif.BetaVar
