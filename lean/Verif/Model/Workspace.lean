import Verif.Model.Mappings

/-
Composition of mappings (rabbit/mappings/mapping.py:85-151) and storage of histograms in the results file
(rabbit/workspace.py).  A mapping is what the rest of the code reads of it: its key, its channels, four flags and its two
compute functions.  Fit parameters are an argument of the compute functions in the code; here they are fixed.
-/

namespace Verif.Workspace

open Verif.ABCD Verif.Grid Verif.Mappings

variable {V : Type}

/-- an entry of `channel_info` -/
structure ChInfo (V : Type) where
  axes : List (Axis V)
  flow : Bool := false
  masked : Bool := false

/-- a mapping (mapping.py:6-48) -/
structure Mp (V : Type) where
  key : String
  info : Dict String (ChInfo V)
  ndf : Nat := 0
  hasData : Bool := true
  needProcesses : Bool := false
  skipPerProcess : Bool := false
  flat : Tensor V → Res (List V)
  perProcess : Tensor V → Res (List (List V))

/-- `tf.reduce_sum(observables, axis=1)`; raises on a tensor with one axis -/
def sumProcs [AddMonoid V] (obs : Tensor V) : Res (Tensor V) :=
  if obs.shape.length ≤ 1 then .error .value else .ok (obs.reduceSum [1])

/-- the loop of `CompositeMapping.compute_flat` (mapping.py:122-132): the summed observables replace the observables for
all components that follow -/
def compFlatGo [AddMonoid V] (need : Bool) : List (Mp V) → Tensor V → Res (List (List V))
  | [], _ => .ok []
  | m :: ms, obs => match (if need && !m.needProcesses then sumProcs obs else .ok obs) with
    | .error e => .error e
    | .ok obs => match m.flat obs with
      | .error e => .error e
      | .ok r => match compFlatGo need ms obs with
        | .error e => .error e
        | .ok rs => .ok (r :: rs)

/-- `tf.concat(exp_list, axis=0)`; raises on the empty list -/
def concat {α : Type} : Res (List (List α)) → Res (List α)
  | .error e => .error e
  | .ok [] => .error .value
  | .ok l => .ok l.flatten

/-- the list of `CompositeMapping.compute_flat_per_process` (mapping.py:134-139) -/
def compProcGo : List (Mp V) → Tensor V → Res (List (List (List V)))
  | [], _ => .ok []
  | m :: ms, obs => match m.perProcess obs with
    | .error e => .error e
    | .ok r => match compProcGo ms obs with
      | .error e => .error e
      | .ok rs => .ok (r :: rs)

/-- the channels of one component in the composite (mapping.py:108-109) -/
def addInfo (d : Dict String (ChInfo V)) (m : Mp V) : Dict String (ChInfo V) :=
  m.info.foldl (fun d kc => Dict.set d (m.key ++ " " ++ kc.1) kc.2) d

/-- `CompositeMapping` (mapping.py:85-139) -/
def composite [AddMonoid V] (ms : List (Mp V)) : Mp V where
  key := "CompositeMapping"
  info := ms.foldl addInfo []
  ndf := (ms.map (·.ndf)).sum
  hasData := ms.all (·.hasData)
  needProcesses := ms.any (·.needProcesses)
  skipPerProcess := ms.any (·.skipPerProcess)
  flat := fun obs => concat (compFlatGo (ms.any (·.needProcesses)) ms obs)
  perProcess := fun obs => concat (compProcGo ms obs)

/-- the flat rows of a tensor with two axes -/
def rows2 (t : Tensor V) : List (List V) :=
  (List.range (t.shape.getD 0 0)).map fun i => (List.range (t.shape.getD 1 0)).map fun j => t.val [i, j]

def ofInfo (i : Info V) : ChInfo V := { axes := i.axes, flow := i.flow }

/-- `Select` as a mapping (mapping.py:154-259); the key does not contain the channel (mapping.py:240) -/
def ofSelect [AddMonoid V] [Div V] (args : List String) (m : ChanMapping V) : Mp V where
  key := " ".intercalate ("Select" :: args)
  info := m.info.map fun kc => (kc.1, ofInfo kc.2)
  hasData := m.hasData
  flat := selectFlat m
  perProcess := fun obs => match selectPerProcess m obs with
    | .error e => .error e
    | .ok t => .ok (rows2 t)

/-- `Ratio` as a mapping (ratio.py:36-172) -/
def ofRatio [AddMonoid V] [Div V] (key : String) (m : RatioM V) : Mp V where
  key := key
  info := m.info.map fun kc => (kc.1, ofInfo kc.2)
  hasData := m.hasData
  needProcesses := m.needProcesses
  skipPerProcess := true
  flat := m.ratio
  perProcess := fun _ => .error .notImpl

/-- `Normratio` as a mapping (ratio.py:175-190) -/
def ofNormratio [AddMonoid V] [Div V] (key : String) (m : RatioM V) : Mp V where
  key := key
  info := m.info.map fun kc => (kc.1, ofInfo kc.2)
  ndf := 1
  hasData := m.hasData
  needProcesses := m.needProcesses
  skipPerProcess := true
  flat := m.normratio
  perProcess := fun _ => .error .notImpl

/-- `Project` (`norm = false`) and `Normalize` as mappings (project.py:8-85) -/
def ofProject [AddMonoid V] [Div V] (key : String) (norm : Bool) (p : Project V) : Mp V where
  key := key
  info := p.info.map fun kc => (kc.1, ofInfo kc.2)
  ndf := if norm then 1 else 0
  hasData := p.hasData
  flat := p.flat norm
  perProcess := fun obs => match p.perProcess norm obs with
    | .error e => .error e
    | .ok t => .ok (rows2 t)

/-- the prediction of a mapping as the fitter computes it: the mapping gets the predictions per process if it says that it
needs them, otherwise their sum (fitter.py:1955-1992) -/
def evaluate [AddMonoid V] (m : Mp V) (obs : Tensor V) : Res (List V) :=
  m.flat (if m.needProcesses then obs else obs.reduceSum [1])

/-! ## histograms in the results file -/

/-- a histogram: numbers of bins (with flow bins if they are stored) and contents in C order.  The contents have any type:
a number, or the row of the entry along the process and variation axes. -/
structure Hist (α : Type) where
  shape : List Nat
  values : List α
deriving DecidableEq

/-- `hist.Hist(...)` filled with reshaped values (workspace.py:144-180); raises unless the number of values fits -/
def fill {α : Type} (shape : List Nat) (values : List α) : Res (Hist α) :=
  if values.length = shape.prod then .ok ⟨shape, values⟩ else .error .value

/-- `values[start:stop]` -/
def slice {α : Type} (l : List α) (start stop : Nat) : List α := (l.take stop).drop start

/-- numbers of bins of a channel; without axes one bin `yield` (workspace.py:253-258, 521-526) -/
def binsOf (flow : Bool) (i : ChInfo V) : List Nat :=
  if i.axes = [] then [1] else i.axes.map fun a => if flow then a.extent else a.size

/-- `int(np.prod([...]))` -/
def sizeOf (flow : Bool) (i : ChInfo V) : Nat := (i.axes.map fun a => if flow then a.extent else a.size).prod

/-- objects stored under mapping key, channel and name (workspace.py:120-137) -/
abbrev Store (α : Type) := Dict (String × String × String) α

/-- the loop over the channels (workspace.py:245-301, 509-574): `skip` channels are passed over before `start` moves -/
def loop {α : Type} (mk name : String) (size : ChInfo V → Nat) (skip : ChInfo V → Bool) (make : ChInfo V → Nat → Nat → Res α) :
    Dict String (ChInfo V) → Nat → Store α → Res (Store α)
  | [], _, st => .ok st
  | (ch, i) :: r, start, st =>
    if skip i then loop mk name size skip make r start st
    else match make i start (start + size i) with
      | .error e => .error e
      | .ok h => loop mk name size skip make r (start + size i) (Dict.set st (mk, ch, name) h)

/-- one histogram of `add_expected_hists` (workspace.py:474-577) -/
def addExpected {α : Type} (m : Mp V) (name : String) (vals : List α) (st : Store (Hist α)) : Res (Store (Hist α)) :=
  loop m.key name (fun i => sizeOf i.flow i) (fun _ => false)
    (fun i start stop => fill (binsOf i.flow i) (slice vals start stop)) m.info 0 st

/-- one histogram of `add_observed_hists` (workspace.py:225-301); flow bins are never counted here -/
def addObserved {α : Type} (m : Mp V) (name : String) (vals : List α) (st : Store (Hist α)) : Res (Store (Hist α)) :=
  loop m.key name (fun i => sizeOf false i) (·.masked)
    (fun i start stop => fill (binsOf false i) (slice vals start stop)) m.info 0 st

/-- a covariance matrix of `add_observed_hists` (workspace.py:268-299): the block of the channel -/
def addObservedCov {α : Type} (m : Mp V) (name : String) (cov : List (List α)) (st : Store (Hist α)) : Res (Store (Hist α)) :=
  loop m.key name (fun i => sizeOf false i) (·.masked)
    (fun i start stop => fill (binsOf false i ++ binsOf false i) ((slice cov start stop).map (slice · start stop)).flatten) m.info 0 st

/-- values stored per mapping, not per channel: `chi2`, `ndf`, covariance across channels (workspace.py:216-223, 576-592) -/
def addValue {α : Type} (m : Mp V) (name : String) (x : α) (st : Dict (String × String) α) : Dict (String × String) α :=
  Dict.set st (m.key, name) x

/-- first and last bin of every channel of the input (inputdata.py:176-189) -/
def chanRanges : Dict String (ChInfo V) → Nat → Dict String (Nat × Nat)
  | [], _ => []
  | (ch, i) :: r, ibin => (ch, ibin, ibin + sizeOf i.flow i) :: chanRanges r (ibin + sizeOf i.flow i)

end Verif.Workspace
