import Verif.Model.Tensor
import Verif.Model.ABCD
import Mathlib.Order.Defs.LinearOrder

/-
Mappings of the predicted histograms (rabbit/mappings/helpers.py, mapping.py, project.py, ratio.py,
angular_coefficients.py).  Values and bin edges are elements of one ordered field (exact arithmetic); `np.isclose` is
equality.  The reading of the command line strings is in `SelText`.

The histogram library is used on an empty histogram, only to find the axes of the result.  It is modelled as follows:
slicing with `0 ≤ start < stop ≤ size` gives the axis with the edges `start … stop`; other bounds are refused (in the
library negative bounds count from the end); `hist.rebin(n)` merges `n` neighbours and leaves a remainder out;
`hh.rebinHist` refuses new edges that are not increasing or not among the old ones.
-/

namespace Verif.Mappings

open Verif.ABCD Verif.Grid

variable {V : Type}

/-- One token `axis:value` of the selection string after splitting (helpers.py:44-74) -/
inductive Tok (V : Type) where
  | slice (start stop step : Option Int)
  | sum
  | rebin (edges : List V)
  | none
  | index (k : Int)

/-- `(selections, rebin_axes, sum_axes)` -/
structure Sels (V : Type) where
  sel : Dict String Pick := []
  rebin : Dict String (List V) := []
  sum : List String := []

/-- one pass of the loop (helpers.py:46-74) -/
def parseTok (s : Sels V) : String × Tok V → Sels V
  | (k, .slice a b c) => { s with sel := Dict.set s.sel k (.slc a b c) }
  | (k, .sum) => { s with sum := s.sum ++ [k] }
  | (k, .rebin e) => { s with rebin := Dict.set s.rebin k e }
  | (k, .none) => { s with sel := Dict.set s.sel k (.slc none none none) }
  | (k, .index x) => { s with sel := Dict.set s.sel k (.slc (some x) (some (x + 1)) none), sum := s.sum ++ [k] }

/-- `parse_axis_selection` (helpers.py:32-81); the last loop only looks at the last axis name -/
def parseAxisSelection (toks : List (String × Tok V)) : Sels V :=
  let s := toks.foldl parseTok {}
  match toks.getLast? with
  | none => s
  | some (k, _) => if s.sel.has k then s else { s with sel := Dict.set s.sel k (.slc none none none) }

/-- the axis with the edges `a … b` -/
def cutAxis (ax : Axis V) (a b : Nat) : Axis V :=
  { name := ax.name, size := b - a, extent := b - a + (ax.extent - ax.size), edges := (ax.edges.take (b + 1)).drop a,
    centers := (ax.centers.take b).drop a }

/-- the axis with `n` neighbouring bins merged -/
def mergeAxis (ax : Axis V) (a b n : Nat) : Axis V :=
  { name := ax.name, size := (b - a) / n, extent := (b - a) / n + (ax.extent - ax.size),
    edges := (List.range ((b - a) / n + 1)).filterMap fun m => ax.edges[a + m * n]? }

/-- selection on one axis of the histogram: `none` when the axis disappears -/
def selectAxis (ax : Axis V) : Pick → Res (Option (Axis V))
  | .int k => if -(ax.size : Int) ≤ k ∧ k < ax.size then .ok none else .error .index
  | .slc none none none => .ok (some ax)
  | .slc start stop step =>
    let a := start.getD 0
    let b := stop.getD ax.size
    if 0 ≤ a ∧ a < b ∧ b ≤ ax.size then
      match step with
      | none => .ok (some (cutAxis ax a.toNat b.toNat))
      | some st =>
        if 1 ≤ st ∧ st ≤ b - a then .ok (some (mergeAxis ax a.toNat b.toNat st.toNat)) else .error .value
    else .error .index

/-- `h[{k: s}]` (helpers.py:141-144): the first axis of that name -/
def histSelect : List (Axis V) → String → Pick → Res (List (Axis V))
  | [], _, _ => .error .key
  | ax :: axs, k, p =>
    if ax.name = k then match selectAxis ax p with
      | .error e => .error e
      | .ok none => .ok axs
      | .ok (some ax') => .ok (ax' :: axs)
    else match histSelect axs k p with
      | .error e => .error e
      | .ok axs' => .ok (ax :: axs')

/-- the loop over the selections (helpers.py:139-144) -/
def histSelectAll (axs : List (Axis V)) : Dict String Pick → Res (List (Axis V))
  | [] => .ok axs
  | (k, p) :: r => match histSelect axs k p with
    | .error e => .error e
    | .ok axs' => if axs' = [] then .error .attr else histSelectAll axs' r

/-- the loop over the old edges (helpers.py:152-156) -/
def segScan [DecidableEq V] (new : List V) : Int → List V → List Int
  | _, [] => []
  | s, v :: vs => let s' := if v ∈ new then s + 1 else s; s' :: segScan new s' vs

/-- segment ids of the old bins (helpers.py:150-159) -/
def segIds [DecidableEq V] (old new : List V) : List Int :=
  let ids := segScan new (-1) old.dropLast
  let segment := ids.getLast?.getD (-1)
  if new.getLast? = old.getLast? then ids else ids.map fun s => if s = segment then -1 else s

/-- `int(max(segment_ids) + 1)` -/
def numSegs (ids : List Int) : Nat := (ids.foldl max (-1) + 1).toNat

/-- `hh.rebinHist(h, n, new_edges)`; `new` must be increasing and a part of the old edges -/
def rebinAxis [LinearOrder V] (ax : Axis V) (new : List V) : Res (Axis V) :=
  if 2 ≤ new.length ∧ new.IsChain (· < ·) ∧ ∀ x ∈ new, x ∈ ax.edges then
    .ok { name := ax.name, size := new.length - 1, extent := new.length - 1 + (ax.extent - ax.size), edges := new }
  else .error .value

/-- the loop over the axes to rebin (helpers.py:148-163) -/
def rebinAll [LinearOrder V] (axs : List (Axis V)) (segs : Dict Nat (List Int × Nat)) :
    Dict String (List V) → Res (List (Axis V) × Dict Nat (List Int × Nat))
  | [] => .ok (axs, segs)
  | (n, new) :: r => match axPos axs n with
    | none => .error .key
    | some k => match axs[k]? with
      | none => .error .key
      | some ax => match rebinAxis ax new with
        | .error e => .error e
        | .ok ax' =>
          let ids := segIds ax.edges new
          rebinAll (axs.set k ax') (Dict.set segs k (ids, numSegs ids)) r

/-- `helpers.Term` (helpers.py:84-170) -/
structure Term (V : Type) where
  start : Nat
  stop : Nat
  expShape : List Nat
  hasData : Bool
  procIdxs : List Nat
  selections : List Pick
  segments : Dict Nat (List Int × Nat)
  sumIdxs : List Nat
  axes : List (Axis V)

/-- positions of the names in `l`, in the order of `all` -/
def idxsOf (all l : List String) : List Nat := (List.range all.length).filter fun i => (all.getD i "") ∈ l

/-- `Term.__init__` (helpers.py:84-170); `processes` and `selections` are not `None` in any caller -/
def termInit [LinearOrder V] (inp : InData V) (channel : String) (processes : List String := []) (s : Sels V := {}) :
    Res (Term V) :=
  match inp.chans.get? channel with
  | none => .error .key
  | some c =>
    if processes.any fun p => p ∉ inp.procs then .error .runtime
    else if s.sel.any fun k => k.1 ∉ c.axes.map (·.name) then .error .runtime
    else match histSelectAll c.axes s.sel with
      | .error e => .error e
      | .ok h => match rebinAll h [] s.rebin with
        | .error e => .error e
        | .ok (h', segs) => .ok
          { start := c.start
            stop := c.start + c.shape.prod
            expShape := c.shape
            hasData := !c.masked && processes.isEmpty
            procIdxs := idxsOf inp.procs processes
            selections := c.axes.map fun a => (s.sel.get? a.name).getD (.slc none none none)
            segments := segs
            sumIdxs := idxsOf (h'.map (·.name)) s.sum
            axes := h'.filter fun a => a.name ∉ s.sum }

/-- the loop over the axes to rebin (helpers.py:187-191) -/
def segmentAll [AddMonoid V] (t : Tensor V) : Dict Nat (List Int × Nat) → Res (Tensor V)
  | [] => .ok t
  | (k, ids, num) :: r => match t.segmentSum ids k num with
    | .error e => .error e
    | .ok t' => segmentAll t' r

/-- the first part of `Term.select`: the tensor of the channel (helpers.py:172-182).  Observables have one axis (bins)
or two (bins and processes). -/
def Term.channel [AddMonoid V] (m : Term V) (obs : Tensor V) (inclusive : Bool) : Res (Tensor V) :=
  let v := obs.rows m.start m.stop
  if v.shape.length = 1 then v.reshape m.expShape
  else
    match (if m.procIdxs = [] then .ok v else v.gatherLast m.procIdxs) with
    | .error e => .error e
    | .ok v => match v.reshape (m.expShape ++ [v.shape.getD 1 0]) with
      | .error e => .error e
      | .ok v => .ok (if inclusive then v.reduceSum [v.shape.length - 1] else v)

/-- `Term.select` (helpers.py:172-200) -/
def Term.select [AddMonoid V] [Div V] (m : Term V) (obs : Tensor V) (normalize inclusive : Bool) : Res (Tensor V) :=
  match m.channel obs inclusive with
  | .error e => .error e
  | .ok v => match (if m.selections = [] then .ok v else v.index m.selections) with
    | .error e => .error e
    | .ok v => match segmentAll v m.segments with
      | .error e => .error e
      | .ok v =>
        let v := if m.sumIdxs = [] then v else v.reduceSum m.sumIdxs
        .ok (if normalize then v.divBy v.total else v)

/-- What the rest of the code reads of a mapping's `channel_info` entry -/
structure Info (V : Type) where
  axes : List (Axis V)
  flow : Bool
  processes : List String := []

/-- `ChannelMapping` (mapping.py:154-201); `Select` inherits everything (mapping.py:204-259) -/
structure ChanMapping (V : Type) where
  term : Term V
  info : Dict String (Info V)
  hasData : Bool

/-- `ChannelMapping.__init__` (mapping.py:159-181) -/
def chanMappingInit [LinearOrder V] (inp : InData V) (channel : String) (processes : List String := [])
    (s : Sels V := {}) : Res (ChanMapping V) :=
  match termInit inp channel processes s with
  | .error e => .error e
  | .ok m => match inp.chans.get? channel with
    | none => .error .key
    | some c => .ok
      { term := m
        info := [(channel, ⟨m.axes, c.flow, if processes = [] then inp.procs else processes⟩)]
        hasData := !c.masked }

/-- `Select.compute_flat` (mapping.py:189-193) -/
def selectFlat [AddMonoid V] [Div V] (m : ChanMapping V) (obs : Tensor V) : Res (List V) :=
  match m.term.select obs false true with
  | .error e => .error e
  | .ok t => .ok t.flat

/-- `tf.reshape(exp, (-1, exp.shape[-1]))` (mapping.py:199-200): rows of the last axis; an empty last axis is refused -/
def rowsOf [Zero V] (t : Tensor V) : Res (Tensor V) :=
  if t.shape.getLastD 0 = 0 then .error .value else t.reshape [t.shape.dropLast.prod, t.shape.getLastD 0]

/-- `Select.compute_flat_per_process` (mapping.py:195-201) -/
def selectPerProcess [AddMonoid V] [Div V] (m : ChanMapping V) (obs : Tensor V) : Res (Tensor V) :=
  match m.term.select obs false false with
  | .error e => .error e
  | .ok t => rowsOf t

/-- `Project` (project.py:19-57) -/
structure Project (V : Type) where
  term : Term V
  projIdxs : List Nat
  transposeIdxs : List Nat
  hasData : Bool
  info : Dict String (Info V)

/-- `{a.name: a for a in axes}` (project.py:24) -/
def axisDict (axs : List (Axis V)) : Dict String (Axis V) := axs.foldl (fun d a => Dict.set d a.name a) []

/-- `Project.__init__` (project.py:19-57); the length check of lines 32-35 can not fail -/
def projectInit [LinearOrder V] (inp : InData V) (channel : String) (names : List String) : Res (Project V) :=
  match termInit inp channel with
  | .error e => .error e
  | .ok m => match inp.chans.get? channel with
    | none => .error .key
    | some c =>
      let d := axisDict c.axes
      if names.any fun n => !d.has n then .error .runtime
      else
        let chanNames := d.map (·.2.name)
        let axisIdxs := names.map fun n => chanNames.idxOf n
        let post := chanNames.filter fun a => a ∈ names
        .ok
          { term := m
            projIdxs := (List.range d.length).filter fun i => i ∉ axisIdxs
            transposeIdxs := names.map fun n => post.idxOf n
            hasData := !c.masked
            info := [(channel, ⟨names.filterMap d.get?, c.flow, inp.procs⟩)] }

/-- `Project.project` (project.py:59-66) -/
def Project.project [AddMonoid V] (p : Project V) (t : Tensor V) : Res (Tensor V) :=
  let e := t.reduceSum p.projIdxs
  let n := p.transposeIdxs.length
  let perm := if e.shape.length > n then p.transposeIdxs ++ (List.range (e.shape.length - n)).map (n + ·) else p.transposeIdxs
  e.transpose perm

/-- `Normalize.project` (project.py:82-85) -/
def Project.normProject [AddMonoid V] [Div V] (p : Project V) (t : Tensor V) : Res (Tensor V) :=
  p.project (t.divBy t.total)

/-- `compute_flat` of `Project` (`norm = false`) and `Normalize` (mapping.py:189-193) before flattening -/
def Project.compute [AddMonoid V] [Div V] (p : Project V) (norm inclusive : Bool) (obs : Tensor V) : Res (Tensor V) :=
  match p.term.select obs false inclusive with
  | .error e => .error e
  | .ok t => if norm then p.normProject t else p.project t

/-- `compute_flat` (mapping.py:189-193) -/
def Project.flat [AddMonoid V] [Div V] (p : Project V) (norm : Bool) (obs : Tensor V) : Res (List V) :=
  match p.compute norm true obs with
  | .error e => .error e
  | .ok t => .ok t.flat

/-- `compute_flat_per_process` (mapping.py:195-201) -/
def Project.perProcess [AddMonoid V] [Div V] (p : Project V) (norm : Bool) (obs : Tensor V) : Res (Tensor V) :=
  match p.compute norm false obs with
  | .error e => .error e
  | .ok t => rowsOf t

/-- `Ratio` (ratio.py:8-108) -/
structure RatioM (V : Type) where
  num : Term V
  den : Term V
  hasData : Bool
  needProcesses : Bool
  info : Dict String (Info V)

/-- the axes of the result (ratio.py:79-92); axes are compared by name, size and edges -/
def ratioAxes [DecidableEq V] (num den : List (Axis V)) : List (Axis V) :=
  if num.map (fun a => (a.name, a.size, a.edges)) = den.map (fun a => (a.name, a.size, a.edges)) then num
  else (List.range num.length).map fun i => { name := "a" ++ toString i, size := (num.getD i ⟨"", 0, 0, [], []⟩).size }

/-- `Ratio.__init__` (ratio.py:36-108) -/
def ratioInit [LinearOrder V] (inp : InData V) (numChannel denChannel : String) (numProcs denProcs : List String)
    (numSel denSel : Sels V) : Res (RatioM V) :=
  match termInit inp numChannel numProcs numSel with
  | .error e => .error e
  | .ok num => match termInit inp denChannel denProcs denSel with
    | .error e => .error e
    | .ok den =>
      if num.axes.map (·.size) ≠ den.axes.map (·.size) then .error .runtime
      else .ok
        { num := num
          den := den
          hasData := num.hasData && den.hasData
          needProcesses := !numProcs.isEmpty || !denProcs.isEmpty
          info :=
            if numChannel = denChannel then
              [(numChannel, ⟨ratioAxes num.axes den.axes, (inp.chans.get? numChannel).any (·.flow), []⟩)]
            else [(numChannel ++ "_" ++ denChannel, ⟨ratioAxes num.axes den.axes, false, []⟩)] }

/-- the two selected histograms combined by `f` and flattened -/
def RatioM.combine [AddMonoid V] [Div V] (m : RatioM V) (normalize : Bool) (f : Tensor V → Tensor V → Res (Tensor V))
    (obs : Tensor V) : Res (List V) :=
  match m.num.select obs normalize true with
  | .error e => .error e
  | .ok num => match m.den.select obs normalize true with
    | .error e => .error e
    | .ok den => match f num den with
      | .error e => .error e
      | .ok t => .ok t.flat

/-- `Ratio.compute_flat` (ratio.py:163-169) -/
def RatioM.ratio [AddMonoid V] [Div V] (m : RatioM V) : Tensor V → Res (List V) :=
  m.combine false (Tensor.map2 (· / ·))

/-- `Normratio.compute_flat` (ratio.py:185-190) -/
def RatioM.normratio [AddMonoid V] [Div V] (m : RatioM V) : Tensor V → Res (List V) :=
  m.combine true (Tensor.map2 (· / ·))

/-- `Asymmetry.compute_flat` (ratio.py:201-206) -/
def RatioM.asymmetry [AddMonoid V] [Div V] [Sub V] (m : RatioM V) : Tensor V → Res (List V) :=
  m.combine false fun num den => match Tensor.map2 (· - ·) num den with
    | .error e => .error e
    | .ok a => match Tensor.map2 (· + ·) num den with
      | .error e => .error e
      | .ok b => Tensor.map2 (· / ·) a b

/-- `Difference.compute_flat` (ratio.py:217-222) -/
def RatioM.difference [AddMonoid V] [Div V] [Sub V] (m : RatioM V) : Tensor V → Res (List V) :=
  m.combine true (Tensor.map2 (· - ·))

/-- `tf.expand_dims(t, axis=k)` -/
def expandDims (t : Tensor V) (k : Nat) : Tensor V :=
  ⟨t.shape.insertIdx k 1, fun i => t.val (i.eraseIdx k)⟩

/-- broadcasting of one axis -/
def bdim (a b : Nat) : Option Nat := if a = b then some a else if a = 1 then some b else if b = 1 then some a else none

/-- index of an entry of a broadcast tensor -/
def clip (s i : List Nat) : List Nat := List.zipWith (fun n x => if n = 1 then 0 else x) s i

/-- shape padded with axes of size one at the front -/
def padTo (n : Nat) (s : List Nat) : List Nat := List.replicate (n - s.length) 1 ++ s

/-- an elementwise operation with broadcasting: shapes are aligned at the last axis, axes of size one are repeated -/
def map2B (f : V → V → V) (t u : Tensor V) : Res (Tensor V) :=
  let n := max t.shape.length u.shape.length
  match (List.zipWith bdim (padTo n t.shape) (padTo n u.shape)).mapM id with
  | none => .error .value
  | some s => .ok ⟨s, fun i => f (t.val (clip t.shape (i.drop (n - t.shape.length))))
      (u.val (clip u.shape (i.drop (n - u.shape.length))))⟩

/-- `tf.gather(t, indices=m, axis=k)` -/
def gatherAt (t : Tensor V) (k m : Nat) : Res (Tensor V) :=
  if m < t.shape.getD k 0 then .ok ⟨t.shape.eraseIdx k, fun i => t.val (i.insertIdx k m)⟩ else .error .index

/-- `AngularCoefficients` (angular_coefficients.py:7-92) -/
structure Angular (V : Type) where
  num : Term V
  den : Term V
  helIdx : Nat
  info : Dict String (Info V)

/-- the helicity axis (angular_coefficients.py:36-46) -/
def helicityAxis (c : Chan V) : Option String → Res String
  | some h => .ok h
  | none =>
    if "helicitySig" ∈ c.axes.map (·.name) then .ok "helicitySig"
    else if "helicity" ∈ c.axes.map (·.name) then .ok "helicity" else .error .runtime

/-- `AngularCoefficients.__init__` (angular_coefficients.py:25-92) -/
def angularInit [LinearOrder V] (inp : InData V) (ch : String) (ps : List String) (s : Sels V) (hel : Option String) :
    Res (Angular V) :=
  match inp.chans.get? ch with
  | none => .error .key
  | some c => match helicityAxis c hel with
    | .error e => .error e
    | .ok h => match termInit inp ch ps { s with sel := Dict.merge [(h, .slc (some 1) none none)] s.sel } with
      | .error e => .error e
      | .ok num => match termInit inp ch ps { s with sel := Dict.merge [(h, .int 0)] s.sel } with
        | .error e => .error e
        | .ok den => match axPos num.axes h with
          | none => .error .index
          | some k => .ok
            { num := num
              den := den
              helIdx := k
              info := [(ch, ⟨num.axes.map fun a => if a.name = h then { a with name := "ai" } else a, c.flow, []⟩)] }

/-- `LamTung.__init__` (angular_coefficients.py:150-156): the description loses the axis of the coefficients -/
def Angular.lamTungInfo (m : Angular V) (ch : String) : Res (Dict String (Info V)) :=
  match m.info.get? ch with
  | none => .error .key
  | some i => .ok (Dict.set m.info ch ⟨i.axes.filter fun a => decide (a.name ≠ "ai"), i.flow, []⟩)

/-- `AngularCoefficients.compute_ais` (angular_coefficients.py:131-135), inclusive -/
def Angular.ais [AddMonoid V] [Div V] (m : Angular V) (obs : Tensor V) : Res (Tensor V) :=
  match m.num.select obs false true with
  | .error e => .error e
  | .ok num => match m.den.select obs false true with
    | .error e => .error e
    | .ok den => map2B (· / ·) num (expandDims den m.helIdx)

/-- `AngularCoefficients.compute_flat` (angular_coefficients.py:137-139) -/
def Angular.flat [AddMonoid V] [Div V] (m : Angular V) (obs : Tensor V) : Res (List V) :=
  match m.ais obs with
  | .error e => .error e
  | .ok t => .ok t.flat

/-- `LamTung.compute_flat` (angular_coefficients.py:157-161) -/
def Angular.lamTung [AddMonoid V] [Div V] [Sub V] (m : Angular V) (obs : Tensor V) : Res (List V) :=
  match m.ais obs with
  | .error e => .error e
  | .ok t => match gatherAt t m.helIdx 0 with
    | .error e => .error e
    | .ok a0 => match gatherAt t m.helIdx 2 with
      | .error e => .error e
      | .ok a2 => match map2B (· - ·) a0 a2 with
        | .error e => .error e
        | .ok t => .ok t.flat

end Verif.Mappings
