import Verif.Model.Write

/-
Systematic histograms with extra axes (rabbit/tensorwriter.py:574-1191): detection of the extra axes, slicing, and the
batched path for `SparseHist` inputs.

Simplifications: channels have at least one axis (numpy's behaviour on empty index tuples is not modelled); the labels
`ax.value(i)` of a string category axis are the list `cats`; the order in which numpy's default (unstable) sort leaves
entries of the same systematic is a parameter.  Slicing a dense `hist.Hist` by `h[{name: i}]` is done by the library and
modelled by what it returns: the contents at bin `i` of the sliced axes.
-/

namespace Verif.Batched

open Verif.Logk Verif.Writer

section
variable {V : Type} [Field V] [LinearOrder V]

/-- `h.axes` for objects that have axes -/
def axes? : HIn V → Option (List Axis)
  | .hist axes _ _ => some axes
  | .sparseHist axes _ => some axes
  | _ => none

/-- `_detect_extra_syst_axes` (tensorwriter.py:785-840): the names of the extra axes of the (first) histogram -/
def detectExtra (channels : Dict String Chan) (h : HIn V) (chan : String) (systAxes : Option (List String)) :
    Res (Option (List String)) :=
  if systAxes = some [] then .ok none
  else match axes? h with
    | none => .ok none
    | some axes => match channels.get? chan with
      | none => .error .key
      | some c => match systAxes with
        | none =>
          if axes.length = c.axes.length then .ok none
          else if axes.any fun a => a.name.isNone then .error .runtime
          else
            let extra := (axes.filterMap (·.name)).filter fun n => some n ∉ c.axes.map (·.name)
            .ok (if extra = [] then none else some extra)
        | some l =>
          if l.any fun n => decide (some n ∉ axes.map (·.name)) || decide (some n ∈ c.axes.map (·.name)) then .error .runtime
          else .ok (some l)

/-- position of an axis: `h_axis_names.index(n)` -/
def pos (axes : List Axis) (n : String) : Nat := (axes.map (·.name)).idxOf (some n)

/-- `h.axes[i]` -/
def axisAt (axes : List Axis) (i : Nat) : Axis := axes.getD i ⟨none, 0, 0, false, false, none⟩

/-- `_bin_label` (tensorwriter.py:574-580) -/
def binLabel (a : Axis) (i : Nat) : String :=
  match a.cats with
  | some l => l.getD i ""
  | none => toString i

/-- `"_".join([name, *labels])` for one combination of bins of the extra axes (tensorwriter.py:747-757, 770-771) -/
def subName (name : String) (extra : List Axis) (s : Nat) : String :=
  "_".intercalate (name :: List.zipWith binLabel extra (unravel (extra.map (·.size)) s))

/-- the regular bins of an axis in the with-flow layout -/
def inside (a : Axis) (i : Nat) : Bool := a.off ≤ i && i < a.off + a.size

/-- an entry with its multi-index: `np.unravel_index(flat_idx, h.axes.extent)` -/
structure MEntry (V : Type) where
  idx : List Nat
  val : FVal V

def entries (axes : List Axis) (flat : List (Nat × FVal V)) : List (MEntry V) :=
  flat.map fun e => ⟨unravel (dims true axes) e.1, e.2⟩

/-- all given axes are in regular bins -/
def valid (axes : List Axis) (ps : List Nat) (e : MEntry V) : Bool :=
  ps.all fun p => inside (axisAt axes p) (e.idx.getD p 0)

/-- index of an entry on some axes, counted without underflow (tensorwriter.py:640-654, 945-957, 965-970) -/
def regular (axes : List Axis) (ps : List Nat) (e : MEntry V) : List Nat :=
  ps.map fun p => e.idx.getD p 0 - (axisAt axes p).off

/-- `a[boundaries[s]:boundaries[s + 1]]` with `boundaries = np.searchsorted(sorted_syst, np.arange(n + 1))`, which counts
the smaller elements (tensorwriter.py:661, 665-673, 1044-1046, 1099-1100) -/
def run {α : Type} (l : List (Nat × α)) (s : Nat) : List (Nat × α) :=
  let start := l.countP fun e => e.1 < s
  let stop := l.countP fun e => e.1 < s + 1
  (l.take stop).drop start

/-! ### One slice per systematic -/

/-- `_sparse_per_syst_slices` (tensorwriter.py:597-686): one sub-histogram per combination of bins of the extra axes;
`sizes` and `keep` are computed from the first histogram of a pair -/
def sparseSlices (sizes : List Nat) (extra : List String) (keep : List Axis) (axes : List Axis)
    (flat : List (Nat × FVal V)) : List (HIn V) :=
  let eps := extra.map (pos axes)
  let kps := (List.range axes.length).filter fun p => p ∉ eps
  let es := (entries axes (sortFlat flat)).filter (valid axes eps)
  let tagged := es.map fun e => (ravel sizes (regular axes eps e), e)
  let sorted := pySort (fun a b : Nat × MEntry V => a.1 ≤ b.1) tagged
  (List.range (prod sizes)).map fun s =>
    .sparseHist keep (sortFlat ((run sorted s).map fun e =>
      (ravel (dims true keep) (kps.map fun p => e.2.idx.getD p 0), e.2.val)))

/-- the multi-index of the full histogram: the bins of the sliced axes are given by the mask -/
def weave : List (Option Nat) → List Nat → List Nat
  | [], _ => []
  | some i :: r, m => i :: weave r m
  | none :: r, x :: m => x :: weave r m
  | none :: r, [] => 0 :: weave r []

/-- the bin chosen on each axis by `{n: i for n, i in zip(extra_axis_names, idx_tuple)}`; `flow` counts underflow bins -/
def sliceMask (flow : Bool) (axes : List Axis) (extra : List String) (idx : List Nat) : List (Option Nat) :=
  axes.map fun a => if a.name ∈ extra.map some then
    some ((idx.getD (extra.idxOf (a.name.getD "")) 0) + if flow then a.off else 0) else none

/-- `h[{name: i, ...}]` of a dense histogram -/
def histSlice (axes : List Axis) (vals vars : Bool → List (FVal V)) (extra : List String) (keep : List Axis)
    (idx : List Nat) : HIn V :=
  let pick (c : Bool → List (FVal V)) (flow : Bool) : List (FVal V) :=
    (List.range (prod (dims flow keep))).map fun i =>
      (c flow).getD (ravel (dims flow axes) (weave (sliceMask flow axes extra idx) (unravel (dims flow keep) i))) (.fin 0)
  .hist keep (pick vals) (pick vars)

/-- the sub-histograms of one histogram (tensorwriter.py:720-781) -/
def slicesOf (sizes : List Nat) (extra : List String) (keep : List Axis) : HIn V → Res (List (HIn V))
  | .sparseHist axes flat =>
    -- `[a.name for a in h.axes]` (tensorwriter.py:617)
    if axes.any fun a => a.name.isNone then .error .attr
    else if extra.any fun n => some n ∉ axes.map (·.name) then .error .value
    else .ok (sparseSlices sizes extra keep axes flat)
  | .hist axes vals vars =>
    .ok ((List.range (prod sizes)).map fun s => histSlice axes vals vars extra keep (unravel sizes s))
  | _ => .error .type

/-- sparse or not; mixed pairs raise (tensorwriter.py:722-726); other mixtures are left to the library, modelled as
raising as well -/
def sameKind : HIn V → HIn V → Bool
  | .sparseHist .., .sparseHist .. => true
  | .hist .., .hist .. => true
  | _, _ => false

/-- `_get_systematic_slices` (tensorwriter.py:688-783) for the extra axes found by `detectExtra`; `axes` are those of the
(first) histogram -/
def getSlices (axes : List Axis) (name : String) (extra : List String) (x : SystIn V) :
    Res (List (String × SystIn V)) :=
  let ex := extra.map fun n => axisAt axes (pos axes n)
  let sizes := ex.map (·.size)
  let keep := axes.filter fun a => a.name ∉ extra.map some
  let names := (List.range (prod sizes)).map (subName name ex)
  match x with
  | .single h => do
    let l ← slicesOf sizes extra keep h
    .ok (names.zip (l.map .single))
  | .pair hu hd =>
    if !sameKind hu hd then .error .type
    else do
      let lu ← slicesOf sizes extra keep hu
      let ld ← slicesOf sizes extra keep hd
      .ok (names.zip (List.zipWith .pair lu ld))

/-- the loop over the slices (tensorwriter.py:1178-1196) -/
def addSlices (cfg : Cfg V) (slices : List (String × SystIn V)) (proc chan : String) (kfac : V) (mirror : Bool)
    (symm : Symm) (toCov asDiff : Bool) (o : SystOpts) : M V Unit :=
  M.forEach (fun e : String × SystIn V => addSystematic cfg e.2 e.1 proc chan kfac mirror symm toCov asDiff o) slices

/-! ### The batched path -/

/-- the template at the bins of the entries; entries in bins without template are dropped (tensorwriter.py:976-1001) -/
def withNorm {α : Type} (norm : Norm V) (l : List (α × Nat × FVal V)) : Res (List (α × Nat × FVal V × V)) :=
  match norm with
  | .csr _ n => .ok (l.filterMap fun e =>
      -- `searchsorted` counts the smaller indices
      match n[n.countP fun x => x.1 < e.2.1]? with
      | some x => if x.1 = e.2.1 then some (e.1, e.2.1, e.2.2, x.2) else none
      | none => none)
  | .dense n => do
    let r ← l.mapM fun e => match n[e.2.1]? with
      | some v => .ok (e.1, e.2.1, e.2.2, v)
      | none => .error .index
    .ok (r.filter fun e => e.2.2.2 ≠ 0)

/-- steps 1 to 10 of `_add_systematics_sparsehist_batched` (tensorwriter.py:900-1051): (systematic, bin, logk) sorted by
systematic; `sort` is `np.argsort` applied to the systematic indices -/
def batchEntries (cfg : Cfg V) (sort : List (Nat × Nat × V) → List (Nat × Nat × V)) (c : Chan) (norm : Norm V) (kfac : V)
    (axes : List Axis) (flat : List (Nat × FVal V)) (extra : List String) : Res (List (Nat × Nat × V)) :=
  let eps := extra.map (pos axes)
  let kps := c.axes.map fun a => (axes.map (·.name)).idxOf a.name
  let keep := kps.map (axisAt axes)
  let sizes := (eps.map (axisAt axes)).map (·.size)
  if flat.isEmpty then .ok []
  else do
    let es := (entries axes flat).filter (valid axes (if c.flow then eps else eps ++ kps))
    let placed := es.map fun e => (ravel sizes (regular axes eps e),
      (if c.flow then ravel (dims true keep) (kps.map fun p => e.idx.getD p 0)
        else ravel (dims false keep) (regular axes kps e)), e.val)
    let withN ← withNorm norm placed
    match withN.mapM fun e => (e.2.2.1.toFin?).map fun v => (e.1, e.2.1, v, e.2.2.2) with
    | none => .error .runtime
    | some l =>
      if cfg.systType = .other then .error .runtime
      else .ok (sort ((l.map fun e => (e.1, e.2.1, logkVal cfg.num cfg.systType kfac (e.2.2.2 + e.2.2.1) e.2.2.2)).filter
        fun e => e.2.2 ≠ 0))

/-- `_axis_labels` (tensorwriter.py:1064-1083) -/
def axisLabels (a : Axis) : List String :=
  match a.cats with
  | some l => (List.range a.size).map fun i => l.getD i ""
  | none => (List.range a.size).map fun i => toString i

/-- `sub_names` (tensorwriter.py:1087-1099) -/
def batchNames (name : String) (ex : List Axis) : List String :=
  match ex with
  | [a] => (List.range a.size).map fun i => name ++ "_" ++ (axisLabels a).getD i ""
  | _ => (List.range (prod (ex.map (·.size)))).map fun s =>
      "_".intercalate (name :: List.zipWith (fun a i => (axisLabels a).getD i "") ex (unravel (ex.map (·.size)) s))

/-- the stored variation: views into the sorted buffers, or a scatter into zeros (tensorwriter.py:1103-1114) -/
def stored (sparse : Bool) (size : Nat) (l : List (Nat × V)) : LogkE V :=
  if sparse then .sparse l
  else .dense ((List.range size).map fun b => ((l.reverse.find? fun e => e.1 = b).map (·.2)).getD 0)

/-- step 11 for one systematic (tensorwriter.py:1099-1116): the entry is stored without going through `book_logk` -/
def insertOne (proc chan name : String) (e : LogkE V) (o : SystOpts) : M V Unit := do
  let s ← M.read
  let d ← M.lift (upd3 s.logkavg chan proc name e)
  M.modify fun s => { s with logkavg := d }
  bookSystematic name false o

/-- `_add_systematics_sparsehist_batched` (tensorwriter.py:842-1116) -/
def addBatched (cfg : Cfg V) (sort : List (Nat × Nat × V) → List (Nat × Nat × V)) (axes : List Axis)
    (flat : List (Nat × FVal V)) (name proc chan : String) (kfac : V) (extra : List String) (o : SystOpts) : M V Unit := do
  let s ← M.read
  let c ← M.lift (s.channels.get chan)
  -- `[a.name for a in channel_axes_obj]`, `[a.name for a in h.axes]`
  M.raiseIf (c.axes.any fun a => a.name.isNone) .attr
  M.raiseIf (axes.any fun a => a.name.isNone) .attr
  M.raiseIf (c.axes.any fun a => a.name ∉ axes.map (·.name)) .runtime
  let nc ← M.lift (s.norm.get chan)
  let norm ← M.lift (nc.get proc)
  let l ← M.lift (batchEntries cfg sort c norm kfac axes flat extra)
  let ac ← M.lift (s.logkavg.get chan)
  let _ ← M.lift (ac.get proc)
  let ex := extra.map fun n => axisAt axes (pos axes n)
  let keep := c.axes.map fun a => axisAt axes ((axes.map (·.name)).idxOf a.name)
  M.forEach (fun e : String × Nat => insertOne proc chan e.1
    (stored cfg.sparse (prod (dims c.flow keep)) ((run l e.2).map (·.2))) o) (batchNames name ex).zipIdx

/-- `add_systematic` (tensorwriter.py:1118-1262) with its treatment of extra axes -/
def addSystematicAxes (cfg : Cfg V) (sort : List (Nat × Nat × V) → List (Nat × Nat × V)) (x : SystIn V)
    (name proc chan : String) (kfac : V) (mirror : Bool) (symm : Symm) (toCov asDiff : Bool)
    (systAxes : Option (List String)) (o : SystOpts) : M V Unit := do
  let s ← M.read
  let href := match x with
    | .single h => h
    | .pair h _ => h
  let ext ← M.lift (detectExtra s.channels href chan systAxes)
  match ext with
  | none => addSystematic cfg x name proc chan kfac mirror symm toCov asDiff o
  | some extra => match x with
    | .single (.sparseHist axes flat) =>
      if mirror && asDiff && !toCov then addBatched cfg sort axes flat name proc chan kfac extra o
      else do
        let l ← M.lift (getSlices axes name extra x)
        addSlices cfg l proc chan kfac mirror symm toCov asDiff o
    | x => do
      let l ← M.lift (getSlices ((axes? href).getD []) name extra x)
      addSlices cfg l proc chan kfac mirror symm toCov asDiff o

end

end Verif.Batched
