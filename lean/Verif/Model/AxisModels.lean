import Verif.Model.SmoothABCD
import Mathlib.Analysis.SpecialFunctions.Pow.Real
import Mathlib.Analysis.SpecialFunctions.Log.Basic

/-
Parameter models per cell of histogram axes (rabbit/param_models/param_model.py:377-1008): SaturatedProjectModel,
AxisNormModel, AxisExpModel, AxisBernsteinModel.  Numbers are reals (exact arithmetic; the single precision of the bin
centres and the rounding in `irnorm + (scaling - 1)` are not modelled).  The comma separated arguments are given as lists;
`none` as process list stands for `all`.
-/

namespace Verif.AxisModels

open Verif.ParamModels Verif.Grid Verif.ABCD Verif.SmoothABCD

variable {V : Type}

/-- `axis_by_name[n]` (param_model.py:501, 664, 869): the last axis with the name -/
def axisByName (axes : List (Axis V)) (n : String) : Option (Axis V) :=
  axes.reverse.find? fun a => decide (a.name = n)

/-- the checks of the requested names and the list of their axes (param_model.py:503-511) -/
def lookupAxes (axes : List (Axis V)) : List String → Res (List (Axis V))
  | [] => .ok []
  | n :: ns => match axisByName axes n with
    | none => .error .value
    | some a => match lookupAxes axes ns with
      | .error e => .error e
      | .ok as => .ok (a :: as)

/-- `target_encoded` (param_model.py:513-524) -/
def targets (procs : List String) : Option (List String) → Res (List String)
  | none => .ok procs
  | some l => if l.all fun n => procs.contains n then .ok l else .error .value

/-- names of the cells of one process (param_model.py:540-544, 733-738, 925-933) -/
def cellNames (pre proc : String) (axes : List (Axis V)) : List String :=
  (grid (sizes axes)).map fun idx => pre ++ "_" ++ proc ++ "_" ++ cellLabel axes idx

/-- `[a.size if a.name in names else 1 for a in axes]` (param_model.py:569-572, 755-757) -/
def keepShape (axes : List (Axis V)) (names : List String) : List Nat :=
  axes.map fun a => if names.contains a.name then a.size else 1

noncomputable section

/-- `tf.reshape(tf.broadcast_to(tf.reshape(l, shape), full), [-1, 1])` (param_model.py:587-592) -/
def spread (shape full : List Nat) (l : List ℝ) : Res (List ℝ) :=
  match ofFlat shape l with
  | .error e => .error e
  | .ok t => match t.broadcastTo full with
    | .error e => .error e
    | .ok u => .ok u.flat

/-- `irnorm + (scaling - 1.0) * proc_col` (param_model.py:597-600, 795-798, 1003-1006): one row per bin, as a function of
the process -/
def addProc (rows : List (Nat → ℝ)) (p : Nat) (scal : List ℝ) : Res (List (Nat → ℝ)) :=
  if rows.length ≠ scal.length then .error .value
  else .ok (List.zipWith (fun row s q => row q + (s - 1) * if q = p then 1 else 0) rows scal)

/-- the loop over the processes (param_model.py:584-600); `scal i` is `scaling` of the process at position `i` -/
def addProcs (scal : Nat → Res (List ℝ)) : Nat → List Nat → List (Nat → ℝ) → Res (List (Nat → ℝ))
  | _, [], rows => .ok rows
  | i, p :: ps, rows => match scal i with
    | .error e => .error e
    | .ok s => match addProc rows p s with
      | .error e => .error e
      | .ok rows' => addProcs scal (i + 1) ps rows'

/-- rows of one channel (param_model.py:579-601) -/
def channelRows (channel : String) (procIdxs : List Nat) (scal : Nat → Res (List ℝ)) (k : String) (c : Chan ℝ) :
    Res (List (Nat → ℝ)) :=
  let ones := List.replicate (sizes c.axes).prod fun _ => 1
  if k = channel then addProcs scal 0 procIdxs ones else .ok ones

/-- channels that contribute rows (param_model.py:576-578) -/
def activeChans (inp : InData ℝ) (full : Bool) : List (String × Chan ℝ) :=
  inp.chans.filter fun e => !(e.2.masked && !full)

/-- the common frame of the `compute` functions (param_model.py:568-603, 772-800, 974-1008); `tf.concat` of an empty list
raises -/
def axisCompute (inp : InData ℝ) (channel : String) (procIdxs : List Nat) (scal : Nat → Res (List ℝ)) (full : Bool) :
    Res (Rates ℝ) :=
  match allOk ((activeChans inp full).map fun e => channelRows channel procIdxs scal e.1 e.2) with
  | .error e => .error e
  | .ok bl =>
    if bl.isEmpty then .error .value
    else .ok ⟨bl.flatten.length, inp.procs.length, fun b p => bl.flatten.getD b (fun _ => 1) p⟩

/-! ### AxisNormModel -/

/-- The constructed `AxisNormModel`. -/
structure NormModel where
  channel : String
  axes : List (Axis ℝ)
  requested : List String
  procIdxs : List Nat
  nCell : Nat
  npoi : Nat
  params : List String
  xdef : List ℝ

/-- `expectSignal` entries (param_model.py:556-562) -/
def expectLoop (params : List String) : List (String × ℝ) → List ℝ → Res (List ℝ)
  | [], d => .ok d
  | (n, v) :: es, d =>
    if params.contains n then expectLoop params es (d.set (params.idxOf n) v) else .error .value

/-- `AxisNormModel.__init__` (param_model.py:481-566).  The square root of a negative `expectSignal` value is NaN in the
code and zero here. -/
def normInit (inp : InData ℝ) (channel : String) (procSpec : Option (List String)) (requested : List String)
    (expect : List (String × ℝ)) : Res NormModel :=
  match inp.chans.get? channel with
  | none => .error .value
  | some c => match lookupAxes c.axes requested with
    | .error e => .error e
    | .ok axs => match targets inp.procs procSpec with
      | .error e => .error e
      | .ok ts =>
        let n := (sizes axs).prod
        let names := ts.flatMap fun p => cellNames "norm" p axs
        match expectLoop names expect (List.replicate (ts.length * n) 1) with
        | .error e => .error e
        | .ok d => .ok ⟨channel, c.axes, requested, ts.map fun p => inp.procs.idxOf p, n, ts.length * n, names,
            d.map Real.sqrt⟩

/-- `AxisNormModel.compute` (param_model.py:568-603) -/
def normCompute (inp : InData ℝ) (m : NormModel) (param : List ℝ) (full : Bool) : Res (Rates ℝ) :=
  axisCompute inp m.channel m.procIdxs
    (fun i => spread (keepShape m.axes m.requested) (sizes m.axes)
      ((slice param (i * m.nCell) ((i + 1) * m.nCell)).map (· ^ 2))) full

/-! ### AxisExpModel -/

/-- the positions `x_m` (param_model.py:745-748, 937-940) -/
def xUnit (centers : List ℝ) : List ℝ :=
  let c0 := centers.headD 0
  let span := max (centers.getLastD 0 - c0) (1 / 10 ^ 6)
  centers.map fun x => (x - c0) / span

/-- The constructed `AxisExpModel`. -/
structure ExpModel where
  channel : String
  axes : List (Axis ℝ)
  shapeAx : String
  cellNames : List String
  slopeNames : List String
  procIdxs : List Nat
  nCell : Nat
  nSlope : Nat
  npoi : Nat
  params : List String
  xs : List ℝ

/-- the checks of cell names: known axis, not the shape axis (param_model.py:673-682).  All failures raise ValueError, so
the order of the checks is not kept. -/
def cellsOk (shape : String) (cells : List String) : Bool := cells.all fun n => decide (n ≠ shape)

/-- `AxisExpModel.__init__` (param_model.py:650-770); `slope` is the optional list of slope axes.  `expectSignal` is
ignored.  The centres of an axis without bins would raise IndexError. -/
def expInit (inp : InData ℝ) (channel : String) (procSpec : Option (List String)) (shape : String) (cells : List String)
    (slope : Option (List String)) : Res ExpModel :=
  match inp.chans.get? channel with
  | none => .error .value
  | some c => match axisByName c.axes shape with
    | none => .error .value
    | some sa => match lookupAxes c.axes cells with
      | .error e => .error e
      | .ok axs =>
        if ¬ cellsOk shape cells then .error .value
        else
          let sl := slope.getD cells
          if ¬ (sl.all fun n => cells.contains n) then .error .value
          else match lookupAxes c.axes sl with
          | .error e => .error e
          | .ok sxs => match targets inp.procs procSpec with
            | .error e => .error e
            | .ok ts =>
              if sa.centers.isEmpty then .error .index
              else
                let n := (sizes axs).prod
                let ns := (sizes sxs).prod
                .ok ⟨channel, c.axes, shape, cells, sl, ts.map fun p => inp.procs.idxOf p, n, ns, ts.length * (n + ns),
                  ts.flatMap fun p => AxisModels.cellNames "lnAmpl" p axs ++ AxisModels.cellNames "slope" p sxs,
                  xUnit sa.centers⟩

/-- elementwise function of three tensors of shapes that broadcast to `full` (`a + b * x`, `c0 * (1 - x) + c1 * x`); they
are broadcast before instead of after the arithmetic -/
def spread3 (f : ℝ → ℝ → ℝ → ℝ) (sa sb sx full : List Nat) (a b x : List ℝ) : Res (List ℝ) :=
  match spread sa full a, spread sb full b, spread sx full x with
  | .ok a, .ok b, .ok x => .ok (List.zipWith (fun p x => f p.1 p.2 x) (a.zip b) x)
  | _, _, _ => .error .value

/-- `AxisExpModel.compute` (param_model.py:772-800) -/
def expCompute (inp : InData ℝ) (m : ExpModel) (param : List ℝ) (full : Bool) : Res (Rates ℝ) :=
  let stride := m.nCell + m.nSlope
  axisCompute inp m.channel m.procIdxs
    (fun i => spread3 (fun a b x => Real.exp (a + b * x)) (keepShape m.axes m.cellNames) (keepShape m.axes m.slopeNames)
      (keepShape m.axes [m.shapeAx]) (sizes m.axes)
      (slice param (i * stride) (i * stride + m.nCell)) (slice param (i * stride + m.nCell) ((i + 1) * stride)) m.xs) full

/-- defaults (param_model.py:770) -/
def expDefault (m : ExpModel) : List ℝ := List.replicate m.npoi 0

/-! ### AxisBernsteinModel -/

/-- The constructed `AxisBernsteinModel`. -/
structure BernModel where
  channel : String
  axes : List (Axis ℝ)
  shapeAx : String
  cellNames : List String
  procIdxs : List Nat
  nCell : Nat
  npoi : Nat
  params : List String
  xs : List ℝ

/-- `AxisBernsteinModel.__init__` (param_model.py:847-972) without `expectSignal` (which raises) -/
def bernInit (inp : InData ℝ) (channel : String) (procSpec : Option (List String)) (shape : String) (cells : List String) :
    Res BernModel :=
  match inp.chans.get? channel with
  | none => .error .value
  | some c => match axisByName c.axes shape with
    | none => .error .value
    | some sa => match lookupAxes c.axes cells with
      | .error e => .error e
      | .ok axs =>
        if ¬ cellsOk shape cells then .error .value
        else match targets inp.procs procSpec with
          | .error e => .error e
          | .ok ts =>
            if sa.centers.isEmpty then .error .index
            else
              let n := (sizes axs).prod
              .ok ⟨channel, c.axes, shape, cells, ts.map fun p => inp.procs.idxOf p, n, ts.length * 2 * n,
                ts.flatMap fun p => AxisModels.cellNames "c0" p axs ++ AxisModels.cellNames "c1" p axs, xUnit sa.centers⟩

/-- `tf.nn.softplus` -/
def softplus (x : ℝ) : ℝ := Real.log (1 + Real.exp x)

/-- `AxisBernsteinModel.compute` (param_model.py:974-1008) -/
def bernCompute (inp : InData ℝ) (m : BernModel) (param : List ℝ) (full : Bool) : Res (Rates ℝ) :=
  axisCompute inp m.channel m.procIdxs
    (fun i => spread3 (fun a b x => a * (1 - x) + b * x) (keepShape m.axes m.cellNames) (keepShape m.axes m.cellNames)
      (keepShape m.axes [m.shapeAx]) (sizes m.axes)
      ((slice param (i * 2 * m.nCell) (i * 2 * m.nCell + m.nCell)).map softplus)
      ((slice param (i * 2 * m.nCell + m.nCell) ((i + 1) * 2 * m.nCell)).map softplus) m.xs) full

/-- defaults (param_model.py:963-966) -/
def bernDefault (m : BernModel) : List ℝ := List.replicate m.npoi (Real.log (Real.exp 1 - 1))

/-! ### SaturatedProjectModel -/

/-- `channel_info` of a mapping: the axes of every output channel.  Axes are compared by name (the histogram library
compares the whole axis; axes of one channel have different names). -/
abbrev MapInfo := Dict String (List (Axis ℝ))

/-- `npoi` (param_model.py:394-401) -/
def satNpoi (info : MapInfo) : Nat := (info.map fun e => (sizes e.2).prod).sum

/-- names (param_model.py:404-408) -/
def satParams (info : MapInfo) : List String :=
  info.flatMap fun e => (grid (sizes e.2)).map fun idx => "saturated_" ++ e.1 ++ "_" ++ cellLabel e.2 idx

/-- the loop over the channels (param_model.py:418-441): blocks of one column.  `np.prod` of an empty list is a floating
point number, the slice with it raises TypeError. -/
def satBlocks (info : MapInfo) (param : List ℝ) : Nat → List (String × Chan ℝ) → Res (List (List ℝ))
  | _, [] => .ok []
  | start, (k, c) :: cs => match info.get? k with
    | none => match satBlocks info param start cs with
      | .error e => .error e
      | .ok bl => .ok (List.replicate (sizes c.axes).prod 1 :: bl)
    | some axs =>
      if axs.isEmpty then .error .type
      else
        let n := (sizes axs).prod
        match spread (keepShape c.axes (axs.map (·.name))) (sizes c.axes) (slice param start (start + n)) with
        | .error e => .error e
        | .ok l => match satBlocks info param (start + n) cs with
          | .error e => .error e
          | .ok bl => .ok (l :: bl)

/-- `SaturatedProjectModel.compute` (param_model.py:417-446): one column -/
def satCompute (inp : InData ℝ) (info : MapInfo) (param : List ℝ) (full : Bool) : Res (Rates ℝ) :=
  match satBlocks info param 0 (activeChans inp full) with
  | .error e => .error e
  | .ok bl =>
    if bl.isEmpty then .error .value
    else .ok ⟨bl.flatten.length, 1, fun b _ => bl.flatten.getD b 1⟩

end

end Verif.AxisModels
