import Verif.Model.ParamModels
import Verif.Model.Grid

/-
ABCD background models (rabbit/param_models/abcd_model.py, extended_abcd_model.py, smooth_abcd_model.py,
smooth_extended_abcd_model.py, abcd_isomtmt_model.py).  Numbers are elements of a field (exact arithmetic, `1e-10`
is exact).  The token parsers `parse_args` are not modelled.
-/

namespace Verif.ABCD

open Verif.ParamModels Verif.Grid

variable {V : Type}

/-- A histogram axis: name, number of bins without and with flow bins, and the values `edges`, `centers` that the
histogram library reports -/
structure Axis (V : Type) where
  name : String
  size : Nat
  extent : Nat := size
  edges : List V := []
  centers : List V := []

/-- An entry of `indata.channel_info` (inputdata.py:172-189).  `start` is the first bin of the channel. -/
structure Chan (V : Type) where
  axes : List (Axis V)
  start : Nat
  flow : Bool := false
  masked : Bool := false

/-- What the models read of `FitInputData`.  `norm` is the dense matrix (the sparse one converted by
`tf.sparse.to_dense`). -/
structure InData (V : Type) where
  procs : List String
  chans : Dict String (Chan V)
  nbins : Nat
  nbinsfull : Nat
  norm : Nat → Nat → V

/-- shape of a channel in the bin vector (inputdata.py:176-178) -/
def Chan.shape (c : Chan V) : List Nat := c.axes.map fun a => if c.flow then a.extent else a.size

/-- `[a.size for a in axes]` -/
def sizes (axes : List (Axis V)) : List Nat := axes.map (·.size)

/-- The user's choice of bins: axis name → bin number.  A region is a dictionary with the channel name as key. -/
abbrev Sel := Dict String Int
abbrev Region := Dict String Sel

/-- `next((i for i, a in enumerate(axes) if a.name == ax_name), None)` (abcd_model.py:50) -/
def axPos (axes : List (Axis V)) (n : String) : Option Nat := axes.findIdx? fun a => decide (a.name = n)

/-- the loop filling `slices` (abcd_model.py:48-56) -/
def slices (axes : List (Axis V)) : Sel → List (Option Int) → Res (List (Option Int))
  | [], sl => .ok sl
  | (n, i) :: sel, sl => match axPos axes n with
    | none => .error .value
    | some k => slices axes sel (sl.set k (some i))

/-- numpy indexing of an axis of size `n` by an integer: negative values count from the end -/
def wrapIdx (n : Nat) (i : Int) : Res Nat :=
  if 0 ≤ i ∧ i < n then .ok i.toNat
  else if -(n : Int) ≤ i ∧ i < 0 then .ok (i + n).toNat
  else .error .index

/-- the indices of one axis that a slice selects -/
def choices (n : Nat) : Option Int → Res (List Nat)
  | none => .ok (List.range n)
  | some i => match wrapIdx n i with
    | .ok k => .ok [k]
    | .error e => .error e

/-- indices selected on every axis; raises when one is out of range -/
def allChoices : List Nat → List (Option Int) → Res (List (List Nat))
  | n :: ns, s :: ss => match choices n s with
    | .error e => .error e
    | .ok c => match allChoices ns ss with
      | .error e => .error e
      | .ok cs => .ok (c :: cs)
  | _, _ => .ok []

/-- multi-indices of `array[tuple(slices)].flatten()`: row-major order -/
def cells : List (List Nat) → List (List Nat)
  | [] => [[]]
  | c :: cs => c.flatMap fun i => (cells cs).map (i :: ·)

/-- bins of one channel selected by `sel` (abcd_model.py:41-59); `all_indices` is `np.arange(prod(shape))` reshaped to the
sizes of the axes, so a multi-index has the value `ravel` -/
def localIndices (c : Chan V) (sel : Sel) : Res (List Nat) :=
  match slices c.axes sel (List.replicate c.axes.length none) with
  | .error e => .error e
  | .ok sl => match allChoices (sizes c.axes) sl with
    | .error e => .error e
    | .ok cs => .ok ((cells cs).map fun i => c.start + ravel (sizes c.axes) i)

/-- `_get_global_indices` (abcd_model.py:19-59) -/
def getGlobalIndices (chans : Dict String (Chan V)) : Region → Res (List Nat)
  | [(ch, sel)] => match chans.get? ch with
    | none => .error .value
    | some c => localIndices c sel
  | _ => .error .value

/-- `"_".join(f"{a.name}{i}" …)` (abcd_model.py:80) -/
def cellLabel (axes : List (Axis V)) (idx : List Nat) : String :=
  "_".intercalate (List.zipWith (fun a i => a.name ++ toString i) axes idx)

/-- `_build_param_names` (abcd_model.py:62-82); `next` of an unknown axis is not reached, `_get_global_indices` raised
before -/
def buildNames (proc ch : String) (axes : List (Axis V)) (sel : Sel) : List String :=
  ((grid (sizes axes)).filter fun idx =>
    sel.all fun s => match axPos axes s.1 with
      | none => true
      | some k => decide (((idx.getD k 0 : Nat) : Int) = s.2)).map
    fun idx => proc ++ "_" ++ ch ++ "_" ++ cellLabel axes idx

/-- names of a region (abcd_model.py:206-214) -/
def regionNames (inp : InData V) (proc : String) (r : Region) : List String :=
  match r with
  | (ch, sel) :: _ => match inp.chans.get? ch with
    | none => []
    | some c => buildNames proc ch c.axes sel
  | [] => []

/-- `tf.gather(norm_proc, idx)` (abcd_model.py:174-177); raises on an index out of range -/
def gather (inp : InData V) (p : Nat) (idx : List Nat) : Res (List V) :=
  if idx.any fun i => decide (inp.nbinsfull ≤ i) then .error .value else .ok (idx.map fun b => inp.norm b p)

/-- One region of a model: its bins in the order of its values -/
structure Reg where
  bins : List Nat
  active : Bool

/-- `_active_nonfull` (abcd_model.py:195-198) -/
def mkReg (nbins : Nat) (bins : List Nat) : Reg := ⟨bins, bins.all fun i => decide (i < nbins)⟩

/-- The constructed `ABCD` model (abcd_model.py:130-224). -/
structure Model (V : Type) where
  n : Nat
  proc : Nat
  mcFactor : List V
  A : Reg
  B : Reg
  C : Reg
  D : Reg
  params : List String
  yieldCorr : Bool

/-- zero replaced by one (abcd_model.py:180-181) -/
def safe1 [Zero V] [One V] [DecidableEq V] (x : V) : V := if x = 0 then 1 else x

/-- `mc_factor_D` (abcd_model.py:180-182) -/
def mcFactor [Field V] [DecidableEq V] (a b c d : V) : V := a * c / (safe1 b * safe1 d)

/-- entrywise function of four lists -/
def zip4 (f : V → V → V → V → V) (a b c d : List V) : List V :=
  List.zipWith (fun x y => f x.1 x.2 y.1 y.2) (a.zip b) (c.zip d)

/-- `ABCD.__init__` (abcd_model.py:130-224) -/
def abcdInit [Field V] [DecidableEq V] (inp : InData V) (proc : String) (rA rB rC rD : Region) (yc : Bool) :
    Res (Model V) :=
  if ¬ inp.procs.contains proc then .error .value
  else
    let p := inp.procs.idxOf proc
    match getGlobalIndices inp.chans rA with
    | .error e => .error e
    | .ok iA => match getGlobalIndices inp.chans rB with
    | .error e => .error e
    | .ok iB => match getGlobalIndices inp.chans rC with
    | .error e => .error e
    | .ok iC => match getGlobalIndices inp.chans rD with
    | .error e => .error e
    | .ok iD =>
      if ¬ (iB.length = iC.length ∧ iC.length = iD.length ∧ iD.length = iA.length) then .error .value
      else match gather inp p iA, gather inp p iB, gather inp p iC, gather inp p iD with
      | .ok a, .ok b, .ok c, .ok d => .ok
        { n := iA.length
          proc := p
          mcFactor := zip4 mcFactor a b c d
          A := mkReg inp.nbins iA
          B := mkReg inp.nbins iB
          C := mkReg inp.nbins iC
          D := mkReg inp.nbins iD
          params := regionNames inp proc rA ++ regionNames inp proc rB ++ regionNames inp proc rC
          yieldCorr := yc }
      | _, _, _, _ => .error .value

/-- zero replaced by `1e-10` (abcd_model.py:299) -/
def safeTiny [Field V] [DecidableEq V] (x : V) : V := if x = 0 then 1 / 10 ^ 10 else x

/-- the common end of the `compute` functions (abcd_model.py:304-323): entries of the active regions replaced -/
def place [One V] (inp : InData V) (p : Nat) (full : Bool) (regs : List (Reg × List V)) : Res (Rates V) :=
  let act := regs.filter fun r => full || r.1.active
  scatter2 (if full then inp.nbinsfull else inp.nbins) inp.procs.length
    ((act.map fun r => r.1.bins.map fun b => (b, p)).flatten) ((act.map (·.2)).flatten)

/-- value of region D (abcd_model.py:299-302) -/
def dVal [Field V] [DecidableEq V] (a b c : V) : V := a * c / safeTiny b

/-- entrywise function of three lists -/
def zip3 (f : V → V → V → V) (a b c : List V) : List V := List.zipWith (fun x y => f x.1 x.2 y) (a.zip b) c

/-- values of region D with the optional factor (abcd_model.py:299-302) -/
def dVals [Field V] [DecidableEq V] (m : Model V) (a b c : List V) : List V :=
  let d := zip3 dVal a b c
  if m.yieldCorr then List.zipWith (· * ·) d m.mcFactor else d

/-- `ABCD.compute` (abcd_model.py:282-323).  A vector of another length is rejected (TensorFlow would raise in the
products or in the scatter). -/
def abcdCompute [Field V] [DecidableEq V] (inp : InData V) (m : Model V) (param : List V) (full : Bool) :
    Res (Rates V) :=
  if param.length ≠ 3 * m.n then .error .value
  else
    let a := (slice param 0 m.n).map (· ^ 2)
    let b := (slice param m.n (2 * m.n)).map (· ^ 2)
    let c := (slice param (2 * m.n) (3 * m.n)).map (· ^ 2)
    place inp m.proc full [(m.A, a), (m.B, b), (m.C, c), (m.D, dVals m a b c)]

/-- defaults (abcd_model.py:224) -/
def abcdDefault [One V] (m : Model V) : List V := List.replicate (3 * m.n) 1

/-! ### six regions -/

/-- The constructed `ExtendedABCD` model (extended_abcd_model.py:61-178). -/
structure XModel (V : Type) where
  n : Nat
  proc : Nat
  mcFactor : List V
  A : Reg
  B : Reg
  C : Reg
  D : Reg
  Ax : Reg
  Bx : Reg
  params : List String
  yieldCorr : Bool

/-- `mc_factor_D` of one bin (extended_abcd_model.py:130-135) -/
def xmcFactor [Field V] [DecidableEq V] (a b c d ax bx : V) : V :=
  c * ax * b ^ 2 / (safe1 bx * safe1 a ^ 2 * safe1 d)

/-- entrywise function of six lists -/
def zip6 (f : V → V → V → V → V → V → V) (a b c d e g : List V) : List V :=
  List.zipWith (fun x y => f x.1.1 x.1.2 x.2 y.1.1 y.1.2 y.2) ((a.zip b).zip c) ((d.zip e).zip g)

/-- `ExtendedABCD.__init__` (extended_abcd_model.py:61-178) -/
def xInit [Field V] [DecidableEq V] (inp : InData V) (proc : String) (rA rB rC rD rAx rBx : Region) (yc : Bool) :
    Res (XModel V) :=
  if ¬ inp.procs.contains proc then .error .value
  else
    let p := inp.procs.idxOf proc
    match getGlobalIndices inp.chans rA with
    | .error e => .error e
    | .ok iA => match getGlobalIndices inp.chans rB with
    | .error e => .error e
    | .ok iB => match getGlobalIndices inp.chans rC with
    | .error e => .error e
    | .ok iC => match getGlobalIndices inp.chans rD with
    | .error e => .error e
    | .ok iD => match getGlobalIndices inp.chans rAx with
    | .error e => .error e
    | .ok iAx => match getGlobalIndices inp.chans rBx with
    | .error e => .error e
    | .ok iBx =>
      if ¬ (iB.length = iA.length ∧ iC.length = iA.length ∧ iD.length = iA.length ∧ iAx.length = iA.length ∧
          iBx.length = iA.length) then .error .value
      else match gather inp p iA, gather inp p iB, gather inp p iC, gather inp p iD, gather inp p iAx, gather inp p iBx with
      | .ok a, .ok b, .ok c, .ok d, .ok ax, .ok bx => .ok
        { n := iA.length
          proc := p
          mcFactor := zip6 xmcFactor a b c d ax bx
          A := mkReg inp.nbins iA
          B := mkReg inp.nbins iB
          C := mkReg inp.nbins iC
          D := mkReg inp.nbins iD
          Ax := mkReg inp.nbins iAx
          Bx := mkReg inp.nbins iBx
          params := regionNames inp proc rA ++ regionNames inp proc rB ++ regionNames inp proc rC ++
            regionNames inp proc rAx ++ regionNames inp proc rBx
          yieldCorr := yc }
      | _, _, _, _, _, _ => .error .value

/-- value of region D (extended_abcd_model.py:259-264) -/
def xdVal [Field V] [DecidableEq V] (a b c ax bx : V) : V := c * ax * b ^ 2 / (safeTiny bx * safeTiny a ^ 2)

/-- entrywise function of five lists -/
def zip5 (f : V → V → V → V → V → V) (a b c d e : List V) : List V :=
  List.zipWith (fun x y => f x.1.1 x.1.2 x.2 y.1 y.2) ((a.zip b).zip c) (d.zip e)

/-- values of region D with the optional factor (extended_abcd_model.py:259-264) -/
def xdVals [Field V] [DecidableEq V] (m : XModel V) (a b c ax bx : List V) : List V :=
  let d := zip5 xdVal a b c ax bx
  if m.yieldCorr then List.zipWith (· * ·) d m.mcFactor else d

/-- `ExtendedABCD.compute` (extended_abcd_model.py:242-292) -/
def xCompute [Field V] [DecidableEq V] (inp : InData V) (m : XModel V) (param : List V) (full : Bool) : Res (Rates V) :=
  if param.length ≠ 5 * m.n then .error .value
  else
    let a := (slice param 0 m.n).map (· ^ 2)
    let b := (slice param m.n (2 * m.n)).map (· ^ 2)
    let c := (slice param (2 * m.n) (3 * m.n)).map (· ^ 2)
    let ax := (slice param (3 * m.n) (4 * m.n)).map (· ^ 2)
    let bx := (slice param (4 * m.n) (5 * m.n)).map (· ^ 2)
    place inp m.proc full [(m.A, a), (m.B, b), (m.C, c), (m.D, xdVals m a b c ax bx), (m.Ax, ax), (m.Bx, bx)]

/-! ### the mt × relIso wrappers -/

/-- `_isomtmt_regions` (abcd_isomtmt_model.py:40-54): bin numbers of the signal, sideband and extra sideband in mt -/
def isomtRegions (inp : InData V) (ch : String) : Res (Int × Int × Int) :=
  match inp.chans.get? ch with
  | none => .error .key
  | some c => match c.axes.find? fun a => decide (a.name = "mt") with
    | none => .error .value
    | some mt => match c.axes.find? fun a => decide (a.name = "relIso") with
      | none => .error .value
      | some _ => .ok ((mt.size : Int) - 1, (mt.size : Int) - 2, (mt.size : Int) - 3)

/-- region of the wrappers -/
def isoReg (ch : String) (iso mt : Int) : Region := [(ch, [("relIso", iso), ("mt", mt)])]

/-- `ABCDIsoMT.__init__` (abcd_isomtmt_model.py:116-126) -/
def abcdIsoMT [Field V] [DecidableEq V] (inp : InData V) (proc ch : String) (yc : Bool) : Res (Model V) :=
  match isomtRegions inp ch with
  | .error e => .error e
  | .ok (s, sb, _) =>
    if sb < 0 then .error .value
    else abcdInit inp proc (isoReg ch 1 sb) (isoReg ch 0 sb) (isoReg ch 1 s) (isoReg ch 0 s) yc

/-- `ExtendedABCDIsoMT.__init__` (abcd_isomtmt_model.py:155-176) -/
def xIsoMT [Field V] [DecidableEq V] (inp : InData V) (proc ch : String) (yc : Bool) : Res (XModel V) :=
  match isomtRegions inp ch with
  | .error e => .error e
  | .ok (s, sb, xsb) =>
    if xsb < 0 then .error .value
    else xInit inp proc (isoReg ch 1 sb) (isoReg ch 0 sb) (isoReg ch 1 s) (isoReg ch 0 s) (isoReg ch 1 xsb)
      (isoReg ch 0 xsb) yc

end Verif.ABCD
