import Verif.Model.Write

/-
Merging of input tensors: `FitDebugData` (rabbit/debugdata.py:6-122), which turns a tensor back into nominal and
varied templates, and the merge tool (bin/merge_inputs.py:89-236), which adds these templates to a new tensor.

The renaming tables and the clipping of the tool are not modelled (they are off by default), nor are its command line
and logging.  A `hist` object built from a slice of the tensor is modelled by its axes and its flat contents without
flow bins; the merged channels never read flow bins, because the tool registers them without `flow`.
-/

namespace Verif.Merge

open Verif.Logk Verif.Writer

section
variable {V : Type} [Field V] [LinearOrder V]

/-- What the tool reads of an input file: the tensor and its `systematic_type` (inputdata.py:73-110). -/
structure Input (V : Type) where
  tensor : Tensor V
  systType : SystType

/-- One channel of `FitDebugData` with its slice `[start, start + n)` of the bin axis. -/
structure Block where
  name : String
  chan : Chan
  start : Nat
  n : Nat
  deriving DecidableEq, Repr

/-- the running `ibin` of `FitDebugData` (debugdata.py:23-27, 122): sizes without flow bins -/
def blocksFrom : Nat → Dict String Chan → List Block
  | _, [] => []
  | ibin, (name, c) :: rest =>
    ⟨name, c, ibin, prod (dims false c.axes)⟩ :: blocksFrom (ibin + prod (dims false c.axes)) rest

/-- `get_syst` (debugdata.py:68-76) -/
def varied (exp : V → V) (t : SystType) (logk nominal : V) : V :=
  match t with
  | .logNormal => exp logk * nominal
  | .normal => logk + nominal
  | .other => 0

/-- the stored variation in the up direction, `logkavg` or `logkavg + logkhalfdiff` (debugdata.py:79-90) -/
def upVar (t : Tensor V) (logk : Nat → Nat → Nat → Nat → V) (b p j : Nat) : V :=
  if t.symmetric then logk b p 0 j else logk b p 0 j + logk b p 1 j

/-- the stored variation in the down direction, `-logkavg` or `-logkavg + logkhalfdiff` (debugdata.py:79-90) -/
def downVar (t : Tensor V) (logk : Nat → Nat → Nat → Nat → V) (b p j : Nat) : V :=
  if t.symmetric then -logk b p 0 j else -logk b p 0 j + logk b p 1 j

/-- `nonzero` (debugdata.py:84, 92-94) -/
def varies (t : Tensor V) (logk : Nat → Nat → Nat → Nat → V) (b p j : Nat) : Bool :=
  if t.symmetric then decide (0 < |logk b p 0 j|) else decide (0 < |logk b p 0 j|) || decide (0 < |logk b p 1 j|)

/-- `syst_active_hist > 0` (debugdata.py:112-114) -/
def active (t : Tensor V) (logk : Nat → Nat → Nat → Nat → V) (k : Block) (p j : Nat) : Bool :=
  (List.range k.n).any fun i => varies t logk (k.start + i) p j

/-- `a[ibin:stop]` -/
def slice {α : Type} (k : Block) (f : Nat → α) : List α := (List.range k.n).map fun i => f (k.start + i)

/-- a histogram filled from flat contents and variances -/
def histOf (k : Block) (vals vars : List (FVal V)) : HIn V := .hist k.chan.axes (fun _ => vals) (fun _ => vars)

/-- `nominal_hists[ch][{"processes": proc}]` (debugdata.py:52-60) -/
def nominal (t : Tensor V) (norm : Nat → Nat → V) (k : Block) (p : Nat) : HIn V :=
  histOf k (slice k fun b => .fin (norm b p)) (slice k fun b => .fin (t.sumw2 b p))

/-- `data_obs_hists[ch]` (debugdata.py:36-50) -/
def dataHist (t : Tensor V) (k : Block) : HIn V := histOf k (slice k t.dataObs) (slice k t.dataVar)

/-- `syst_hists[ch][{"processes": proc, "systs": syst, "DownUp": ...}]` (debugdata.py:96-104) -/
def systHist (exp : V → V) (st : SystType) (norm : Nat → Nat → V) (k : Block) (p : Nat) (var : Nat → V) : HIn V :=
  let l := slice k fun b => FVal.fin (varied exp st (var b) (norm b p))
  histOf k l l

/-- `get_groups_per_syst` (merge_inputs.py:22-33): the groups of systematic `j` -/
def groupsOf (t : Tensor V) (j : Nat) : List String :=
  t.groups.flatMap fun g => (g.2.filter (· == j)).map fun _ => g.1

/-- the options of one `add_systematic` call (merge_inputs.py:177-201, 220-229) -/
def optsOf (t : Tensor V) (j : Nat) (name : String) : SystOpts where
  noi := decide (name ∈ t.noiIdxs.filterMap fun i => t.systs[i]?)
  constrained := !decide (name ∈ t.noConstraint)
  groups := some (groupsOf t j)

/-- `add_systematic([up, down], ...)` for systematic `j` and process `p` (merge_inputs.py:209-229) -/
def systOp (exp : V → V) (I : Input V) (norm : Nat → Nat → V) (logk : Nat → Nat → Nat → Nat → V) (k : Block)
    (j : Nat) (m : String) (p : Nat) (proc : String) : Op V :=
  .syst (.pair (systHist exp I.systType norm k p fun b => upVar I.tensor logk b p j)
      (systHist exp I.systType norm k p fun b => downVar I.tensor logk b p j))
    m proc k.name 1 true .none false false (optsOf I.tensor j m)

/-- `for idx in range(indata.nsyst): for proc in procsForNonzeroSysts(...)` (merge_inputs.py:188-229,
debugdata.py:165-187) -/
def systOps (exp : V → V) (I : Input V) (norm : Nat → Nat → V) (logk : Nat → Nat → Nat → Nat → V) (k : Block) :
    List (Op V) :=
  I.tensor.systs.zipIdx.flatMap fun m =>
    (I.tensor.procs.zipIdx.filter fun p => active I.tensor logk k p.2 m.2).map fun p =>
      systOp exp I norm logk k m.2 m.1 p.2 p.1

/-- `add_channel` and the `add_process` calls of a channel (merge_inputs.py:166-173) -/
def nominalOps (I : Input V) (norm : Nat → Nat → V) (k : Block) : List (Op V) :=
  .channel k.chan.axes (some k.name) false false ::
    I.tensor.procs.zipIdx.map fun p =>
      .process (nominal I.tensor norm k p.2) p.1 k.name (decide (p.1 ∈ I.tensor.signals)) none

/-- one channel (merge_inputs.py:141-229); masked channels have no entry in `data_obs_hists` -/
def mergeBlock (cfg : Cfg V) (exp : V → V) (I : Input V) (norm : Nat → Nat → V)
    (logk : Nat → Nat → Nat → Nat → V) (k : Block) : M V Unit := do
  -- `procs[0]` (merge_inputs.py:166)
  M.raiseIf I.tensor.procs.isEmpty .index
  M.forEach (step cfg) (nominalOps I norm k)
  M.raiseIf k.chan.masked .key
  step cfg (.data (dataHist I.tensor k) k.name none)
  M.forEach (step cfg) (systOps exp I norm logk k)

/-- one input tensor (merge_inputs.py:129-229); sparse tensors raise (debugdata.py:9-10), an unknown systematic type
leaves `get_syst` undefined as soon as there is a channel (debugdata.py:68-82) -/
def mergeInput (cfg : Cfg V) (exp : V → V) (I : Input V) : M V Unit :=
  match I.tensor.body with
  | .sparse _ => M.raise .notImpl
  | .dense norm logk => do
    M.raiseIf (decide (I.systType = .other) && !I.tensor.channelInfo.isEmpty) .exception
    M.forEach (mergeBlock cfg exp I norm logk) (blocksFrom 0 I.tensor.channelInfo)

/-- the registration calls of the merge tool on a fresh writer (merge_inputs.py:125-229) -/
def merge (cfg : Cfg V) (exp : V → V) (Is : List (Input V)) : M V Unit :=
  M.forEach (mergeInput cfg exp) Is

/-- the merged file (merge_inputs.py:125-236): the tool builds a dense writer that does not allow negative
expectations; only the systematic type can be chosen -/
def mergedFile (num : Num V) (close : Axis → Axis → Bool) (st : SystType) (exp : V → V)
    (iter : List String → List String) (Is : List (Input V)) : Res (Tensor V) :=
  let cfg : Cfg V := ⟨num, false, st, false, false, close⟩
  (do merge cfg exp Is; write cfg iter : M V (Tensor V)) {} |>.2

end

end Verif.Merge
