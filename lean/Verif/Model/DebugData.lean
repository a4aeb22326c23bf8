import Verif.Model.Merge
import Mathlib.Analysis.SpecialFunctions.Log.Basic
import Mathlib.Analysis.Real.Sqrt

/-
Queries on an input tensor (rabbit/debugdata.py:124-187) and the report of the input checker
(bin/rabbit_debug_inputdata.py:25-265), on top of the templates and slices of `FitDebugData` in `Merge`.

Data are finite; every channel has at least one axis and one bin (numpy raises for the minimum of nothing).
-/

namespace Verif.DebugData

open Verif.Merge Verif.Writer Verif.Logk

noncomputable section

/-- a dense input as the debugger sees it -/
structure In where
  t : Tensor ℝ
  st : SystType
  norm : Nat → Nat → ℝ
  logk : Nat → Nat → Nat → Nat → ℝ
  data : Nat → ℝ

/-- the channels with their slices (debugdata.py:23-27, 122) -/
def In.blocks (I : In) : List Block := blocksFrom 0 I.t.channelInfo

/-- the position of a name on a category axis -/
def idxOne (all : List String) (n : String) : Res Nat := match all.idxOf? n with
  | some i => .ok i
  | none => .error .key

/-- `hist[{axis: names}]`: the positions of the names, all without a choice; an unknown name is an error -/
def idxsOf (all : List String) : Option (List String) → Res (List Nat)
  | none => .ok (List.range all.length)
  | some l => l.mapM (idxOne all)

/-- `self.syst_active_hists[channel]` -/
def blockOne (I : In) (n : String) : Res Block := match I.blocks.find? fun k => k.name == n with
  | some k => .ok k
  | none => .error .key

/-- `for channel in channels: ...` -/
def blocksOf (I : In) : Option (List String) → Res (List Block)
  | none => .ok I.blocks
  | some l => l.mapM (blockOne I)

/-- the names at the positions that satisfy a test, in the order of the file (debugdata.py:141-146, 182-187) -/
def pickNames (all : List String) (q : Nat → Bool) : List String := (all.zipIdx.filter fun m => q m.2).map (·.1)

/-- `nonzeroSysts` (debugdata.py:124-146) -/
def nonzeroSysts (I : In) (channels procs : Option (List String)) : Res (List String) := do
  let ks ← blocksOf I channels
  let ps ← idxsOf I.t.procs procs
  return pickNames I.t.systs fun j => ks.any fun k => ps.any fun p => active I.t I.logk k p j

/-- `channelsForNonzeroSysts` (debugdata.py:148-163) -/
def channelsForNonzeroSysts (I : In) (procs systs : Option (List String)) : Res (List String) := do
  let ps ← idxsOf I.t.procs procs
  let js ← idxsOf I.t.systs systs
  return (I.blocks.filter fun k => ps.any fun p => js.any fun j => active I.t I.logk k p j).map (·.name)

/-- `procsForNonzeroSysts` (debugdata.py:165-187) -/
def procsForNonzeroSysts (I : In) (channels systs : Option (List String)) : Res (List String) := do
  let ks ← blocksOf I channels
  let js ← idxsOf I.t.systs systs
  return pickNames I.t.procs fun p => ks.any fun k => js.any fun j => active I.t I.logk k p j

/-- one finding of the checker; bins are counted from the first bin of the channel -/
inductive Issue where
  | emptyData (channels : List String)
  | lowData (channel : String) (count : Nat) (bins : List Nat)
  | lowYield (channel : String) (count : Nat) (bins : List Nat)
  | highUnc (channel : String) (count : Nat) (bins : List Nat)
  | zeroNorm (l : List (String × List String))
  | zeroSysts (l : List String)
  | noSysts (procs : List String)
  | extreme (l : List (String × String × String))

/-- bins of a channel that satisfy a test (`np.where`) -/
def binsWhere (k : Block) (q : Nat → Prop) [DecidablePred q] : List Nat := (List.range k.n).filter fun i => q (k.start + i)

/-- an issue only if its list is not empty -/
def ifAny {α : Type} (l : List α) (i : List α → Issue) : List Issue := if l.isEmpty then [] else [i l]

/-- prediction of all processes (`hist.sum` over the processes) -/
def In.total (I : In) (b : Nat) : ℝ := ((List.range I.t.procs.length).map fun p => I.norm b p).sum

/-- variance of the prediction -/
def In.totalVar (I : In) (b : Nat) : ℝ := ((List.range I.t.procs.length).map fun p => I.t.sumw2 b p).sum

open Classical in
/-- `variances ** 0.5 / values > 1` (rabbit_debug_inputdata.py:134-137) in floating point: for a vanishing prediction the
ratio is infinite if the variance is positive and not a number if it vanishes; a negative variance has no root. -/
def relUncHigh (v y : ℝ) : Prop := if y = 0 then 0 < v else 0 ≤ v ∧ 1 < Real.sqrt v / y

open Classical in
/-- 2: channels with empty data (rabbit_debug_inputdata.py:67-84) -/
def emptyDataIssues (I : In) (sel : List Block) : List Issue :=
  ifAny ((sel.filter fun k => !k.chan.masked && decide ((slice k I.data).sum = 0)).map (·.name)) .emptyData

open Classical in
/-- 2.1: bins with few data (rabbit_debug_inputdata.py:86-107): the number in the message is the length of the tuple that
`np.where` returns, one array of indices per axis -/
def lowDataIssues (I : In) (sel : List Block) : List Issue :=
  sel.flatMap fun k => if k.chan.masked then [] else ifAny (binsWhere k fun b => I.data b < 10) (.lowData k.name k.chan.axes.length)

open Classical in
/-- 2.2: bins with a low prediction (rabbit_debug_inputdata.py:109-130) -/
def lowYieldIssues (I : In) (sel : List Block) : List Issue :=
  sel.flatMap fun k => ifAny (binsWhere k fun b => I.total b < 1) fun l => .lowYield k.name l.length l

open Classical in
/-- 2.3: bins with a high relative uncertainty (rabbit_debug_inputdata.py:132-159) -/
def highUncIssues (I : In) (sel : List Block) : List Issue :=
  sel.flatMap fun k => ifAny (binsWhere k fun b => relUncHigh (I.totalVar b) (I.total b)) fun l => .highUnc k.name l.length l

open Classical in
/-- 3: processes without events (rabbit_debug_inputdata.py:161-182) -/
def zeroNormIssues (I : In) (sel : List Block) : List Issue :=
  ifAny ((sel.map fun k => (k.name, pickNames I.t.procs fun p => decide ((slice k fun b => I.norm b p).sum = 0))).filter
    fun e => !e.2.isEmpty) .zeroNorm

/-- 4: systematics with only zeros (rabbit_debug_inputdata.py:184-195) -/
def zeroSystsIssues (I : In) : Res (List Issue) := do
  let nz ← nonzeroSysts I none none
  return ifAny (I.t.systs.filter fun m => !nz.contains m) .zeroSysts

/-- 5: processes without variations (rabbit_debug_inputdata.py:197-216) -/
def noSystsIssues (I : In) : Res (List Issue) := do
  let l ← I.t.procs.mapM fun p => do
    let chs ← channelsForNonzeroSysts I (some [p]) none
    return (p, chs.isEmpty)
  return ifAny ((l.filter (·.2)).map (·.1)) .noSysts

/-- the template of a variation -/
def In.template (I : In) (up : Bool) (b p j : Nat) : ℝ :=
  varied Real.exp I.st (if up then upVar I.t I.logk b p j else downVar I.t I.logk b p j) (I.norm b p)

open Classical in
/-- `down_extreme < 1 / threshold or up_extreme > threshold` with the smallest down ratio and the largest up ratio over the
bins with positive prediction (rabbit_debug_inputdata.py:224-242); without such bins both are not numbers -/
def isExtreme (I : In) (k : Block) (p j : Nat) : Bool :=
  (List.range k.n).any fun i => let b := k.start + i
    decide (0 < I.norm b p ∧ (I.template false b p j / I.norm b p < 1 / 2 ∨ 2 < I.template true b p j / I.norm b p))

/-- 6: extreme variations (rabbit_debug_inputdata.py:218-259) -/
def extremeIssues (I : In) (sel : List Block) : List Issue :=
  ifAny (sel.flatMap fun k => I.t.systs.zipIdx.flatMap fun m =>
    (pickNames I.t.procs fun p => isExtreme I k p m.2).map fun p => (k.name, p, m.1)) .extreme

/-- `debug_input_data` (rabbit_debug_inputdata.py:25-265): the findings; the result is "passed" if there are none.  Check 1
finds nothing, since `FitDebugData` has data for every unmasked channel.  An unknown systematic type leaves `get_syst`
undefined: `FitDebugData` cannot be built, and the checker stops after a message (`none`). -/
def report (I : In) (channels : Option (List String)) : Option (Res (List Issue)) :=
  if I.st = .other ∧ I.blocks ≠ [] then none
  else
    let sel := I.blocks.filter fun k => match channels with
      | none => true
      | some l => l.contains k.name
    some (do
      let z ← zeroSystsIssues I
      let n ← noSystsIssues I
      return emptyDataIssues I sel ++ lowDataIssues I sel ++ lowYieldIssues I sel ++ highUncIssues I sel ++
        zeroNormIssues I sel ++ z ++ n ++ extremeIssues I sel)

end

end Verif.DebugData
