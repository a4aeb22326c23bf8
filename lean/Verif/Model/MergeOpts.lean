import Verif.Model.Merge

/-
The options of the merge tool (bin/merge_inputs.py:12-236): tables of new names for systematics, groups, processes and
channels, and clipping of the templates of chosen tensors.

The module with the tables is given by its four dictionaries, whose values are strings; a missing one is empty
(merge_inputs.py:93-117).  `float` on the text of a threshold is a parameter.  Arrays of names of numpy have a fixed width,
that of the longest name they were made of.
-/

namespace Verif.MergeOpts

open Verif.Logk Verif.Writer Verif.Merge

/-- `rename_systs`, `rename_groups`, `rename_processes`, `rename_channels` (merge_inputs.py:93-117) -/
structure Tables where
  systs : Dict String String := []
  groups : Dict String String := []
  procs : Dict String String := []
  channels : Dict String String := []

/-- the new name, or the old one without an entry (merge_inputs.py:26-30, 143-150, 201-205, 209-213) -/
def look (d : Dict String String) (s : String) : String := (d.get? s).getD s

/-- the width of `np.array` of names: the longest, at least one -/
def width (l : List String) : Nat := l.foldl (fun n s => max n s.length) 1

/-- storing a name in an array of names cuts it to the width of the array -/
def fit (n : Nat) (s : String) : String := String.ofList (s.toList.take n)

/-- `new_procs[i]` (merge_inputs.py:159-164): an entry of the table is stored in a copy of the array of names -/
def newProc (T : Tables) (procs : List String) (p : String) : String :=
  match T.procs.get? p with
  | some q => fit (width procs) q
  | none => p

/-- `clip_dict` (merge_inputs.py:119-126) -/
def clipPairs {V : Type} (float : String → Option V) : List String → Res (List (String × V))
  | [] => .ok []
  | [_] => .error .value
  | t :: x :: l =>
    match float x with
    | none => .error .value
    | some v => (clipPairs float l).bind fun r => .ok ((t, v) :: r)

/-- the dictionary: the last threshold of a tensor counts -/
def clipDict {V : Type} (l : List (String × V)) : Dict String V := l.foldl (fun d e => d.set e.1 e.2) []

section
variable {V : Type} [Field V] [LinearOrder V]

/-- `np.clip(x, thresh, np.inf)` (merge_inputs.py:13-18) -/
def clipVal (thr : Option V) (x : V) : V :=
  match thr with
  | none => x
  | some t => max x t

/-- `nominal[{"processes": proc}]` with `clip_hist` (merge_inputs.py:13-18, 152-157) -/
def nominal (thr : Option V) (t : Tensor V) (norm : Nat → Nat → V) (k : Block) (p : Nat) : HIn V :=
  histOf k (slice k fun b => .fin (clipVal thr (norm b p))) (slice k fun b => .fin (clipVal thr (t.sumw2 b p)))

/-- `syst[{...}]` with `clip_hist` (merge_inputs.py:13-18, 152-157): plain storage, whose variances are its values -/
def systHist (thr : Option V) (exp : V → V) (st : SystType) (norm : Nat → Nat → V) (k : Block) (p : Nat) (var : Nat → V) :
    HIn V :=
  let l := slice k fun b => FVal.fin (clipVal thr (varied exp st (var b) (norm b p)))
  histOf k l l

/-- `get_groups_per_syst` (merge_inputs.py:22-33) -/
def groupsOf (T : Tables) (t : Tensor V) (j : Nat) : List String :=
  t.groups.flatMap fun g => (g.2.filter (· == j)).map fun _ => look T.groups g.1

/-- options of one call; whether it is constrained or of interest is asked with the old name (merge_inputs.py:177-201) -/
def optsOf (T : Tables) (t : Tensor V) (j : Nat) (name : String) : SystOpts where
  noi := decide (name ∈ t.noiIdxs.filterMap fun i => t.systs[i]?)
  constrained := !decide (name ∈ t.noConstraint)
  groups := some (groupsOf T t j)

/-- `add_systematic` (merge_inputs.py:201-229): the new name of the process is taken from the table -/
def systOp (T : Tables) (thr : Option V) (exp : V → V) (I : Input V) (norm : Nat → Nat → V)
    (logk : Nat → Nat → Nat → Nat → V) (k : Block) (j : Nat) (m : String) (p : Nat) (proc : String) : Op V :=
  .syst (.pair (systHist thr exp I.systType norm k p fun b => upVar I.tensor logk b p j)
      (systHist thr exp I.systType norm k p fun b => downVar I.tensor logk b p j))
    (look T.systs m) (look T.procs proc) (look T.channels k.name) 1 true .none false false (optsOf T I.tensor j m)

/-- the loop over systematics and processes (merge_inputs.py:188-229); which vary is known before clipping -/
def systOps (T : Tables) (thr : Option V) (exp : V → V) (I : Input V) (norm : Nat → Nat → V)
    (logk : Nat → Nat → Nat → Nat → V) (k : Block) : List (Op V) :=
  I.tensor.systs.zipIdx.flatMap fun m =>
    (I.tensor.procs.zipIdx.filter fun p => active I.tensor logk k p.2 m.2).map fun p =>
      systOp T thr exp I norm logk k m.2 m.1 p.2 p.1

/-- `add_channel` and the `add_process` calls (merge_inputs.py:159-173) -/
def nominalOps (T : Tables) (thr : Option V) (I : Input V) (norm : Nat → Nat → V) (k : Block) : List (Op V) :=
  .channel k.chan.axes (some (look T.channels k.name)) false false ::
    I.tensor.procs.zipIdx.map fun p =>
      .process (nominal thr I.tensor norm k p.2) (newProc T I.tensor.procs p.1) (look T.channels k.name)
        (decide (p.1 ∈ I.tensor.signals)) none

/-- one channel (merge_inputs.py:141-229) -/
def mergeBlock (T : Tables) (thr : Option V) (cfg : Cfg V) (exp : V → V) (I : Input V) (norm : Nat → Nat → V)
    (logk : Nat → Nat → Nat → Nat → V) (k : Block) : M V Unit := do
  M.raiseIf I.tensor.procs.isEmpty .index
  M.forEach (step cfg) (nominalOps T thr I norm k)
  M.raiseIf k.chan.masked .key
  step cfg (.data (dataHist I.tensor k) (look T.channels k.name) none)
  M.forEach (step cfg) (systOps T thr exp I norm logk k)

/-- one input tensor (merge_inputs.py:129-229) -/
def mergeInput (T : Tables) (thr : Option V) (cfg : Cfg V) (exp : V → V) (I : Input V) : M V Unit :=
  match I.tensor.body with
  | .sparse _ => M.raise .notImpl
  | .dense norm logk => do
    M.raiseIf (decide (I.systType = .other) && !I.tensor.channelInfo.isEmpty) .exception
    M.forEach (mergeBlock T thr cfg exp I norm logk) (blocksFrom 0 I.tensor.channelInfo)

/-- the registration calls (merge_inputs.py:125-229); an input is its path and its contents -/
def merge (T : Tables) (clip : Dict String V) (cfg : Cfg V) (exp : V → V) (Is : List (String × Input V)) : M V Unit :=
  M.forEach (fun I => mergeInput T (clip.get? I.1) cfg exp I.2) Is

/-- the merged file (merge_inputs.py:88-236) -/
def mergedFile (T : Tables) (float : String → Option V) (clip : List String) (num : Num V) (close : Axis → Axis → Bool)
    (st : SystType) (exp : V → V) (iter : List String → List String) (Is : List (String × Input V)) : Res (Tensor V) :=
  let cfg : Cfg V := ⟨num, false, st, false, false, close⟩
  (clipPairs float clip).bind fun l =>
    (do merge T (clipDict l) cfg exp Is; write cfg iter : M V (Tensor V)) {} |>.2

end

end Verif.MergeOpts
