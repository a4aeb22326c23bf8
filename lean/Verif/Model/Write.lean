import Verif.Model.Writer

/-
`TensorWriter.write` (rabbit/tensorwriter.py:1635-2247) and the list getters (2249-2291); the bin ranges that
`FitInputData` recomputes on reading (rabbit/inputdata.py:172-189).

Arrays are functions of their indices together with their sizes.  The HDF5 chunking is modelled in
`Model/Storage.lean`, the external terms in `Model/ExternalTerms.lean`; beta variations, auxiliary bundles, file
handling and the metadata other than `channel_info` and `symmetric_tensor` are not modelled.  The iteration order of
Python sets is the parameter `iter`.
-/

namespace Verif.Writer

open Verif.Logk

section generic
variable {α β : Type}

/-- `a[start:start+n] = l` for an array of length `N`: the slice is clipped to the array, one element is broadcast,
any other length mismatch raises -/
def assign (N : Nat) (f : Nat → α) (start n : Nat) (l : List α) : Res (Nat → α) :=
  let lo := min start N
  let hi := min (start + n) N
  if l.length = hi - lo then .ok fun i => if lo ≤ i ∧ i < hi then l.getD (i - lo) (f i) else f i
  else match l with
    | [x] => .ok fun i => if lo ≤ i ∧ i < hi then x else f i
    | _ => .error .value

/-- `for x in l: acc = body(acc, x)` -/
def loop (body : β → α → Res β) : β → List α → Res β
  | acc, [] => .ok acc
  | acc, x :: l => match body acc x with
    | .ok acc' => loop body acc' l
    | .error e => .error e

/-- collect the results of a loop body that may `continue` -/
def collect (body : α → Res (Option β)) : List α → Res (List β)
  | [] => .ok []
  | x :: l => match body x with
    | .error e => .error e
    | .ok r => match collect body l with
      | .error e => .error e
      | .ok rs => .ok (r.toList ++ rs)

/-- `np.argsort(keys)`; with pairwise distinct keys the result does not depend on the sorting algorithm -/
def argsort (keys : List Nat) : List Nat :=
  pySort (fun a b => keys.getD a 0 ≤ keys.getD b 0) (List.range keys.length)

/-- fancy indexing `l[idx]` -/
def gather (zero : α) (l : List α) (idx : List Nat) : List α := idx.map fun i => l.getD i zero

end generic

/-- one iteration of a loop over the channels: name, channel, first bin, number of bins -/
structure Slot where
  name : String
  chan : Chan
  start : Nat
  n : Nat
  deriving DecidableEq, Repr

/-- the running `ibin` of the loops over channels (tensorwriter.py:1657-1681, 1733/1879, 1933/1993) -/
def layoutFrom (nb : Dict String Nat) : Nat → Dict String Chan → Res (List Slot)
  | _, [] => .ok []
  | ibin, (name, c) :: rest =>
    match nb.get? name with
    | none => .error .key
    | some n => match layoutFrom nb (ibin + n) rest with
      | .error e => .error e
      | .ok l => .ok (⟨name, c, ibin, n⟩ :: l)

/-- `FitInputData` (inputdata.py:172-189): start and stop per channel from the stored axes -/
def readerFrom : Nat → Dict String Chan → List (String × Nat × Nat)
  | _, [] => []
  | ibin, (name, c) :: rest =>
    let stop := ibin + prod (dims c.flow c.axes)
    (name, ibin, stop) :: readerFrom stop rest

section
variable {V : Type} [Field V] [LinearOrder V]

/-- `nbins` (tensorwriter.py:1645-1647) -/
def nbinsOf (channels : Dict String Chan) : Dict String Nat → Res Nat
  | [] => .ok 0
  | (c, v) :: rest => match channels.get? c with
    | none => .error .key
    | some ch => match nbinsOf channels rest with
      | .error e => .error e
      | .ok m => .ok ((if ch.masked then 0 else v) + m)

/-- `nbinsfull` (tensorwriter.py:1649) -/
def nbinsFull (nb : Dict String Nat) : Nat := (nb.map (·.2)).sum

/-- the process axis (tensorwriter.py:1637-1643) -/
def procsOf (s : State V) : Res (List String) :=
  if s.signals.any fun p => p ∈ s.bkgs then .error .runtime
  else .ok (sortedNames s.signals ++ sortedNames s.bkgs)

/-- `get_systs` (tensorwriter.py:2258-2259) -/
def getSysts (iter : List String → List String) (s : State V) : List String :=
  naturalSort (iter s.noConstraint) ++ naturalSort (iter s.standard)

/-- `syst_to_idx = {s: i for i, s in enumerate(systs)}`: a repeated name maps to its last position -/
def systToIdx (systs : List String) : Dict String Nat :=
  systs.zipIdx.foldl (fun d e => Dict.set d e.1 e.2) []

/-- `get_constraintweights` (tensorwriter.py:2261-2267) -/
def constraintWeights (iter : List String → List String) (s : State V) : Res (List V) :=
  let systs := getSysts iter s
  loop (fun w syst => match (systToIdx systs).get? syst with
      | some i => .ok (w.set i 0)
      | none => .error .key)
    (List.replicate systs.length (1 : V)) (naturalSort (iter s.noConstraint))

/-- `[syst_to_idx[syst] for syst in members]` -/
def indicesOf (systs : List String) (members : List String) : Res (List Nat) :=
  members.mapM fun m => (systToIdx systs).get m

/-- `get_groups` (tensorwriter.py:2269-2281) -/
def getGroups (iter : List String → List String) (s : State V) : Res (List (String × List Nat)) :=
  (naturalSortDict s.groups).mapM fun g => (indicesOf (getSysts iter s) (iter g.2)).map fun l => (g.1, l)

/-- `get_noiidxs` (tensorwriter.py:2283-2287) -/
def noiIdxs (iter : List String → List String) (s : State V) : Res (List Nat) :=
  indicesOf (getSysts iter s) (naturalSort (iter s.noi))

/-- what one (channel, process) iteration of the loops of `write` looks up -/
structure Cell (V : Type) where
  chan : String
  proc : String
  start : Nat
  n : Nat
  iproc : Nat
  norm : Norm V
  sumw2 : List V
  avg : Dict String (LogkE V)
  half : Dict String (LogkE V)

/-- `for iproc, proc in enumerate(procs): if proc not in self.dict_norm[chan]: continue` with the lookups of the
loop bodies (tensorwriter.py:1660-1669, 1739-1792, 1937-1946) -/
def cellsOfSlot (s : State V) (procs : List String) (sl : Slot) : Res (List (Cell V)) :=
  match s.norm.get? sl.name, s.sumw2.get? sl.name, s.logkavg.get? sl.name, s.logkhalf.get? sl.name with
  | some nc, some wc, some ac, some hc =>
    collect (fun pi : String × Nat =>
      match nc.get? pi.1 with
      | none => .ok none
      | some norm => match wc.get? pi.1, ac.get? pi.1, hc.get? pi.1 with
        | some w2, some avg, some half => .ok (some ⟨sl.name, pi.1, sl.start, sl.n, pi.2, norm, w2, avg, half⟩)
        | _, _, _ => .error .key) procs.zipIdx
  | _, _, _, _ => .error .key

/-- the (channel, process) iterations in order -/
def cellsOf (s : State V) (procs : List String) : List Slot → Res (List (Cell V))
  | [] => .ok []
  | sl :: rest => match cellsOfSlot s procs sl, cellsOf s procs rest with
    | .ok l, .ok ls => .ok (l ++ ls)
    | .error e, _ => .error e
    | _, .error e => .error e

/-- `a[start:start+n, col] = l` for an array with `N` rows -/
def assignCol {α : Type} (N : Nat) (f : Nat → Nat → α) (col start n : Nat) (l : List α) : Res (Nat → Nat → α) :=
  (assign N (fun b => f b col) start n l).map fun g b p => if p = col then g b else f b p

/-- `a[start + idx, col] = vals` -/
def scatterCol (N : Nat) (f : Nat → Nat → V) (col start : Nat) (l : List (Nat × V)) : Res (Nat → Nat → V) :=
  loop (fun f e => if start + e.1 < N then .ok fun b p => if p = col ∧ b = start + e.1 then e.2 else f b p
    else .error .index) f l

/-- `sumw` (tensorwriter.py:1652, 1664-1668) -/
def fillSumw (N : Nat) (cells : List (Cell V)) : Res (Nat → Nat → V) :=
  loop (fun f c => match c.norm with
    | .csr _ l => scatterCol N f c.iproc c.start l
    | .dense l => assignCol N f c.iproc c.start c.n l) (fun _ _ => 0) cells

/-- `sumw2` (tensorwriter.py:1653, 1669) -/
def fillSumw2 (N : Nat) (cells : List (Cell V)) : Res (Nat → Nat → V) :=
  loop (fun f c => assignCol N f c.iproc c.start c.n c.sumw2) (fun _ _ => 0) cells

/-- `data_obs` or `data_var` (tensorwriter.py:1654-1655, 1671-1673) -/
def fillData (nbins : Nat) (d : Dict String (List (FVal V))) (lay : List Slot) : Res (Nat → FVal V) :=
  loop (fun f sl => if sl.chan.masked then .ok f
    else match d.get? sl.name with
      | some l => assign nbins f sl.start sl.n l
      | none => .error .key) (fun _ => .fin 0) lay

/-- `pseudodata` (tensorwriter.py:1656, 1675-1678) -/
def fillPseudo (nbins : Nat) (names : List String) (d : Dict String (Dict String (List (FVal V)))) (lay : List Slot) :
    Res (Nat → Nat → FVal V) :=
  loop (fun f sl => if sl.chan.masked then .ok f
    else loop (fun f (e : String × Nat) => match d.get? sl.name with
      | some dc => match dc.get? e.1 with
        | some l => assignCol nbins f e.2 sl.start sl.n l
        | none => .error .key
      | none => .error .key) f names.zipIdx) (fun _ _ => .fin 0) lay

/-! ### Dense tensor -/

/-- one assignment to the dense `logk` array: cell, column, `k` (0 average, 1 half difference), values -/
structure LogkTask (V : Type) where
  cell : Cell V
  isyst : Nat
  k : Nat
  vals : LogkE V

/-- the assignments of one cell in order (tensorwriter.py:1947-1962, 1794-1870) -/
def tasksOfCell (systs : List String) (c : Cell V) : List (LogkTask V) :=
  systs.zipIdx.flatMap fun e => match c.avg.get? e.1 with
    | none => []
    | some v => ⟨c, e.2, 0, v⟩ :: match c.half.get? e.1 with
      | none => []
      | some hv => [⟨c, e.2, 1, hv⟩]

/-- dense `norm` (tensorwriter.py:1924, 1943) -/
def fillNormDense (N : Nat) (cells : List (Cell V)) : Res (Nat → Nat → V) :=
  loop (fun f c => match c.norm with
    | .dense l => assignCol N f c.iproc c.start c.n l
    | .csr .. => .error .type) (fun _ _ => 0) cells

/-- dense `logk` (tensorwriter.py:1925-1928, 1947-1962); a symmetric tensor stores the averages only -/
def fillLogkDense (N : Nat) (symmetric : Bool) (tasks : List (LogkTask V)) : Res (Nat → Nat → Nat → Nat → V) :=
  loop (fun f t => if symmetric && t.k == 1 then .ok f
    else match t.vals with
      | .dense l => (assign N (fun b => f b t.cell.iproc t.k t.isyst) t.cell.start t.cell.n l).map
          fun g b p k i => if p = t.cell.iproc ∧ k = t.k ∧ i = t.isyst then g b else f b p k i
      | .sparse _ => .error .value) (fun _ _ _ _ => 0) tasks

/-! ### Sparse tensor -/

/-- assembly buffers: norm entries (bin, process, value), logk entries (norm position, column, value) -/
structure Acc (V : Type) where
  norm : List (Nat × Nat × V) := []
  logk : List (Nat × Nat × V) := []

/-- local bins and values of a template (tensorwriter.py:1744-1746, 1768-1769) -/
def Norm.entries : Norm V → List (Nat × V)
  | .csr _ l => l
  | .dense l => nonzeros l

/-- position of local bin `i` in the norm buffer: `searchsorted` for sparse templates (tensorwriter.py:1808-1814), the
cumulative count for dense ones (1786-1788, 1816) -/
def Norm.pos (old : Nat) (i : Nat) : Norm V → Res Nat
  | .csr _ l => .ok (l.countP (fun e => e.1 < i) + old)
  | .dense l => if i < l.length then .ok ((l.take (i + 1)).countP (fun v => v ≠ 0) - 1 + old) else .error .index

/-- stored indices and values of a variation; in dense mode there are no indices -/
def LogkE.entries : LogkE V → Res (List (Nat × V))
  | .sparse l => .ok l
  | .dense _ => .error .key

/-- one (channel, process, systematic) iteration (tensorwriter.py:1794-1870) -/
def addTask (nsyst old : Nat) (acc : List (Nat × Nat × V)) (t : LogkTask V) : Res (List (Nat × Nat × V)) := do
  let es ← t.vals.entries
  let out ← es.mapM fun e => (t.cell.norm.pos old e.1).map fun p => (p, t.k * nsyst + t.isyst, e.2)
  .ok (acc ++ out)

/-- one (channel, process) iteration (tensorwriter.py:1739-1874) -/
def addCell (systs : List String) (acc : Acc V) (c : Cell V) : Res (Acc V) :=
  let old := acc.norm.length
  match loop (addTask systs.length old) acc.logk (tasksOfCell systs c) with
  | .error e => .error e
  | .ok lk => .ok ⟨acc.norm ++ c.norm.entries.map (fun e => (c.start + e.1, c.iproc, e.2)), lk⟩

/-- number of stored values of a variation (tensorwriter.py:1714-1718) -/
def LogkE.count : LogkE V → Nat
  | .sparse l => l.length
  | .dense l => l.length

/-- `logk_sparse_size_total` (tensorwriter.py:1698-1718): all booked variations of the cells -/
def precount (cells : List (Cell V)) : Nat :=
  (cells.map fun c => (c.avg.map fun e => e.2.count).sum + (c.half.map fun e => e.2.count).sum).sum

/-- The sparse tensors as written. -/
structure SparseOut (V : Type) where
  norm : List (Nat × Nat × V)
  logk : List (Nat × Nat × V)

/-- sorting into canonical order (tensorwriter.py:1881-1919); `ravel_multi_index` raises for out-of-range indices, the
size assertions (1882-1883) stand for the overflow of the buffers as well -/
def canonicalise (N nproc nsyst : Nat) (symmetric : Bool) (total : Nat) (acc : Acc V) : Res (SparseOut V) :=
  if acc.logk.length ≠ total then .error .assertion
  else if acc.norm.any fun e => N ≤ e.1 || nproc ≤ e.2.1 then .error .value
  else
    let sortIdx := argsort (acc.norm.map fun e => e.1 * nproc + e.2.1)
    let norm := gather (0, 0, 0) acc.norm sortIdx
    let perm := argsort sortIdx
    let logk := acc.logk.map fun e => (perm.getD e.1 0, e.2)
    let ncol := if symmetric then nsyst else 2 * nsyst
    if logk.any fun e => norm.length ≤ e.1 || ncol ≤ e.2.1 then .error .value
    else .ok ⟨norm, gather (0, 0, 0) logk (argsort (logk.map fun e => e.1 * ncol + e.2.1))⟩

def fillSparse (N nproc : Nat) (systs : List String) (symmetric : Bool) (cells : List (Cell V)) : Res (SparseOut V) :=
  match loop (addCell systs) {} cells with
  | .error e => .error e
  | .ok acc => canonicalise N nproc systs.length symmetric (precount cells) acc

/-! ### Covariance -/

/-- values of `dict_logkavg_proc[syst]` (in sparse mode only the nonzero values are stored) -/
def LogkE.values : LogkE V → List V
  | .dense l => l
  | .sparse l => l.map (·.2)

/-- `systv` (tensorwriter.py:2089-2107) -/
def systVector (N : Nat) (cells : List (Cell V)) (syst : String) : Res (Nat → V) :=
  loop (fun f c => match c.avg.get? syst with
    | none => .ok f
    | some v => (assign N (fun _ => (0 : V)) c.start c.n v.values).map
        fun g b => if c.start ≤ b ∧ b < c.start + c.n then f b + g b else f b) (fun _ => 0) cells

/-- `self.data_covariance[...] += systv @ systv.T` (tensorwriter.py:2109) -/
def addOuter (N : Nat) (cov : Cov V) (v : Nat → V) : Res (Cov V) :=
  if cov.n = N then .ok { cov with val := fun i j => cov.val i j + v i * v j }
  else if N = 1 then .ok { cov with val := fun i j => cov.val i j + v 0 * v 0 }
  else .error .value

/-- `np.add(self.data_covariance, np.diag(sumw2))` (tensorwriter.py:2111-2115): `sumw2` has two dimensions, so
`np.diag` takes its diagonal, which is then broadcast over the rows -/
def addDiag (N nproc : Nat) (cov : Cov V) (sumw2 : Nat → Nat → V) : Res (Cov V) :=
  let k := min N nproc
  if k = cov.n then .ok { cov with val := fun i j => cov.val i j + sumw2 j j }
  else if k = 1 then .ok { cov with val := fun i j => cov.val i j + sumw2 0 0 }
  else .error .value

/-- `np.diag(data_var)` (tensorwriter.py:1995-2000); non-finite variances are not modelled here -/
def diagVar (nbins : Nat) (var : Nat → FVal V) : Res (Cov V) :=
  if (List.range nbins).all fun i => ((var i).toFin?).isSome then
    .ok ⟨nbins, fun i j => if i = j then ((var i).toFin?).getD 0 else 0⟩
  else .error .exception

/-! ### write -/

inductive Body (V : Type) where
  | dense (norm : Nat → Nat → V) (logk : Nat → Nat → Nat → Nat → V)
  | sparse (out : SparseOut V)

/-- The written file. -/
structure Tensor (V : Type) where
  procs : List String
  signals : List String
  systs : List String
  noConstraint : List String
  groups : List (String × List Nat)
  noiIdxs : List Nat
  pseudoNames : List String
  weights : List V
  channelInfo : Dict String Chan
  symmetric : Bool
  nbins : Nat
  nbinsfull : Nat
  dataObs : Nat → FVal V
  dataVar : Nat → FVal V
  pseudo : Nat → Nat → FVal V
  sumw : Nat → Nat → V
  sumw2 : Nat → Nat → V
  body : Body V
  /-- `full_cov`, whose inverse is written -/
  fullCov : Option (Cov V)

/-- `for syst in self.systscovariance: ...` with its in-place update of `self.data_covariance` -/
def covLoop (N : Nat) (cells : List (Cell V)) : Cov V → List String → M V (Cov V)
  | cov, [] => M.pure cov
  | cov, syst :: l => do
    let v ← M.lift (systVector N cells syst)
    let cov ← M.lift (addOuter N cov v)
    M.modify fun s => { s with dataCov := some cov }
    covLoop N cells cov l

/-- the dense or sparse tensors (tensorwriter.py:1689-1993) -/
def fillBody (sparse : Bool) (N nproc : Nat) (systs : List String) (symmetric : Bool) (cells : List (Cell V)) :
    Res (Body V) :=
  if sparse then (fillSparse N nproc systs symmetric cells).map Body.sparse
  else match fillNormDense N cells, fillLogkDense N symmetric (cells.flatMap (tasksOfCell systs)) with
    | .ok norm, .ok logk => .ok (.dense norm logk)
    | .error e, _ => .error e
    | _, .error e => .error e

/-- `self.data_covariance` before the nuisances are added (tensorwriter.py:1995-2000) -/
def initCov (addBBB : Bool) (s : State V) (nbins : Nat) (var : Nat → FVal V) : Res (Option (Cov V)) :=
  if s.dataCov.isNone && (!s.covariance.isEmpty || addBBB) then (diagVar nbins var).map some else .ok s.dataCov

/-- the covariance that is inverted and written (tensorwriter.py:2087-2116) -/
def writeCov (addBBB : Bool) (N nproc : Nat) (sumw2 : Nat → Nat → V) (cells : List (Cell V)) (names : List String) :
    Option (Cov V) → M V (Option (Cov V))
  | none => M.pure none
  | some cov => do
    let cov ← covLoop N cells cov names
    let full ← M.lift (if addBBB then addDiag N nproc cov sumw2 else .ok cov)
    M.pure (some full)

/-- `write` (tensorwriter.py:1635-2247) -/
def write (cfg : Cfg V) (iter : List String → List String) : M V (Tensor V) := do
  let s ← M.read
  let procs ← M.lift (procsOf s)
  let nbins ← M.lift (nbinsOf s.channels s.nbinschan)
  let N := nbinsFull s.nbinschan
  let lay ← M.lift (layoutFrom s.nbinschan 0 s.channels)
  let cells ← M.lift (cellsOf s procs lay)
  let sumw ← M.lift (fillSumw N cells)
  let sumw2 ← M.lift (fillSumw2 N cells)
  let obs ← M.lift (fillData nbins s.dataObs lay)
  let var ← M.lift (fillData nbins s.dataVar lay)
  let pseudo ← M.lift (fillPseudo nbins (iter s.pseudoNames) s.pseudo lay)
  let systs := getSysts iter s
  let body ← M.lift (fillBody cfg.sparse N procs.length systs s.symmetric cells)
  let cov ← M.lift (initCov cfg.addBBB s nbins var)
  M.modify fun s => { s with dataCov := cov }
  let noi ← M.lift (noiIdxs iter s)
  let groups ← M.lift (getGroups iter s)
  let weights ← M.lift (constraintWeights iter s)
  let full ← writeCov cfg.addBBB N procs.length sumw2 cells (iter s.covariance) cov
  M.pure ⟨procs, sortedNames s.signals, systs, naturalSort (iter s.noConstraint), groups, noi, iter s.pseudoNames,
    weights, s.channels, s.symmetric, nbins, N, obs, var, pseudo, sumw, sumw2, body, full⟩

end

/-! ### Histories of calls -/

/-- The calls on a writer. -/
inductive Op (V : Type) where
  | channel (axes : List Axis) (name : Option String) (masked flow : Bool)
  | data (h : HIn V) (chan : String) (vars : Option (HIn V))
  | dataCov (cov : Cov V)
  | pseudo (h : HIn V) (name : Option String) (chan : String)
  | process (h : HIn V) (name chan : String) (signal : Bool) (vars : Option (HIn V))
  | syst (x : SystIn V) (name proc chan : String) (kfac : V) (mirror : Bool) (symm : Symm) (toCov asDiff : Bool)
      (o : SystOpts)
  | normSyst (name : String) (procs : List String) (chan : String) (unc : List (Unc V)) (toCov : Bool) (symm : Symm)
      (o : SystOpts)
  | write (iter : List String → List String)

section
variable {V : Type} [Field V] [LinearOrder V]

/-- one call -/
def step (cfg : Cfg V) : Op V → M V Unit
  | .channel axes name masked flow => addChannel axes name masked flow
  | .data h chan vars => addData cfg h chan vars
  | .dataCov cov => addDataCov cov
  | .pseudo h name chan => addPseudo cfg h name chan
  | .process h name chan signal vars => addProcess cfg h name chan signal vars
  | .syst x name proc chan kfac mirror symm toCov asDiff o =>
    addSystematic cfg x name proc chan kfac mirror symm toCov asDiff o
  | .normSyst name procs chan unc toCov symm o => addNormSystematic cfg name procs chan unc toCov symm o
  | .write iter => do
    let _ ← write cfg iter
    M.pure ()

/-- a history of calls on a writer; the caller may catch exceptions and go on -/
def runOps (cfg : Cfg V) (s : State V) : List (Op V) → State V
  | [] => s
  | op :: ops => runOps cfg (step cfg op s).1 ops

/-- a freshly constructed writer after a history of calls -/
def run (cfg : Cfg V) (ops : List (Op V)) : State V := runOps cfg {} ops

end

end Verif.Writer
