import Verif.Model.Logk
import Verif.Model.NaturalSort

/-
The tensor writer (rabbit/tensorwriter.py), registration calls: channels, data, pseudo-data, processes and
systematics.  `Model/Write.lean` models `write`.

Numbers live in an ordered field `V` (floating point is not modelled); histogram contents may also be NaN or
infinite.  Python exceptions are values; state changes made before an exception stay in effect, as in Python.
-/

namespace Verif.Writer

open Verif.Logk

/-- A floating point number as stored in an input histogram. -/
inductive FVal (V : Type) where
  | fin (v : V) | nan | pinf | ninf
  deriving DecidableEq, Repr

namespace FVal
variable {V : Type} [Field V] [LinearOrder V]

/-- the value if finite (`np.isfinite`) -/
def toFin? : FVal V → Option V
  | .fin v => some v
  | _ => none

/-- `np.maximum(x, 0.0)`: NaN propagates -/
def clip0 : FVal V → FVal V
  | .fin v => .fin (max v 0)
  | .ninf => .fin 0
  | .nan => .nan
  | .pinf => .pinf

/-- `x < 0.0`, false for NaN -/
def neg : FVal V → Bool
  | .fin v => decide (v < 0)
  | .ninf => true
  | _ => false

/-- `a + x` for a finite `a` (overflow of the floating point sum is not modelled) -/
def addFin (a : V) : FVal V → FVal V
  | .fin v => .fin (a + v)
  | x => x

end FVal

/-- A histogram axis.  `bins` stands for the edges (compared by `np.allclose`), `cats` for the labels of a string
category axis. -/
structure Axis where
  name : Option String
  bins : Nat
  size : Nat
  under : Bool
  over : Bool
  cats : Option (List String)
  deriving DecidableEq, Repr

/-- underflow offset: 1 if the axis has an underflow bin (`SparseHist._underflow_offset`) -/
def Axis.off (a : Axis) : Nat := if a.under then 1 else 0

/-- `axis.extent` -/
def Axis.extent (a : Axis) : Nat := a.off + a.size + if a.over then 1 else 0

/-- `np.prod` of a list of sizes -/
def prod (l : List Nat) : Nat := l.foldr (· * ·) 1

/-- shape of a list of axes with or without flow bins -/
def dims (flow : Bool) (axes : List Axis) : List Nat := axes.map fun a => if flow then a.extent else a.size

/-- `np.ravel_multi_index` (row major) -/
def ravel : List Nat → List Nat → Nat
  | _ :: ds, i :: is => i * prod ds + ravel ds is
  | _, _ => 0

/-- `np.unravel_index` (row major) -/
def unravel : List Nat → Nat → List Nat
  | [], _ => []
  | _ :: ds, i => (i / prod ds) :: unravel ds (i % prod ds)

/-- An input object.  `SparseHist` (package wums, not part of the repository) is modelled by its axes and its flat
entries in the with-flow layout; `scipy` inputs by their shape and flat entries; indices are unique within one
object (canonical format). -/
inductive HIn (V : Type) where
  | hist (axes : List Axis) (vals vars : Bool → List (FVal V))
  | sparseHist (axes : List Axis) (flat : List (Nat × FVal V))
  | scipy (shape : List Nat) (flat : List (Nat × FVal V))
  | array (shape : List Nat) (vals : List (FVal V))

section
variable {V : Type} [Field V] [LinearOrder V]

/-- `_issparse` (tensorwriter.py:93-96) -/
def HIn.isSparse : HIn V → Bool
  | .sparseHist .. | .scipy .. => true
  | _ => false

/-- Entries of a `SparseHist` in the no-flow layout: entries in flow bins are dropped, the others renumbered. -/
def dropFlow (axes : List Axis) (flat : List (Nat × FVal V)) : List (Nat × FVal V) :=
  flat.filterMap fun e =>
    let m := unravel (dims true axes) e.1
    if (axes.zip m).all fun x => x.1.off ≤ x.2 && x.2 < x.1.off + x.1.size then
      some (ravel (dims false axes) ((axes.zip m).map fun x => x.2 - x.1.off), e.2)
    else none

def sortFlat {α : Type} (l : List (Nat × α)) : List (Nat × α) := pySort (fun a b => a.1 ≤ b.1) l

/-- `_sparse_to_flat_csr` (tensorwriter.py:99-130): size and entries sorted by flat index -/
def HIn.flatCsr (flow : Bool) : HIn V → Nat × List (Nat × FVal V)
  | .sparseHist axes flat => (prod (dims flow axes), sortFlat (if flow then flat else dropFlow axes flat))
  | .scipy shape flat => (prod shape, sortFlat flat)
  | _ => (0, [])

/-- `toarray().flatten()` -/
def densify {α : Type} (zero : α) (n : Nat) (l : List (Nat × α)) : List α :=
  (List.range n).map fun i => ((l.find? fun e => e.1 == i).map (·.2)).getD zero

/-- `get_flat_values` (tensorwriter.py:143-152), `_to_flat_dense` (132-141) -/
def HIn.flatVals (flow : Bool) : HIn V → List (FVal V)
  | .hist _ vals _ => vals flow
  | .array _ vals => vals
  | h => densify (.fin 0) (h.flatCsr flow).1 (h.flatCsr flow).2

/-- `get_flat_variances` (tensorwriter.py:154-168) -/
def HIn.flatVars (flow : Bool) (h : HIn V) : Res (List (FVal V)) :=
  let vs := match h with
    | .hist _ _ vars => vars flow
    | h => h.flatVals flow
  if vs.any FVal.neg then .error .value else .ok vs

/-- `np.all(np.isfinite(l))`, returning the numbers -/
def finites (l : List (FVal V)) : Option (List V) := l.mapM FVal.toFin?

/-- numpy broadcasting of a binary operation on 1-D arrays -/
def zipB {α β γ : Type} (f : α → β → γ) (a : List α) (b : List β) : Res (List γ) :=
  if a.length = b.length then .ok (List.zipWith f a b)
  else match a, b with
    | [x], b => .ok (b.map (f x))
    | a, [y] => .ok (a.map (f · y))
    | _, _ => .error .value

end

/-- `self.channels[name]` (tensorwriter.py:269) -/
structure Chan where
  axes : List Axis
  masked : Bool
  flow : Bool
  deriving DecidableEq, Repr

/-- an entry of `dict_norm`: dense array, or flat CSR with its size -/
inductive Norm (V : Type) where
  | dense (l : List V)
  | csr (size : Nat) (l : List (Nat × V))
  deriving DecidableEq, Repr

/-- an entry of `dict_logk*` together with `dict_logk*_indices` (always set together) -/
inductive LogkE (V : Type) where
  | dense (l : List V)
  | sparse (l : List (Nat × V))
  deriving DecidableEq, Repr

/-- a covariance matrix -/
structure Cov (V : Type) where
  n : Nat
  val : Nat → Nat → V

/-- Constructor arguments (tensorwriter.py:17-29) and the numerical environment. -/
structure Cfg (V : Type) where
  num : Num V
  sparse : Bool
  systType : SystType
  allowNeg : Bool
  addBBB : Bool
  /-- `np.allclose(a, b)` on two axes -/
  close : Axis → Axis → Bool

/-- The fields of `TensorWriter` (tensorwriter.py:24-64) that the modelled functions read or write. Sets and
dictionaries keep insertion order. -/
structure State (V : Type) where
  signals : List String := []
  bkgs : List String := []
  channels : Dict String Chan := []
  nbinschan : Dict String Nat := []
  pseudoNames : List String := []
  groups : Dict String (List String) := []
  standard : List String := []
  noi : List String := []
  noConstraint : List String := []
  covariance : List String := []
  dataObs : Dict String (List (FVal V)) := []
  dataVar : Dict String (List (FVal V)) := []
  dataCov : Option (Cov V) := none
  pseudo : Dict String (Dict String (List (FVal V))) := []
  norm : Dict String (Dict String (Norm V)) := []
  sumw2 : Dict String (Dict String (List V)) := []
  logkavg : Dict String (Dict String (Dict String (LogkE V))) := []
  logkhalf : Dict String (Dict String (Dict String (LogkE V))) := []
  symmetric : Bool := true

/-- Statements of the writer: state after the call (also when it raises) and result. -/
def M (V α : Type) := State V → State V × Res α

namespace M
variable {V α β : Type}

protected def pure (a : α) : M V α := fun s => (s, .ok a)

/-- sequencing: an exception stops, the state reached so far is kept -/
protected def bind (m : M V α) (f : α → M V β) : M V β := fun s =>
  match m s with
  | (s', .ok a) => f a s'
  | (s', .error e) => (s', .error e)

instance : Monad (M V) where
  pure := M.pure
  bind := M.bind

def raise (e : Err) : M V α := fun s => (s, .error e)
/-- `if c: raise ...` -/
def raiseIf (c : Bool) (e : Err) : M V Unit := if c then raise e else M.pure ()
def lift (r : Res α) : M V α := fun s => (s, r)
def read : M V (State V) := fun s => (s, .ok s)
def modify (f : State V → State V) : M V Unit := fun s => (f s, .ok ())

/-- `for x in l: body(x)` -/
def forEach (body : β → M V Unit) : List β → M V Unit
  | [] => M.pure ()
  | x :: l => M.bind (body x) fun _ => forEach body l

end M

section
variable {V : Type} [Field V] [LinearOrder V]

/-- `d[a][b] = v` -/
def upd2 {ν : Type} (d : Dict String (Dict String ν)) (a b : String) (v : ν) : Res (Dict String (Dict String ν)) :=
  match d.get? a with
  | some i => .ok (d.set a (i.set b v))
  | none => .error .key

/-- `d[a][b][c] = v` -/
def upd3 {ν : Type} (d : Dict String (Dict String (Dict String ν))) (a b c : String) (v : ν) :
    Res (Dict String (Dict String (Dict String ν))) :=
  match d.get? a with
  | some i => (upd2 i b c v).map fun i' => d.set a i'
  | none => .error .key

/-- comparison of the channel axes with the histogram axes (tensorwriter.py:294): stops at the first difference -/
def checkAxes (close : Axis → Axis → Bool) : List Axis → List Axis → Res Unit
  | [], _ => .ok ()
  | _ :: _, [] => .error .index
  | a :: as, b :: bs => if close a b then checkAxes close as bs else .error .runtime

/-- `_check_hist_and_channel` (tensorwriter.py:285-313) -/
def checkHist (cfg : Cfg V) (channels : Dict String Chan) (h : HIn V) (chan : String) : Res Chan :=
  match channels.get? chan with
  | none => .error .runtime
  | some c =>
    match h with
    | .hist axes _ _ | .sparseHist axes _ => (checkAxes cfg.close c.axes axes).map fun _ => c
    | .scipy shape _ => if prod shape = prod (dims false c.axes) then .ok c else .error .runtime
    | .array shape _ => if shape = dims false c.axes then .ok c else .error .runtime

/-- `add_data` (tensorwriter.py:170-177) -/
def addData (cfg : Cfg V) (h : HIn V) (chan : String) (vars : Option (HIn V)) : M V Unit := do
  let s ← M.read
  let _ ← M.lift (checkHist cfg s.channels h chan)
  M.raiseIf (s.dataObs.has chan) .runtime
  M.modify fun s => { s with dataObs := s.dataObs.set chan (h.flatVals false) }
  let v ← M.lift ((vars.getD h).flatVars false)
  M.modify fun s => { s with dataVar := s.dataVar.set chan v }

/-- `add_data_covariance` (tensorwriter.py:179-180) -/
def addDataCov (cov : Cov V) : M V Unit := M.modify fun s => { s with dataCov := some cov }

/-- `add_pseudodata` (tensorwriter.py:182-193) -/
def addPseudo (cfg : Cfg V) (h : HIn V) (name : Option String) (chan : String) : M V Unit := do
  let s ← M.read
  let _ ← M.lift (checkHist cfg s.channels h chan)
  let name := name.getD s!"pseudodata_{s.pseudoNames.length}"
  M.modify fun s => { s with pseudoNames := setAdd s.pseudoNames name }
  M.modify fun s => { s with pseudo := if s.pseudo.has chan then s.pseudo else s.pseudo.set chan [] }
  let s ← M.read
  let pc ← M.lift (s.pseudo.get chan)
  M.raiseIf (pc.has name) .runtime
  let p ← M.lift (upd2 s.pseudo chan name (h.flatVals false))
  M.modify fun s => { s with pseudo := p }

/-- the template stored by `add_process` (tensorwriter.py:215-234) -/
def procNorm (cfg : Cfg V) (h : HIn V) (flow : Bool) : Res (Norm V) :=
  if cfg.sparse && h.isSparse then
    let c := h.flatCsr flow
    match c.2.mapM fun e => (e.2.toFin?).map fun v => (e.1, v) with
    | none => .error .runtime
    | some l =>
      if !cfg.allowNeg && l.any fun e => e.2 < 0 then
        .ok (.csr c.1 ((l.map fun e => (e.1, max e.2 0)).filter fun e => e.2 ≠ 0))
      else .ok (.csr c.1 l)
  else
    let vs := h.flatVals flow
    let vs := if cfg.allowNeg then vs else vs.map FVal.clip0
    match finites vs with
    | none => .error .runtime
    | some l => .ok (.dense l)

/-- the variances stored by `add_process` (tensorwriter.py:236-249) -/
def procSumw2 (h : HIn V) (vars : Option (HIn V)) (flow : Bool) : Res (List V) := do
  let vs ← match vars with
    | some v => v.flatVars flow
    | none => if h.isSparse then .ok (h.flatVals flow) else h.flatVars flow
  match finites vs with
  | none => .error .runtime
  | some l => .ok l

/-- `add_process` (tensorwriter.py:195-252) -/
def addProcess (cfg : Cfg V) (h : HIn V) (name chan : String) (signal : Bool) (vars : Option (HIn V)) :
    M V Unit := do
  let s ← M.read
  let c ← M.lift (checkHist cfg s.channels h chan)
  let nc ← M.lift (s.norm.get chan)
  M.raiseIf (nc.has name) .runtime
  M.modify fun s =>
    if signal then { s with signals := setAdd s.signals name } else { s with bkgs := setAdd s.bkgs name }
  let s ← M.read
  let avg ← M.lift (upd2 s.logkavg chan name [])
  let half ← M.lift (upd2 s.logkhalf chan name [])
  M.modify fun s => { s with logkavg := avg, logkhalf := half }
  let norm ← M.lift (procNorm cfg h c.flow)
  let sumw2 ← M.lift (procSumw2 h vars c.flow)
  let s ← M.read
  let n ← M.lift (upd2 s.norm chan name norm)
  let w2 ← M.lift (upd2 s.sumw2 chan name sumw2)
  M.modify fun s => { s with norm := n, sumw2 := w2 }

/-- the new `self.channels` (tensorwriter.py:269-277) -/
def insertChannel (channels : Dict String Chan) (name : String) (c : Chan) : Dict String Chan :=
  if c.masked then channels.set name c
  else Dict.merge (Dict.set (channels.filter fun kv => !kv.2.masked) name c) (channels.filter fun kv => kv.2.masked)

/-- `add_channel` (tensorwriter.py:254-283) -/
def addChannel (axes : List Axis) (name : Option String) (masked flow : Bool) : M V Unit := do
  M.raiseIf (flow && !masked) .notImpl
  let s ← M.read
  let name := name.getD s!"ch{s.channels.length}"
  M.modify fun s => { s with
    nbinschan := s.nbinschan.set name (prod (dims flow axes))
    norm := s.norm.set name []
    sumw2 := s.sumw2.set name []
    channels := insertChannel s.channels name ⟨axes, masked, flow⟩
    logkavg := s.logkavg.set name []
    logkhalf := s.logkhalf.set name [] }

/-! ### Systematics -/

/-- `noi`, `constrained`, `groups` of `book_systematic` -/
structure SystOpts where
  noi : Bool := false
  constrained : Bool := true
  groups : Option (List String) := none

/-- `dict_systgroups[group].add(name)` on a `defaultdict(set)` -/
def addToGroup (groups : Dict String (List String)) (g name : String) : Dict String (List String) :=
  groups.set g (setAdd ((groups.get? g).getD []) name)

/-- `book_systematic` (tensorwriter.py:1604-1633) -/
def bookSystematic (name : String) (toCov : Bool) (o : SystOpts) : M V Unit := do
  M.raiseIf (toCov && o.noi) .value
  M.modify fun s =>
    if toCov then { s with covariance := setAdd s.covariance name }
    else if !o.constrained then { s with noConstraint := setAdd s.noConstraint name }
    else { s with standard := setAdd s.standard name }
  M.modify fun s => if o.noi then { s with noi := setAdd s.noi name } else s
  M.modify fun s =>
    if toCov then s
    else { s with groups := (o.groups.getD [name]).foldl (fun gs g => addToGroup gs g name) s.groups }

/-- argument of `book_logk`: an array, or a tuple of indices and values -/
inductive LogkIn (V : Type) where
  | arr (l : List V)
  | tup (l : List (Nat × V))

/-- `np.transpose(np.nonzero(l))` with the values -/
def nonzeros (l : List V) : List (Nat × V) :=
  (l.zipIdx.filter fun e => e.1 ≠ 0).map fun e => (e.2, e.1)

/-- the value stored by `book_logk` (tensorwriter.py:1584-1602) -/
def bookedLogk (cfg : Cfg V) (norm : Norm V) : LogkIn V → Res (LogkE V)
  | .tup l => .ok (.sparse (l.filter fun e => e.2 ≠ 0))
  | .arr l =>
    match norm with
    -- a dense variation of a sparse template does not occur: `add_systematic` dispatches on the template
    | .csr .. => .error .type
    | .dense n => do
      let m ← zipB maskNorm n l
      .ok (if cfg.sparse then .sparse (nonzeros m) else .dense m)

/-- `book_logk_avg` / `book_logk_halfdiff` (tensorwriter.py:1561-1602); `proc = none` stands for a list, which is not
hashable -/
def bookLogk (cfg : Cfg V) (half : Bool) (logk : LogkIn V) (chan : String) (proc : Option String) (name : String) :
    M V Unit := do
  let s ← M.read
  let p ← M.lift (match proc with
    | some p => .ok p
    | none => .error .type)
  let nc ← M.lift (s.norm.get chan)
  let norm ← M.lift (nc.get p)
  let e ← M.lift (bookedLogk cfg norm logk)
  if half then
    let d ← M.lift (upd3 s.logkhalf chan p name e)
    M.modify fun s => { s with logkhalf := d }
  else
    let d ← M.lift (upd3 s.logkavg chan p name e)
    M.modify fun s => { s with logkavg := d }

/-- element of `get_logk`/`_get_logk_sparse` (`Logk.getLogk` for the valid types) -/
def logkVal (N : Num V) (t : SystType) (kfac syst norm : V) : V :=
  match t with
  | .logNormal => if 0 < norm * syst then kfac * N.log (syst / norm) else N.eps
  | .normal => kfac * (syst - norm)
  | .other => 0

/-- `get_logk` (tensorwriter.py:1504-1531), `_get_logk_sparse` (1533-1559) on arrays -/
def logkVals (N : Num V) (t : SystType) (kfac : V) (syst : List (FVal V)) (norm : List V) : Res (List V) :=
  match finites syst with
  | none => .error .runtime
  | some sv => if t = .other then .error .runtime else zipB (logkVal N t kfac) sv norm

/-- re-attach the indices of a sparse template: `_wrap` (tensorwriter.py:334-338) -/
def wrap (idx : Option (List Nat)) (l : List V) : LogkIn V :=
  match idx with
  | some is => .tup (is.zip l)
  | none => .arr l

/-- `_compute_asym_syst` (tensorwriter.py:315-387); returns the average and the name to book it under -/
def computeAsymSyst (cfg : Cfg V) (up down : List V) (name : String) (proc : Option String) (chan : String)
    (symm : Symm) (toCov : Bool) (idx : Option (List Nat)) (o : SystOpts) : M V (List V × String) := do
  let avg ← M.lift (zipB (fun u d => (computeAsym cfg.num symm u d).avg) up down)
  match symm with
  | .conservative => M.pure (avg, name)
  | .average => M.pure (avg, name)
  | .linear | .quadratic => do
    let diff ← M.lift (zipB (fun u d => ((computeAsym cfg.num symm u d).symDiff).getD 0) up down)
    bookLogk cfg false (wrap idx diff) chan proc (name ++ "SymDiff")
    bookSystematic (name ++ "SymDiff") toCov o
    M.pure (avg, name ++ "SymAvg")
  | .none => do
    M.raiseIf (toCov) .runtime
    M.modify fun s => { s with symmetric := false }
    let hd ← M.lift (zipB (fun u d => ((computeAsym cfg.num symm u d).halfdiff).getD 0) up down)
    bookLogk cfg true (wrap idx hd) chan proc name
    M.pure (avg, name)

/-- one histogram, or an up/down pair -/
inductive SystIn (V : Type) where
  | single (h : HIn V)
  | pair (up down : HIn V)

/-- indices and values of a stored template: for a dense one all bins without indices -/
def Norm.vals : Norm V → List V
  | .dense l => l
  | .csr _ l => l.map (·.2)

def Norm.idx : Norm V → Option (List Nat)
  | .dense _ => none
  | .csr _ l => some (l.map (·.1))

/-- `_sparse_values_at` (tensorwriter.py:1473-1486): `searchsorted` counts the smaller indices; looking up
`sparse_csr.indices[positions]` raises `IndexError` when a position is past the end -/
def sparseValuesAt (csr : List (Nat × FVal V)) (indices : List Nat) : Res (List (FVal V)) :=
  indices.mapM fun i =>
    match csr[csr.countP fun e => e.1 < i]? with
    | some e => .ok (if e.1 = i then e.2 else .fin 0)
    | none => .error .index

/-- the varied template at the bins of the stored one: `get_flat_values` for dense templates,
`_get_syst_at_norm_nnz` (tensorwriter.py:1488-1502) for sparse ones; fancy indexing past the end raises -/
def systVals (h : HIn V) (norm : Norm V) (flow : Bool) : Res (List (FVal V)) :=
  match norm with
  | .dense _ => .ok (h.flatVals flow)
  | .csr _ l =>
    if h.isSparse then sparseValuesAt (h.flatCsr flow).2 (l.map (·.1))
    else (l.map (·.1)).mapM fun i =>
      match (h.flatVals flow)[i]? with
      | some v => .ok v
      | none => .error .index

/-- `norm + h` if `as_difference` -/
def applyDiff (asDiff : Bool) (norm : List V) (syst : List (FVal V)) : Res (List (FVal V)) :=
  if asDiff then zipB FVal.addFin norm syst else .ok syst

/-- `systematic_type = "normal" if add_to_data_covariance else self.systematic_type` -/
def effType (cfg : Cfg V) (toCov : Bool) : SystType := if toCov then .normal else cfg.systType

/-- `add_systematic` without extra axes: the dense path (tensorwriter.py:1192-1262) and
`_add_systematic_sparse` (496-572), which have the same shape -/
def addSystematic (cfg : Cfg V) (x : SystIn V) (name proc chan : String) (kfac : V) (mirror : Bool) (symm : Symm)
    (toCov asDiff : Bool) (o : SystOpts) : M V Unit := do
  let s ← M.read
  let nc ← M.lift (s.norm.get chan)
  let norm ← M.lift (nc.get proc)
  let c ← M.lift (s.channels.get chan)
  let t := effType cfg toCov
  match x with
  | .pair hu hd => do
    let _ ← M.lift (checkHist cfg s.channels hu chan)
    let _ ← M.lift (checkHist cfg s.channels hd chan)
    let su ← M.lift (systVals hu norm c.flow)
    let sd ← M.lift (systVals hd norm c.flow)
    let su ← M.lift (applyDiff asDiff norm.vals su)
    let sd ← M.lift (applyDiff asDiff norm.vals sd)
    let up ← M.lift (logkVals cfg.num t kfac su norm.vals)
    let dn ← M.lift (logkVals cfg.num t kfac sd norm.vals)
    let r ← computeAsymSyst cfg up (dn.map fun v => -v) name (some proc) chan symm toCov norm.idx o
    bookLogk cfg false (wrap norm.idx r.1) chan (some proc) r.2
    bookSystematic r.2 toCov o
  | .single h => do
    M.raiseIf (!mirror) .runtime
    let _ ← M.lift (checkHist cfg s.channels h chan)
    let sv ← M.lift (systVals h norm c.flow)
    let sv ← M.lift (applyDiff asDiff norm.vals sv)
    let lk ← M.lift (logkVals cfg.num t kfac sv norm.vals)
    bookLogk cfg false (wrap norm.idx lk) chan (some proc) name
    bookSystematic name toCov o

/-- one element of the `uncertainty` list: a number or a list -/
inductive Unc (V : Type) where
  | num (u : V)
  | list (us : List V)

/-- body of the loop of `add_norm_systematic` for one (process, uncertainty) pair (tensorwriter.py:417-487) -/
def normOne (cfg : Cfg V) (name chan : String) (toCov : Bool) (symm : Symm) (o : SystOpts) (varName p : String)
    (u : Unc V) : M V String := do
  let s ← M.read
  let nc ← M.lift (s.norm.get chan)
  let norm ← M.lift (nc.get p)
  let t := effType cfg toCov
  match u with
  | .num u => do
    let lk ← M.lift (logkVals cfg.num t 1 (norm.vals.map fun v => .fin (v * u)) norm.vals)
    bookLogk cfg false (wrap norm.idx lk) chan (some p) varName
    M.pure varName
  | .list [u0, u1] => do
    let up ← M.lift (logkVals cfg.num t 1 (norm.vals.map fun v => .fin (v * u0)) norm.vals)
    let dn ← M.lift (logkVals cfg.num t 1 (norm.vals.map fun v => .fin (v * u1)) norm.vals)
    -- the whole list `process` is passed, not `p` (tensorwriter.py:443, 478)
    let r ← computeAsymSyst cfg up (dn.map fun v => -v) name none chan symm toCov norm.idx { o with groups := none }
    bookLogk cfg false (wrap norm.idx r.1) chan (some p) r.2
    M.pure r.2
  | .list _ => M.raise .runtime

/-- the loop over `zip(process, uncertainty)` (tensorwriter.py:416), carrying `var_name_out` -/
def normLoop (cfg : Cfg V) (name chan : String) (toCov : Bool) (symm : Symm) (o : SystOpts) :
    String → List (String × Unc V) → M V String
  | varName, [] => M.pure varName
  | varName, (p, u) :: l => do
    let v ← normOne cfg name chan toCov symm o varName p u
    normLoop cfg name chan toCov symm o v l

/-- `add_norm_systematic` (tensorwriter.py:389-494); scalars have been wrapped into lists of length 1 (400-404) -/
def addNormSystematic (cfg : Cfg V) (name : String) (procs : List String) (chan : String) (unc : List (Unc V))
    (toCov : Bool) (symm : Symm) (o : SystOpts) : M V Unit := do
  M.raiseIf (unc.length != 1 && procs.length != unc.length) .runtime
  let v ← normLoop cfg name chan toCov symm o name (procs.zip unc)
  bookSystematic v toCov o

end

end Verif.Writer
