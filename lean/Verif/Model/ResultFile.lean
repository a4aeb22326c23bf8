import Verif.Model.Tensor

/-
The results file (rabbit/workspace.py): its path, the nested dictionaries of results, groups of results, and histograms with flow bins.
Text is a list of characters where it is cut into pieces.  Not modelled: pickling (objects are kept as they are), labels of histograms, the file system
beyond the directory that is made.
-/

namespace Verif.ResultFile

open Verif.Grid

/-! ## path -/

/-- `os.path.join(outdir, outname)` (workspace.py:105) -/
def joinPath (dir name : List Char) : List Char :=
  if name.head? = some '/' then name
  else if dir = [] ∨ dir.getLast? = some '/' then dir ++ name
  else dir ++ '/' :: name

/-- `text.rsplit(c, 1)`, if `c` occurs: what is before and after the last `c` -/
def rsplit (c : Char) (text : List Char) : Option (List Char × List Char) :=
  if c ∈ text then some ((text.reverse.dropWhile (· ≠ c)).tail.reverse, (text.reverse.takeWhile (· ≠ c)).reverse) else none

/-- `os.path.dirname`: what is before the last slash (trailing slashes of it are kept here) -/
def dirname (path : List Char) : List Char := ((rsplit '/' path).map (·.1)).getD []

/-- the path of the file (`get_file_path`, workspace.py:103-118) -/
def filePath (outdir outname : List Char) (suffix : Option (List Char)) : Res (List Char) :=
  let path := joinPath outdir outname
  let path := if '.' ∈ outname then path else path ++ ".hdf5".toList
  match suffix with
  | none => .ok path
  | some q => match rsplit '.' path with
    | none => .error .index
    | some (a, b) => .ok (a ++ '_' :: q ++ '.' :: b)

/-- the directory that is made before the file is opened (workspace.py:106-109) -/
def madeDir (outdir outname : List Char) : List Char := dirname (joinPath outdir outname)

/-! ## results -/

/-- an entry of the results: an object or a dictionary -/
inductive Node (α : Type) where
  | leaf (x : α)
  | dict (d : List (String × Node α))

/-- an object is stored at the end of a path of dictionaries, which are made on the way (`dump_obj`, workspace.py:120-137); an object on the way has no
entries and raises -/
def dumpAt {α : Type} : List String → String → α → Dict String (Node α) → Res (Dict String (Node α))
  | [], key, x, d => .ok (Dict.set d key (.leaf x))
  | k :: ks, key, x, d => match Dict.get? d k with
    | none => (dumpAt ks key x []).map fun s => Dict.set d k (.dict s)
    | some (.dict s) => (dumpAt ks key x s).map fun s => Dict.set d k (.dict s)
    | some (.leaf _) => .error .type

/-- the dictionaries on the way to the results of a mapping and a channel (workspace.py:123-135) -/
def place (mapping channel : Option String) : List String :=
  (match mapping with | none => [] | some m => ["mappings", m]) ++ (match channel with | none => [] | some c => ["channels", c])

/-- where and what to store -/
structure Dump (α : Type) where
  mapping : Option String
  channel : Option String
  key : String
  obj : α

/-- `dump_obj` -/
def dumpObj {α : Type} (d : Dict String (Node α)) (x : Dump α) : Res (Dict String (Node α)) := dumpAt (place x.mapping x.channel) x.key x.obj d

/-- `results[k1][k2]…[key]`: the object at a path -/
def lookup {α : Type} : List String → String → Dict String (Node α) → Option α
  | [], key, d => match Dict.get? d key with
    | some (.leaf x) => some x
    | _ => none
  | k :: ks, key, d => match Dict.get? d k with
    | some (.dict s) => lookup ks key s
    | _ => none

/-- the file while results are written: groups of results, and the results not yet written -/
structure Ws (α : Type) where
  groups : Dict String (Dict String (Node α)) := []
  results : Dict String (Node α) := []

/-- `dump_and_flush` (workspace.py:606-608); a group that exists already is refused by the file -/
def flush {α : Type} (w : Ws α) (group : String) : Res (Ws α) :=
  if Dict.has w.groups group then .error .value else .ok ⟨Dict.set w.groups group w.results, []⟩

/-- the results of one fit: objects are stored, then the group is written (bin/rabbit_fit.py:905-987) -/
def writeGroup {α : Type} (w : Ws α) (g : String × List (Dump α)) : Res (Ws α) :=
  (g.2.foldlM dumpObj w.results).bind fun r => flush { w with results := r } g.1

/-! ## histograms with flow bins -/

/-- an axis of a histogram: bins without and with flow bins, and whether it is one of names (`StrCategory`) -/
structure HAxis where
  size : Nat
  extent : Nat
  category : Bool := false
deriving DecidableEq

/-- `tf.concat([values, ones_slice], axis=i)` (workspace.py:164-169) -/
def concatOnes {V : Type} [One V] (t : Tensor V) (i : Nat) : Tensor V :=
  ⟨t.shape.set i (t.shape.getD i 0 + 1), fun ix => if ix.getD i 0 < t.shape.getD i 0 then t.val ix else 1⟩

/-- contents of a histogram with flow bins (workspace.py:150-170, 177): the values are arranged without the overflow of axes of names, which is filled with
ones; raises unless the numbers fit -/
def fillFlow {V : Type} [Zero V] [One V] (axes : List HAxis) (values : List V) : Res (Tensor V) :=
  (ofFlat (axes.map fun a => if a.category then a.size else a.extent) values).bind fun t =>
    let t := axes.zipIdx.foldl (fun t a => if a.1.category then concatOnes t a.2 else t) t
    if t.shape = axes.map (·.extent) then .ok t else .error .value

/-- the histogram of a channel with flow bins and further axes (workspace.py:205-213, 508-551): `start` and `stop` count the flow bins of all axes of the
channel; a row of `values` has the entries of the further axes -/
def channelHist {V : Type} [Zero V] [One V] (axes extra : List HAxis) (values : List (List V)) (start : Nat) : Res (Tensor V) :=
  fillFlow (axes ++ extra) (((values.take (start + (axes.map (·.extent)).prod)).drop start).flatten)

end Verif.ResultFile
