import Verif.Model.Storage
import Verif.Model.Datacard

/-
Auxiliary bundles of arrays carried through the file (rabbit/auxiliary.py, rabbit/tensorwriter.py:1450-1470, 2242-2245,
rabbit/inputdata.py:202-205).
-/

namespace Verif.Auxiliary

open Verif.Storage

variable {α : Type}

/-- The values of a bundle: numeric arrays, arrays of `str` (kind `U`; kind `O` holding strings), arrays of `bytes` (kind
`S`, given by their text), and lists of strings. -/
inductive Val (α : Type) where
  | arr (dtype : String) (a : Arr α)
  | strArr (shape : List Nat) (l : List String)
  | bytesArr (shape : List Nat) (l : List String)
  | list (l : List String)

/-- one element of `TensorWriter.auxiliary`; `datasets` is a dictionary: its keys are distinct -/
structure Bundle (α : Type) where
  name : String
  datasets : List (String × Val α)

/-- `add_auxiliary` (tensorwriter.py:1468-1470) -/
def addAuxiliary (aux : List (Bundle α)) (b : Bundle α) : Res (List (Bundle α)) :=
  if aux.any fun a => a.name == b.name then .error .runtime else .ok (aux ++ [b])

/-- a sequence of calls of `add_auxiliary`; refused ones leave the list as it was -/
def addAll (bs : List (Bundle α)) : List (Bundle α) :=
  bs.foldl (fun aux b => match addAuxiliary aux b with
    | .ok aux' => aux'
    | .error _ => aux) []

/-- numpy's fixed-width strings lose trailing NUL characters -/
def stripNul (s : String) : String := String.ofList (s.toList.reverse.dropWhile (· == '\x00')).reverse

/-- `np.asarray(val)` (auxiliary.py:60): a list of strings becomes an array of kind `U`, an empty list one of floats -/
def asarray : Val α → Val α
  | .list [] => .arr "float64" ⟨[0], []⟩
  | .list (s :: l) => .strArr [(s :: l).length] ((s :: l).map stripNul)
  | v => v

/-- a stored dataset: numbers or variable-length strings -/
inductive Stored (α : Type) where
  | num (dtype : String) (d : Dset α)
  | text (l : List String)

/-- h5py refuses variable-length strings that contain NUL -/
def textDset (l : List String) : Res (Stored α) :=
  if l.any fun s => s.toList.contains '\x00' then .error .value else .ok (.text l)

/-- `esize` is the size of an element of a type in bytes, `isZero` what `np.count_nonzero` does not count -/
structure Fmt (α : Type) where
  isZero : α → Bool
  zero : α
  esize : String → Nat
  maxChunk : Nat

/-- One dataset (auxiliary.py:59-76). `str` of a `bytes` object is its representation; the text is assumed to need no
escapes. -/
def encode (p : Fmt α) (v : Val α) : Res (Stored α) := match asarray v with
  | .arr t a => .ok (.num t (writeFlatInChunks p.isZero p.zero (p.esize t) p.maxChunk a))
  | .strArr _ l => textDset l
  | .bytesArr _ l => textDset (l.map fun s => "b'" ++ s ++ "'")
  | .list l => textDset l

/-- an object of the file below the group `auxiliary`, found under its path -/
inductive Obj (α : Type) where
  | group
  | dset (d : Stored α)

abbrev Tree (α : Type) := List (List String × Obj α)

/-- The components of a name in HDF5: separated by `/`; empty ones and `.` mean nothing.  Names that begin with `/`, which
h5py takes from the root of the file, are not modelled. -/
def comps (s : String) : List String := (Datacard.splitStr '/' s).filter fun c => c != "" && c != "."

def find (t : Tree α) (path : List String) : Option (Obj α) := t.lookup path

/-- intermediate groups of a path are created if missing; a dataset on the way is an error -/
def mkParents (t : Tree α) : List (List String) → Res (Tree α)
  | [] => .ok t
  | p :: ps => match find t p with
    | none => mkParents (t ++ [(p, .group)]) ps
    | some .group => mkParents t ps
    | some (.dset _) => .error .value

/-- `create_group` and `create_dataset` of h5py (trusted): the name must be new and not empty -/
def create (t : Tree α) (path : List String) (o : Obj α) : Res (Tree α) :=
  if path = [] then .error .value
  else match mkParents t ((List.range (path.length - 1)).map fun i => path.take (i + 1)) with
    | .error e => .error e
    | .ok t => match find t path with
      | some _ => .error .value
      | none => .ok (t ++ [(path, o)])

/-- the inner loop of `write_auxiliary_group` (auxiliary.py:58-76) -/
def writeDatasets (p : Fmt α) (g : List String) : List (String × Val α) → Tree α → Res (Tree α)
  | [], t => .ok t
  | (k, v) :: l, t => match encode p v with
    | .error e => .error e
    | .ok d => match (if comps k = [] then .error .value else create t (g ++ comps k) (.dset d)) with
      | .error e => .error e
      | .ok t => writeDatasets p g l t

/-- the loop over the bundles (auxiliary.py:55-76) -/
def writeBundles (p : Fmt α) : List (Bundle α) → Tree α → Res (Tree α)
  | [], t => .ok t
  | b :: bs, t => match create t (comps b.name) .group with
    | .error e => .error e
    | .ok t => match writeDatasets p (comps b.name) b.datasets t with
      | .error e => .error e
      | .ok t => writeBundles p bs t

/-- `write_auxiliary_group` (auxiliary.py:33-77): no group at all without bundles -/
def writeGroup (p : Fmt α) (aux : List (Bundle α)) : Res (Option (Tree α)) :=
  if aux.isEmpty then .ok none else match writeBundles p aux [] with
    | .error e => .error e
    | .ok t => .ok (some t)

/-- a value as read -/
inductive Out (α : Type) where
  | arr (dtype : String) (a : Arr α)
  | strs (l : List String)
  deriving DecidableEq

/-- `h5py.check_string_dtype(ds.dtype)` and the two decodings (auxiliary.py:103-108); a group has no `dtype` -/
def decode : Obj α → Res (Out α)
  | .group => .error .attr
  | .dset (.text l) => .ok (.strs l)
  | .dset (.num t d) => .ok (.arr t (maketensor d))

/-- `g.items()`: the members of a group (h5py's order is alphabetical, here that of creation; the results are dictionaries
and are compared as such) -/
def members (t : Tree α) (g : List String) : List (String × Obj α) :=
  t.filterMap fun e => if e.1.dropLast = g ∧ e.1 ≠ [] then e.1.getLast?.map fun k => (k, e.2) else none

def decodeAll : List (String × Obj α) → Res (List (String × Out α))
  | [] => .ok []
  | (k, o) :: l => match decode o with
    | .error e => .error e
    | .ok v => match decodeAll l with
      | .error e => .error e
      | .ok r => .ok ((k, v) :: r)

/-- `read_auxiliary_from_h5` (auxiliary.py:80-109); only groups have `items` -/
def readBundles (t : Tree α) : List (String × Obj α) → Res (List (String × List (String × Out α)))
  | [] => .ok []
  | (_, .dset _) :: _ => .error .attr
  | (n, .group) :: l => match decodeAll (members t [n]) with
    | .error e => .error e
    | .ok b => match readBundles t l with
      | .error e => .error e
      | .ok r => .ok ((n, b) :: r)

def readGroup : Option (Tree α) → Res (List (String × List (String × Out α)))
  | none => .ok []
  | some t => readBundles t (members t [])

end Verif.Auxiliary
