import Verif.Model.Datacard

/-
The histograms of a datacard: rabbit/datacard_converter.py:70-107 (directories of the files) and 117-185 (`get_histogram`),
for files read with uproot.

Simplifications: an entry of a file is a one-dimensional histogram (`TH1`), a directory or something else; cycle numbers of keys
are left out; conversion of the histogram is the identity; a name that leads to a directory, or through a histogram, raises.
-/

namespace Verif.Datacard

variable {V H : Type}

/-- an entry of a ROOT file -/
inductive Node (H : Type) where
  | hist (h : H)
  | other
  | dir (es : List (String × Node H))

/-- `isinstance(directory[d], ReadOnlyDirectory)` -/
def Node.isDir : Node H → Bool
  | .dir _ => true
  | _ => false

/-- `get_directories` (datacard_converter.py:88-103) with `k = search_depth - level` -/
def prune (k : Nat) (es : Dict String (Node H)) : Dict String (Node H) :=
  if es.any (·.2.isDir) then
    match k with
    | 0 => es.filter (·.2.isDir)
    | k + 1 => (es.filter (·.2.isDir)).map fun e => match e.2 with
      | .dir s => (e.1, .dir (prune k s))
      | n => (e.1, n)
  else es

/-- datacard_converter.py:85-107: what is kept of a file when the patterns have up to `depth` directories -/
def loaded (depth : Nat) (es : Dict String (Node H)) : Dict String (Node H) :=
  match depth with
  | 0 => es
  | k + 1 => prune k es

/-- `text.replace(old, new)` for a text `old` that is not empty; `skip` characters belong to a match and are left out -/
def replaceGo (old new : List Char) : Nat → List Char → List Char
  | _, [] => []
  | k + 1, _ :: l => replaceGo old new k l
  | 0, c :: l =>
    if old.isPrefixOf (c :: l) then new ++ replaceGo old new (old.length - 1) l
    else c :: replaceGo old new 0 l

/-- `text.replace(old, new)` -/
def replaceAll (old new l : List Char) : List Char := replaceGo old new 0 l

/-- datacard_converter.py:145-161: the name of the histogram -/
def histName (mass : String) (s : Shape) (proc bin : String) (syst : Option String) : List Char :=
  match syst, s.systPattern with
  | some y, some pat =>
    replaceAll "$MASS".toList mass.toList (replaceAll "$SYSTEMATIC".toList y.toList
      (replaceAll "$CHANNEL".toList bin.toList (replaceAll "$PROCESS".toList proc.toList pat.toList)))
  | _, _ =>
    let name := replaceAll "$MASS".toList mass.toList
      (replaceAll "$CHANNEL".toList bin.toList (replaceAll "$PROCESS".toList proc.toList s.pattern.toList))
    match syst with
    | some y => name ++ '_' :: y.toList
    | none => name

/-- datacard_converter.py:168-170: the entry of a name; `{}` for what is not there -/
def descend (n : Node H) : List String → Res (Node H)
  | [] => .ok n
  | p :: ps => match n with
    | .dir es => descend ((Dict.get? es p).getD (.dir [])) ps
    | _ => .error .attr

/-- datacard_converter.py:117-185 `get_histogram`; `roots` are the contents of the files -/
def getHistogram (roots : String → Dict String (Node H)) (mass : String) (depth : Nat) (s : Shape) (proc bin : String)
    (syst : Option String) (demand : Bool) : Res (Option H) :=
  (descend (.dir (loaded depth (roots s.file))) (splitStr '/' (String.ofList (histName mass s proc bin syst)))).bind fun n =>
    match n with
    | .hist h => .ok (some h)
    | .dir (_ :: _) => .error .attr
    | _ => if demand then .error .value else .ok none

/-- the converter with the histograms of its files -/
def fileEnv (roots : String → Dict String (Node H)) (mass : String) (c : Card V) (count : V → H) (flt : String → Res V)
    (zero onePercent : V) : Env V H :=
  ⟨getHistogram roots mass c.maxDepth, count, flt, zero, onePercent⟩

end Verif.Datacard
