import Verif.Model.Py

/-
The datacard parser, rabbit/datacard_parser.py:8-262, and the calls of the converter, rabbit/datacard_converter.py:187-348.

Simplifications: a line is its list of characters; white space is the ASCII white space of Python (`str.isspace` also knows other
characters); `float` and `int` are parameters (exceptions as values), as are the existence of files and the absolute path of a
file name; `FileNotFoundError` is `Err.exception`; logging is left out.
-/

namespace Verif.Datacard

abbrev Line := List Char

/-- ASCII characters that `str.strip` and `str.split` treat as white space -/
def isSpace (c : Char) : Bool := c == ' ' || (9 ≤ c.toNat && c.toNat ≤ 13) || (28 ≤ c.toNat && c.toNat ≤ 31)

/-- `text.split(c)` for a single character -/
def splitOn (c : Char) : List Char → List Line
  | [] => [[]]
  | x :: l =>
    if x = c then [] :: splitOn c l
    else match splitOn c l with
      | [] => [[x]]
      | a :: r => (x :: a) :: r

/-- `line.strip()` -/
def strip (l : Line) : Line := ((l.dropWhile isSpace).reverse.dropWhile isSpace).reverse

/-- `line.split()` with the word under construction -/
def wordsFrom (acc : Line) : Line → List String
  | [] => if acc = [] then [] else [String.ofList acc]
  | c :: l =>
    if isSpace c then (if acc = [] then wordsFrom [] l else String.ofList acc :: wordsFrom [] l)
    else wordsFrom (acc ++ [c]) l

/-- `line.split()` -/
def words (l : Line) : List String := wordsFrom [] l

/-- `line.startswith(p)` -/
def starts (p : String) (l : Line) : Bool := p.toList.isPrefixOf l

/-- rabbit/datacard_parser.py:41-43: lines without comments and empty lines -/
def readLines (text : List Char) : List Line := ((splitOn '\n' text).map strip).filter fun l => l ≠ [] && !starts "#" l

structure Shape where
  process : String
  channel : String
  file : String
  pattern : String
  systPattern : Option String
deriving DecidableEq, Repr

structure Syst where
  name : String
  type : String
  nEvents : Option Int
  effects : Dict (String × String) String
deriving DecidableEq, Repr

/-- the attributes of the parser, rabbit/datacard_parser.py:13-31 -/
structure Card (V : Type) where
  imax : Option String := none
  jmax : Option String := none
  kmax : Option String := none
  bins : List String := []
  observations : Dict String V := []
  processes : List String := []
  indices : Dict String Int := []
  rates : Dict (String × String) V := []
  systematics : List Syst := []
  shapes : List Shape := []
  binMap : Dict String (Dict String V) := []
  params : List (List String) := []
  rateParams : List (List String) := []
  groups : List (List String) := []
  edits : List (List String) := []
  maxDepth : Nat := 0
deriving DecidableEq, Repr

variable {V : Type}

/-- `parts[1] if parts[1] != "*" else None` -/
def headerEntry (l : Line) : Res (Option String) :=
  match (words l)[1]? with
  | none => .error .index
  | some w => .ok (if w = "*" then none else some w)

/-- rabbit/datacard_parser.py:65-76 -/
def parseHeader : List Line → Card V → Res (Card V)
  | [], c => .ok c
  | l :: ls, c =>
    if starts "imax" l then (headerEntry l).bind fun e => parseHeader ls { c with imax := e }
    else if starts "jmax" l then (headerEntry l).bind fun e => parseHeader ls { c with jmax := e }
    else if starts "kmax" l then (headerEntry l).bind fun e => parseHeader ls { c with kmax := e }
    else parseHeader ls c

/-- rabbit/datacard_parser.py:103-109 -/
def isProcessBin (lines : List Line) (i : Nat) : Bool :=
  decide (0 < i) && decide (i + 2 < lines.length) && starts "process" (lines.getD (i + 1) [])

/-- rabbit/datacard_parser.py:83-91: the first line of the bins -/
def binLine (lines : List Line) : Option Line :=
  ((List.range lines.length).find? fun i => starts "bin" (lines.getD i []) && !isProcessBin lines i).map fun i => lines.getD i []

/-- rabbit/datacard_parser.py:90-91: the first line of the observations -/
def obsLine (lines : List Line) : Option Line := lines.find? fun l => starts "observation" l

/-- rabbit/datacard_parser.py:100-101 -/
def setObs (flt : String → Res V) : List String → List String → Dict String V → Res (Dict String V)
  | b :: bs, o :: os, d => (flt o).bind fun v => setObs flt bs os (Dict.set d b v)
  | _, _, d => .ok d

/-- rabbit/datacard_parser.py:78-101 -/
def parseObservations (flt : String → Res V) (lines : List Line) (c : Card V) : Res (Card V) :=
  match binLine lines, obsLine lines with
  | some b, some o =>
    let bins := (words b).drop 1
    let obs := (words o).drop 1
    if bins.length = obs.length then
      (setObs flt bins obs c.observations).map fun d => { c with bins := bins, observations := d }
    else .ok { c with bins := bins }
  | _, _ => .ok c

/-- rabbit/datacard_parser.py:119-125: the process section begins here -/
def isBlock (lines : List Line) (i : Nat) : Bool :=
  starts "bin" (lines.getD i []) && starts "process" (lines.getD (i + 1) []) && starts "process" (lines.getD (i + 2) []) &&
    starts "rate" (lines.getD (i + 3) [])

/-- `list(dict.fromkeys(l))` -/
def dedup (l : List String) : List String := l.foldl setAdd []

/-- rabbit/datacard_parser.py:143-144 -/
def setIndices (int : String → Res Int) : List String → List String → Dict String Int → Res (Dict String Int)
  | n :: ns, i :: is, d => (int i).bind fun v => setIndices int ns is (Dict.set d n v)
  | _, _, d => .ok d

/-- rabbit/datacard_parser.py:147-158 -/
def setRates (flt : String → Res V) : List String → List String → List String → Card V → Res (Card V)
  | [], _, _, c => .ok c
  | _ :: _, [], _, _ => .error .index
  | _ :: _, _ :: _, [], _ => .error .index
  | b :: bs, p :: ps, r :: rs, c =>
    (flt r).bind fun v =>
      setRates flt bs ps rs { c with
        binMap := Dict.set c.binMap b (Dict.set ((Dict.get? c.binMap b).getD []) p v)
        rates := Dict.set c.rates (b, p) v }

/-- rabbit/datacard_parser.py:111-158 -/
def parseProcesses (flt : String → Res V) (int : String → Res Int) (lines : List Line) (c : Card V) : Res (Card V) :=
  match (List.range (lines.length - 3)).find? fun i => isBlock lines i with
  | none => .ok c
  | some i =>
    let bins := (words (lines.getD i [])).drop 1
    let names := (words (lines.getD (i + 1) [])).drop 1
    let idxs := (words (lines.getD (i + 2) [])).drop 1
    let rates := (words (lines.getD (i + 3) [])).drop 1
    (setIndices int names idxs c.indices).bind fun d =>
      setRates flt bins names rates { c with processes := dedup names, indices := d }

/-- the files: existence, and the absolute path of a file name in a card -/
structure Files where
  path : String → String
  found : String → Bool

/-- rabbit/datacard_parser.py:160-187 -/
def parseShapes (files : Files) : List Line → Card V → Res (Card V)
  | [], c => .ok c
  | l :: ls, c =>
    if starts "shapes" l then
      match words l with
      | _ :: proc :: chan :: file :: pat :: rest =>
        if !files.found (files.path file) then .error .exception
        else parseShapes files ls { c with
          maxDepth := max c.maxDepth (pat.toList.count '/')
          shapes := c.shapes ++ [⟨proc, chan, files.path file, pat, rest.head?⟩] }
      | _ => parseShapes files ls c
    else parseShapes files ls c

/-- second words that end the systematics, rabbit/datacard_parser.py:211-218 -/
def stopWords : List String := ["shapes", "nuisance", "param", "rateParam", "group", "extArg"]

/-- the known types of systematics, rabbit/datacard_parser.py:222 -/
def systTypes : List String := ["lnN", "shape", "gmN", "lnU", "shapeN", "shape?", "shapeU"]

/-- rabbit/datacard_parser.py:240-244 -/
def effectsOf (keys : List (String × String)) (effects : List String) : Dict (String × String) String :=
  if effects.length = keys.length then
    (keys.zip effects).foldl (fun d ke => if ke.2 ≠ "-" then Dict.set d ke.1 ke.2 else d) []
  else []

/-- one line of the systematics, rabbit/datacard_parser.py:222-246: `none` if it is not one -/
def systLine (int : String → Res Int) (keys : List (String × String)) (parts : List String) : Res (Option Syst) :=
  match parts with
  | name :: type :: rest =>
    if type ∈ systTypes then
      match rest with
      | [] => .ok (some ⟨name, type, none, []⟩)
      | n :: rest' =>
        if type = "gmN" then
          (int n).map fun k => some ⟨name, type, some k, if rest' = [] then [] else effectsOf keys rest'⟩
        else .ok (some ⟨name, type, none, effectsOf keys rest⟩)
    else .ok none
  | _ => .ok none

/-- the loop of rabbit/datacard_parser.py:202-246 -/
def systLoop (int : String → Res Int) (keys : List (String × String)) : List Line → List Syst → Res (List Syst)
  | [], acc => .ok acc
  | l :: ls, acc =>
    match words l with
    | _ :: second :: _ =>
      if second ∈ stopWords then .ok acc
      else (systLine int keys (words l)).bind fun s => systLoop int keys ls (acc ++ s.toList)
    | _ => systLoop int keys ls acc

/-- rabbit/datacard_parser.py:189-246 -/
def parseSystematics (int : String → Res Int) (lines : List Line) (c : Card V) : Res (Card V) :=
  match (List.range lines.length).find? fun i => starts "rate" (lines.getD i []) with
  | none => .ok c
  | some i => (systLoop int (Dict.keys c.rates) (lines.drop (i + 1)) c.systematics).map fun s => { c with systematics := s }

/-- rabbit/datacard_parser.py:248-262 -/
def parseDirectives : List Line → Card V → Card V
  | [], c => c
  | l :: ls, c =>
    match words l with
    | first :: second :: rest =>
      parseDirectives ls
        (if second = "param" then { c with params := c.params ++ [first :: rest] }
        else if second = "rateParam" then { c with rateParams := c.rateParams ++ [first :: rest] }
        else if second = "group" then { c with groups := c.groups ++ [first :: rest] }
        else if second = "nuisance edit" then { c with edits := c.edits ++ [first :: rest] }
        else c)
    | _ => parseDirectives ls c

/-- rabbit/datacard_parser.py:33-63 `parse_file`, for an existing file -/
def parse (flt : String → Res V) (int : String → Res Int) (files : Files) (text : List Char) : Res (Card V) :=
  let lines := readLines text
  (parseHeader lines {}).bind fun c =>
  (parseObservations flt lines c).bind fun c =>
  (parseProcesses flt int lines c).bind fun c =>
  (parseShapes files lines c).bind fun c =>
  (parseSystematics int lines c).bind fun c =>
  .ok (parseDirectives lines c)

/-! The converter -/

/-- the value of a normalisation systematic passed to the writer -/
inductive Kappa (V : Type) where
  | single (v : V)
  | pair (up down : V)
deriving DecidableEq, Repr

/-- a call of the tensor writer made by the converter -/
inductive Call (V H : Type) where
  | channel (h : H) (bin : String)
  | data (h : H) (bin : String)
  | process (h : H) (proc bin : String) (signal : Bool)
  | norm (name : String) (procs : List String) (bin : String) (k : Kappa V) (constrained : Bool)
  | syst (up down : Option H) (name proc bin : String) (kfactor : V) (constrained : Bool)
deriving DecidableEq, Repr

/-- what the converter takes from outside: `get_histogram` for an existing shape (117-185; `none` for a missing histogram that is
not demanded), the one-bin histogram of a counting experiment (249-253), `float`, and the number 1.01 -/
structure Env (V H : Type) where
  hist : Shape → String → String → Option String → Bool → Res (Option H)
  count : V → H
  flt : String → Res V
  zero : V
  onePercent : V

variable {H : Type}

/-- rabbit/datacard_converter.py:198-216 -/
def shapeMap (c : Card V) : Dict (String × String) Shape :=
  c.shapes.foldl (fun d s =>
    (if s.process = "*" then "data_obs" :: c.processes else [s.process]).foldl (fun d p =>
      (if s.channel = "*" then c.bins else [s.channel]).foldl (fun d ch => Dict.set d (p, ch) s) d) d) []

/-- rabbit/datacard_converter.py:234-239 -/
def shapeOf (m : Dict (String × String) Shape) (proc bin : String) : Option Shape :=
  (Dict.get? m (proc, bin)).or ((Dict.get? m ("*", bin)).or ((Dict.get? m (proc, "*")).or (Dict.get? m ("*", "*"))))

/-- rabbit/datacard_converter.py:241-253; a histogram that is demanded is there or raises -/
def nominal (env : Env V H) (c : Card V) (proc bin : String) : Res H :=
  match shapeOf (shapeMap c) proc bin with
  | some s => (env.hist s proc bin none true).bind fun h => match h with
    | some h => .ok h
    | none => .error .value
  | none => .ok (env.count ((Dict.get? c.observations bin).getD env.zero))

/-- rabbit/datacard_converter.py:232-264 for the processes of a bin -/
def processCalls (env : Env V H) (c : Card V) (bin : String) : List String → Res (List (Call V H))
  | [] => .ok []
  | p :: ps =>
    (nominal env c p bin).bind fun h =>
      (processCalls env c bin ps).map fun r =>
        (if p = "data_obs" then [.channel h bin, .data h bin]
        else [.process h p bin (decide ((Dict.get? c.indices p).getD 0 ≤ 0))]) ++ r

/-- rabbit/datacard_converter.py:230-264 -/
def nominalCalls (env : Env V H) (c : Card V) : List String → Res (List (Call V H))
  | [] => .ok []
  | b :: bs =>
    (Dict.get c.binMap b).bind fun d =>
      (processCalls env c b ("data_obs" :: Dict.keys d)).bind fun r => (nominalCalls env c bs).map fun r' => r ++ r'

/-- `s.split(ch)` -/
def splitStr (ch : Char) (s : String) : List String := (splitOn ch s.toList).map String.ofList

/-- rabbit/datacard_converter.py:276-277: the range of a rate parameter is read, not used -/
def checkRange (env : Env V H) (r : String) : Res Unit :=
  match splitStr ',' (String.ofList ((r.toList.drop 1).dropLast)) with
  | [lo, hi] => (env.flt lo).bind fun _ => (env.flt hi).map fun _ => ()
  | _ => .error .value

/-- rabbit/datacard_converter.py:268-280: one rate parameter -/
def rateParamCall (env : Env V H) (c : Card V) : List String → Res (List (Call V H))
  | name :: ch :: pr :: val :: rest =>
    (env.flt val).bind fun _ =>
      ((match rest with | r :: _ => checkRange env r | [] => .ok ()) : Res Unit).map fun _ =>
        (if ch = "*" then c.bins else [ch]).map fun b =>
          .norm name (if pr = "*" then c.processes else [pr]) b (.single env.onePercent) false
  | _ => .error .index

/-- rabbit/datacard_converter.py:268-280 -/
def rateParamCalls (env : Env V H) (c : Card V) : List (List String) → Res (List (Call V H))
  | [] => .ok []
  | l :: ls => (rateParamCall env c l).bind fun x => (rateParamCalls env c ls).map fun r => x ++ r

/-- rabbit/datacard_converter.py:282-290 -/
def normCall (env : Env V H) (name proc bin effect : String) : Res (Call V H) :=
  if '/' ∈ effect.toList then
    match splitStr '/' effect with
    | [down, up] => (env.flt up).bind fun u => (env.flt down).map fun d => .norm name [proc] bin (.pair u d) true
    | _ => .error .value
  else (env.flt effect).map fun v => .norm name [proc] bin (.single v) true

/-- `get_histogram` for a shape that may be absent (140-141) -/
def getHist (env : Env V H) (s : Option Shape) (proc bin syst : String) (demand : Bool) : Res (Option H) :=
  match s with
  | none => .ok none
  | some s => env.hist s proc bin (some syst) demand

/-- rabbit/datacard_converter.py:300-337: one effect of a shape systematic -/
def shapeCall (env : Env V H) (c : Card V) (name type proc bin effect : String) : Res (Call V H) :=
  let s := shapeOf (shapeMap c) proc bin
  (getHist env s proc bin (name ++ "Up") (decide (type ≠ "shape?"))).bind fun up =>
    (getHist env s proc bin (name ++ "Down") (decide (type ≠ "shape?"))).bind fun down =>
      match up, down with
      | none, none => normCall env name proc bin effect
      | _, _ => (env.flt effect).map fun k => .syst up down name proc bin k (decide (type ≠ "shapeU"))

/-- the loops of 297-337 and 342-346 over the effects -/
def effectCalls (f : String → String → String → Res (Call V H)) : Dict (String × String) String → Res (List (Call V H))
  | [] => .ok []
  | ((bin, proc), effect) :: d =>
    if effect = "-" ∨ effect = "0" then effectCalls f d
    else (f bin proc effect).bind fun x => (effectCalls f d).map fun r => x :: r

/-- rabbit/datacard_converter.py:293-346 -/
def systCalls (env : Env V H) (c : Card V) : List Syst → Res (List (Call V H))
  | [] => .ok []
  | s :: ss =>
    (if s.type ∈ ["shape", "shapeN", "shape?", "shapeU"] then
      effectCalls (fun bin proc e => shapeCall env c s.name s.type proc bin e) s.effects
    else if s.type ∈ ["lnN", "lnU"] then effectCalls (fun bin proc e => normCall env s.name proc bin e) s.effects
    else .ok []).bind fun r => (systCalls env c ss).map fun r' => r ++ r'

/-- rabbit/datacard_converter.py:187-348 `convert_to_hdf5`: the calls of the writer for a parsed card -/
def convert (env : Env V H) (c : Card V) : Res (List (Call V H)) :=
  (nominalCalls env c c.bins).bind fun a =>
    (rateParamCalls env c c.rateParams).bind fun b =>
      (systCalls env c c.systematics).map fun d => a ++ b ++ d

end Verif.Datacard
