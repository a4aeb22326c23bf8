import Verif.Model.ImpactPrint
import Verif.Model.SelText

/-
The tables behind the plots of impacts, bin/rabbit_plot_pulls_and_impacts.py:624-857 (`readFitInfoFromFile` for a parameter of
interest, `readHistImpacts` for a bin), 859-938 (selection of the rows by `make_plots`) and 1286-1345 (channels and file names of the plots of impacts on bins).

Simplifications: a table is its list of rows; `re.search`, the square root and the sorting of pandas are parameters; exact arithmetic;
the merge with a reference file, the translation of labels and the drawing are left out.
-/

namespace Verif.ImpactFrame

open Verif.IoTools Verif.ImpactPrint

/-- the arguments of `readFitInfoFromFile` -/
structure Opt (V : Type) where
  group : Bool := false
  asym : Bool := false
  kind : String
  grouping : Option (List String) := none
  filters : Option (List String) := none
  stat : V
  normalize : Bool := false
  scale : V
  diffPulls : Bool := true

/-- the constraint of a parameter in the table -/
inductive Con (V : Type) where
  | sym (constraint newpull : V)
  | asym (down up : V)
deriving DecidableEq, Repr

/-- one row of the table -/
structure Row (V : Type) where
  label : String
  down : V
  up : V
  size : V
  pulls : Option (V × V × Con V)
deriving DecidableEq, Repr

/-- a column before it is put into the table -/
inductive Col (V : Type) where
  | all (v : V)
  | each (l : List V)

variable {V : Type}

/-- `df[name] = column`: a number is repeated, a list must be as long as the table -/
def Col.assign (n : Nat) : Col V → Res (List V)
  | .all v => .ok (List.replicate n v)
  | .each l => if l.length = n then .ok l else .error .value

def mapArr (f : V → V) : Arr V → Arr V
  | .scalar v => .scalar (f v)
  | .vec l => .vec (l.map f)
  | .mat l => .mat (l.map fun r => r.map f)

/-- positions of a label (`np.argwhere(labels == name)`) -/
def positions (labels : List String) (name : String) : List Nat :=
  (List.range labels.length).filter fun i => labels.getD i "" == name

/-- `a[idx].flatten()` -/
def gather (a : Arr V) (idx : List Nat) : Res (List V) :=
  match a with
  | .scalar _ => .error .index
  | .vec l => takeList l idx
  | .mat l => (takeList l idx).map List.flatten

/-- `a /= d`: one divisor, or as many as there are entries (columns) -/
def divide [Div V] (a : Arr V) (d : List V) : Res (Arr V) :=
  match a with
  | .scalar _ => .error .value
  | .vec l =>
    match d with
    | [x] => .ok (.vec (l.map (· / x)))
    | _ => if d.length = l.length then .ok (.vec (List.zipWith (· / ·) l d)) else .error .value
  | .mat l =>
    match d with
    | [x] => .ok (.mat (l.map fun r => r.map (· / x)))
    | _ => if ∀ r ∈ l, r.length = d.length then .ok (.mat (l.map fun r => List.zipWith (· / ·) r d)) else .error .value

/-- `a[idx] = v` -/
def setAt (a : Arr V) (idx : List Nat) (v : V) : Arr V :=
  match a with
  | .scalar x => .scalar x
  | .vec l => .vec (l.zipIdx.map fun p => if p.2 ∈ idx then v else p.1)
  | .mat l => .mat (l.zipIdx.map fun p => if p.2 ∈ idx then p.1.map fun _ => v else p.1)

/-- every row at position `k` -/
def columnAt (k : Nat) : List (List V) → Res (List V)
  | [] => .ok []
  | r :: l => match r[k]? with
    | none => .error .index
    | some v => (columnAt k l).map fun t => v :: t

/-- `a[..., k]` -/
def lastAxis (a : Arr V) (k : Nat) : Res (Col V) :=
  match a with
  | .scalar _ => .error .index
  | .vec l => match l[k]? with
    | none => .error .index
    | some v => .ok (.all v)
  | .mat l => (columnAt k l).map .each

section
variable [Field V] [LinearOrder V]

def rowMax : List (List V) → Res (List V)
  | [] => .ok []
  | r :: l => (maxOf r).bind fun v => (rowMax l).map fun t => v :: t

/-- `np.abs(a).max(axis=-1)` -/
def absMax (a : Arr V) : Res (Col V) :=
  match a with
  | .scalar v => .ok (.all |v|)
  | .vec l => (maxOf (l.map fun x => |x|)).map .all
  | .mat l => (rowMax (l.map fun r => r.map fun x => |x|)).map .each

/-- a vector as a column -/
def asCol : Arr V → Col V
  | .scalar v => .all v
  | .vec l => .each l
  | .mat l => .each l.flatten

/-- the divisor of the normalisation (rabbit_plot_pulls_and_impacts.py:650-671) -/
def divisor (sqrt : V → V) (search : String → String → Bool) (res : Dict String (Hist V)) (poi : String) (o : Opt V) (r : Impacts V) :
    Res (List V) :=
  if o.group then gather r.impacts (positions r.labels "Total")
  else (readImpacts sqrt search res poi true o.kind false true o.asym).bind fun q => gather q.impacts (positions q.labels "Total")

/-- impacts after normalisation and replacement of the statistical uncertainty (rabbit_plot_pulls_and_impacts.py:648-675) -/
def impactsOf (sqrt : V → V) (search : String → String → Bool) (res : Dict String (Hist V)) (poi : String) (o : Opt V) (r : Impacts V) :
    Res (Arr V) :=
  (if o.normalize then (divisor sqrt search res poi o r).bind fun d => divide r.impacts d else .ok r.impacts).map fun a =>
    if 0 < o.stat ∧ "stat" ∈ r.labels then setAt a (positions r.labels "stat") o.stat else a

/-- whether a mask is applied (rabbit_plot_pulls_and_impacts.py:683) -/
def masked (o : Opt V) : Bool := (o.group && o.grouping.isSome) || o.filters.isSome

/-- the mask for one label (rabbit_plot_pulls_and_impacts.py:685-695) -/
def keep (search : String → String → Bool) (o : Opt V) (l : String) : Bool :=
  (match o.group, o.grouping with
    | true, some (g :: gs) => decide (l ∈ g :: gs)
    | _, _ => true) &&
  (match o.filters with
    | some (f :: fs) => (f :: fs).any fun p => search p l
    | _ => true)

/-- the mask on an array (rabbit_plot_pulls_and_impacts.py:697-703, 716-720) -/
def applyMask (o : Opt V) (m : List Bool) (a : Arr V) : Res (Arr V) := if masked o then a.mask m else .ok a

/-- the three columns of the impacts (rabbit_plot_pulls_and_impacts.py:702-714), for a table of `n` rows -/
def impactCols (o : Opt V) (n : Nat) (a : Arr V) : Res (List (V × V × V)) :=
  if o.asym then
    (lastAxis a 1).bind fun d => (d.assign n).bind fun d =>
    (lastAxis a 0).bind fun u => (u.assign n).bind fun u =>
    (absMax a).bind fun s => (s.assign n).map fun s => d.zip (u.zip s)
  else
    ((asCol (mapArr (fun x => -x) a)).assign n).bind fun d => ((asCol a).assign n).bind fun u =>
    ((asCol (mapArr (fun x => |x|) a)).assign n).map fun s => d.zip (u.zip s)

/-- the column of the pulls (rabbit_plot_pulls_and_impacts.py:722-729) -/
def pullCols (o : Opt V) (n : Nat) (p p0 : Arr V) : Res (List (V × V)) :=
  match p, p0 with
  | .vec p, .vec p0 =>
    if p.length = n ∧ p0.length = n then .ok (p0.zip (if o.diffPulls then List.zipWith (· - ·) p p0 else p)) else .error .value
  | _, _ => .error .value

/-- `newpull` (rabbit_plot_pulls_and_impacts.py:740-744) -/
def newpull (sqrt : V → V) (pull c : V) : V := if 0 < 1 - c * c then pull / sqrt (1 - c * c) else 999

/-- the columns of the constraints (rabbit_plot_pulls_and_impacts.py:731-744) -/
def conCols (sqrt : V → V) (o : Opt V) (n : Nat) (pulls : List V) (c : Arr V) : Res (List (Con V)) :=
  if o.asym then
    if o.kind = "nonprofiled" then
      ((asCol (mapArr (fun x => -x) c)).assign n).bind fun d => ((asCol c).assign n).map fun u => List.zipWith .asym d u
    else
      (lastAxis c 1).bind fun d => (d.assign n).bind fun d => (lastAxis c 0).bind fun u => (u.assign n).map fun u =>
        List.zipWith (fun d u => .asym (-d) u) d u
  else ((asCol c).assign n).map fun c => List.zipWith (fun p c => .sym c (newpull sqrt p c)) pulls c

/-- the columns beside the impacts (rabbit_plot_pulls_and_impacts.py:714-744): none for groups -/
def sideCols (sqrt : V → V) (o : Opt V) (n : Nat) (m : List Bool) (pulls : Option (Arr V × Arr V × Arr V × Arr V)) :
    Res (List (Option (V × V × Con V))) :=
  match pulls with
  | none => .ok (List.replicate n none)
  | some (p, p0, c, c0) =>
    (applyMask o m p).bind fun p => (applyMask o m c).bind fun c => (applyMask o m p0).bind fun p0 => (applyMask o m c0).bind fun _ =>
    (pullCols o n p p0).bind fun ps => (conCols sqrt o n (ps.map Prod.snd) c).map fun cs =>
      List.zipWith (fun p c => some (p.1, p.2, c)) ps cs

/-- `readFitInfoFromFile` (rabbit_plot_pulls_and_impacts.py:624-747) for a parameter of interest -/
def readFitInfo (sqrt : V → V) (search : String → String → Bool) (res : Dict String (Hist V)) (poi : String) (o : Opt V) : Res (List (Row V)) :=
  (readImpacts sqrt search res poi o.group o.kind (!o.group) (o.group && o.kind ≠ "nonprofiled") o.asym).bind fun r =>
  (impactsOf sqrt search res poi o r).bind fun a =>
  let m := r.labels.map (keep search o)
  let labels := if masked o then r.labels.filter (keep search o) else r.labels
  (applyMask o m a).bind fun a =>
  let a := if o.scale ≠ 0 ∧ o.normalize = false then mapArr (· * o.scale) a else a
  (impactCols o labels.length a).bind fun cols =>
  (sideCols sqrt o labels.length m r.pulls).map fun side =>
    (List.zipWith (fun l cs => (⟨l, cs.1.1, cs.1.2.1, cs.1.2.2, cs.2⟩ : Row V)) labels (cols.zip side)).filter fun row => row.label ≠ poi

/-- the table of pulls without impacts (`readFitInfoFromFile` with `poi=None`, symmetric) -/
def readPullInfo (sqrt : V → V) (search : String → String → Bool) (res : Dict String (Hist V)) (o : Opt V) :
    Res (List (String × Option (V × V × Con V))) :=
  (readPulls sqrt search res false o.asym .none .none).bind fun (labels, p, c) =>
  (readPulls sqrt search res true false .none .none).bind fun (_, p0, c0) =>
  let m := labels.map (keep search o)
  let labels := if masked o then labels.filter (keep search o) else labels
  (sideCols sqrt o labels.length m (some (p, p0, c, c0))).map fun side => labels.zip side

/-- labels, impacts and pulls of the impacts on one bin, before the mask (rabbit_plot_pulls_and_impacts.py:759-786).  `sort` is the order of
`np.intersect1d`, which returns the common labels with their positions in both lists. -/
def binData (sqrt : V → V) (search : String → String → Bool) (sort : List String → List String) (res : Dict String (Hist V)) (o : Opt V)
    (labels : List String) (impacts : List V) (variance : V) : Res (Impacts V) :=
  if o.group then .ok ⟨none, .vec (impacts ++ [sqrt variance]), labels ++ ["Total"]⟩
  else
    (readPulls sqrt search res false false .none .none).bind fun (pl, p, c) =>
    (readPulls sqrt search res true false .none .none).bind fun (_, p0, c0) =>
    let common := sort (labels.filter fun l => decide (l ∈ pl))
    let at2 := common.map fun l => pl.idxOf l
    (p.take at2).bind fun p => (c.take at2).bind fun c => (p0.take at2).bind fun p0 => (c0.take at2).bind fun c0 =>
    (takeList impacts (common.map fun l => labels.idxOf l)).map fun imp => ⟨some (p, p0, c, c0), .vec imp, common⟩

/-- `readHistImpacts` (rabbit_plot_pulls_and_impacts.py:747-857), symmetric: the argument `asym` is never given -/
def readBinInfo (sqrt : V → V) (search : String → String → Bool) (sort : List String → List String) (res : Dict String (Hist V)) (o : Opt V)
    (labels : List String) (impacts : List V) (variance : V) : Res (List (Row V)) :=
  (binData sqrt search sort res o labels impacts variance).bind fun r =>
  (if o.normalize then divide r.impacts [sqrt variance] else .ok r.impacts).bind fun a =>
  let a := if 0 < o.stat ∧ "stat" ∈ r.labels then setAt a (positions r.labels "stat") o.stat else a
  let m := r.labels.map (keep search o)
  let labels := if masked o then r.labels.filter (keep search o) else r.labels
  (applyMask o m a).bind fun a =>
  let a := if o.scale ≠ 0 ∧ o.normalize = false then mapArr (· * o.scale) a else a
  (impactCols { o with asym := false } labels.length a).bind fun cols =>
  (sideCols sqrt { o with asym := false, diffPulls := true } labels.length m r.pulls).map fun side =>
    List.zipWith (fun l cs => (⟨l, cs.1.1, cs.1.2.1, cs.1.2.2, cs.2⟩ : Row V)) labels (cols.zip side)

/-- the factor of the impacts on a bin (rabbit_plot_pulls_and_impacts.py:1032-1048) -/
def binScale (relative : Bool) (scale value : V) : V := if relative then scale * 1 / value else scale

end

/-- the rows that are drawn (rabbit_plot_pulls_and_impacts.py:873-894, 930-938): sorted by `sort`, and the last `num` of them -/
def shown {α : Type} (sort : Bool → List α → List α) (ascending : Bool) (num : Nat) (rows : List α) : List α :=
  let s := sort ascending rows
  if num ≠ 0 ∧ num < s.length then s.drop (s.length - num) else s

/-- the channels that are plotted (rabbit_plot_pulls_and_impacts.py:1287-1289): `channel not in args.channel` looks for a part of a
string -/
def wanted (request : Option (List Char)) (channel : List Char) : Bool :=
  match request with
  | none => true
  | some r => r = [] || SelText.contains channel r

/-- the name of the file of a plot of impacts on a bin (rabbit_plot_pulls_and_impacts.py:1326-1336); `bin` is `<axis><index>` for every
axis -/
def fileName (impactsName fittype : String) (group noPulls : Bool) (bin : List String) : String :=
  "_".intercalate ((if !group && !noPulls then ["pulls_and"] else []) ++ [impactsName, fittype] ++
    (if group then ["grouped"] else []) ++ ["_".intercalate bin]) ++ ".html"

/-- the plots of one run: channel, bin and file (rabbit_plot_pulls_and_impacts.py:1286-1360) -/
def plots (impactsName fittype : String) (group noPulls : Bool) (request : Option (List Char)) (channels : List (String × List (List String))) :
    List (String × List String × String) :=
  (channels.filter fun c => wanted request c.1.toList).flatMap fun c => c.2.map fun b => (c.1, b, fileName impactsName fittype group noPulls b)

end Verif.ImpactFrame
