import Verif.Model.Shapes
import Verif.Model.Write

/-
From a datacard to the file: rabbit/datacard_converter.py:225-348 (the writer that receives the calls of the converter) and
bin/rabbit_text2hdf5.py:52-73 (conversion and writing).

Simplifications: the histograms of the files are what `to_hist` gives, with their axes, contents and variances (with or without flow
bins); an exception of a call ends the program, so nothing is written; names and place of the file are left out.
-/

namespace Verif.CardFile

open Verif.Writer Verif.Datacard

variable {V : Type}

/-- a histogram of a file as `hist.Hist`, rabbit/datacard_converter.py:180-185 -/
structure Hist (V : Type) where
  axes : List Axis
  vals : Bool → List (FVal V)
  vars : Bool → List (FVal V)

/-- the histogram as argument of the writer -/
def Hist.input (h : Hist V) : HIn V := .hist h.axes h.vals h.vars

/-- rabbit/datacard_converter.py:32-34, 249-253: the histogram of a counting experiment; the variances of the storage `Double` are its
contents -/
def counting (v : V) : Hist V :=
  ⟨[⟨some "yield", 1, 1, false, false, none⟩], fun _ => [.fin v], fun _ => [.fin v]⟩

/-- the call of the writer: `add_channel(h_proc.axes, bin_name)` (rabbit/datacard_converter.py:256), `add_data` (257), `add_process` (259-264),
`add_norm_systematic` (280, 286-290: scalars become lists of length 1), `add_systematic` (328-337) with their default arguments; a missing
histogram of the pair has no attribute `shape` (rabbit/tensorwriter.py:307-308) -/
def callOp (symm : Symm) : Call V (Hist V) → Res (Op V)
  | .channel h b => .ok (.channel h.axes (some b) false false)
  | .data h b => .ok (.data h.input b none)
  | .process h p b sig => .ok (.process h.input p b sig none)
  | .norm name ps b (.single v) con => .ok (.normSyst name ps b [.num v] false .average { constrained := con })
  | .norm name ps b (.pair up down) con => .ok (.normSyst name ps b [.list [up, down]] false .average { constrained := con })
  | .syst (some up) (some down) name p b k con =>
    .ok (.syst (.pair up.input down.input) name p b k true symm false false { constrained := con })
  | .syst _ _ _ _ _ _ _ => .error .attr

/-- the calls of the converter in their order -/
def callOps (symm : Symm) : List (Call V (Hist V)) → Res (List (Op V))
  | [] => .ok []
  | x :: xs => (callOp symm x).bind fun o => (callOps symm xs).map fun r => o :: r

section
variable [Field V] [LinearOrder V]

/-- calls up to the first exception -/
def runAll (cfg : Cfg V) : State V → List (Op V) → Res (State V)
  | s, [] => .ok s
  | s, op :: ops => match step cfg op s with
    | (s', .ok _) => runAll cfg s' ops
    | (_, .error e) => .error e

/-- `tensorwriter.TensorWriter(sparse=sparse)`, rabbit/datacard_converter.py:225-227 with the defaults of rabbit/tensorwriter.py:17-23 -/
def writerCfg (num : Logk.Num V) (close : Axis → Axis → Bool) (sparse : Bool) : Cfg V :=
  ⟨num, sparse, .logNormal, false, false, close⟩

/-- bin/rabbit_text2hdf5.py:58-73: conversion of a parsed card and writing of the file -/
def cardFile (cfg : Cfg V) (symm : Symm) (iter : List String → List String) (roots : String → Dict String (Node (Hist V)))
    (mass : String) (flt : String → Res V) (zero onePercent : V) (c : Card V) : Res (Tensor V) :=
  (convert (fileEnv roots mass c counting flt zero onePercent) c).bind fun calls =>
    (callOps symm calls).bind fun ops => (runAll cfg {} ops).bind fun s => (write cfg iter s).2

/-- bin/rabbit_text2hdf5.py:58-73 for the text of a card -/
def textFile (cfg : Cfg V) (symm : Symm) (iter : List String → List String) (roots : String → Dict String (Node (Hist V)))
    (mass : String) (flt : String → Res V) (int : String → Res Int) (files : Files) (zero onePercent : V) (text : List Char) :
    Res (Tensor V) :=
  (parse flt int files text).bind fun c => cardFile cfg symm iter roots mass flt zero onePercent c

end

end Verif.CardFile
