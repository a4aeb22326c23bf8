import Verif.Lemmas.SelText
import Verif.Props.Select

/-
C82: the text of an axis selection, and the arguments of the mappings on the command line.
-/

namespace Verif.SelText

open Verif.Mappings Verif.Datacard Verif.Grid Verif.ABCD

variable {V C : Type}

/-- C82.  A text in the documented format is accepted, and what is applied to the predictions is, for every axis, what the text
says of it; axes that the text does not mention are left alone.  The commas inside of parentheses do not separate selections. -/
theorem c82_text (env : Env V C) (text : Line) (toks : List (String × Tok V)) (h : Spec.Text env text toks)
    (hne : text ≠ "None:None".toList) (hn : (toks.map Prod.fst).Nodup) :
    ∃ o s, parse env text = .ok o ∧ toSels o = .ok s ∧ ∀ a : Axis V,
      (∀ t, (a.name, t) ∈ toks → Mappings.Spec.want s a = Mappings.Spec.meaning a.size t) ∧
      (a.name ∉ toks.map Prod.fst → Mappings.Spec.want s a = ⟨0, a.size, true, none⟩) := by
  obtain ⟨o, h1, h2⟩ := parse_text env text toks h hne
  exact ⟨o, _, h1, h2, fun a => c51_parse toks hn a⟩

/-- C82.  A piece of the text without exactly one colon is refused with `ValueError`, whatever follows. -/
theorem c82_colon (env : Env V C) (fs : List (Line × Line × Tok V)) (hf : ∀ f ∈ fs, Spec.Name f.1 ∧ Spec.Says env f.2.1 f.2.2)
    (bad : Line) (rest : List Line) (hb : bad.count ':' ≠ 1)
    (hp : ∀ p ∈ bad :: rest, ∀ c ∈ p, c ≠ ',' ∧ c ≠ '(' ∧ c ≠ ')')
    (hne : Spec.commas ((fs.map fun f => f.1 ++ ':' :: f.2.1) ++ bad :: rest) ≠ "None:None".toList) :
    parse env (Spec.commas ((fs.map fun f => f.1 ++ ':' :: f.2.1) ++ bad :: rest)) = .error .value := by
  rw [parse, if_neg hne, splitTop_commas _ (by simp) (by
    intro p h
    rcases List.mem_append.1 h with h | h
    · obtain ⟨f, hfx, rfl⟩ := List.mem_map.1 h
      exact says_shape (hf f hfx).1 (hf f hfx).2
    · exact ⟨p, hp p h, Or.inl rfl⟩)]
  have hrun : ∀ (o : Out V C) (s : Sels V) (_ : Rel o s) (k : Option String),
      run env o k ((fs.map fun f => f.1 ++ ':' :: f.2.1) ++ bad :: rest) = .error .value := by
    clear hne
    induction fs with
    | nil =>
      intro o s _ k
      have hl := splitOn_length ':' bad
      rw [List.map_nil, List.nil_append, run]
      split
      · rename_i k v he
        rw [he] at hl
        simp at hl
        omega
      · rfl
    | cons f fs ih =>
      intro o s h k
      obtain ⟨hn, hs⟩ := hf f (by simp)
      obtain ⟨o1, h1, h2⟩ := apply_says env o s h (String.ofList f.1) f.2.1 f.2.2 hs
      rw [List.map_cons, List.cons_append, run, splitOn_cons ':' f.1 _ fun hc => (hn _ hc).2.1 rfl,
        splitOn_none ':' _ (says_no_colon hs)]
      dsimp only
      rw [h1]
      exact ih (fun x hx => hf x (List.mem_cons_of_mem _ hx)) o1 _ h2 _
  rw [hrun {} {} ⟨rfl, rfl, rfl⟩ none]

theorem parse_none (env : Env V C) : parse env "None:None".toList = .ok {} := by rw [parse, if_pos rfl]

/-- C82.  `Select <channel> [<processes>] [<selection>]`: both arguments are optional, and each is used for what it is. -/
theorem c82_select (env : Env V C) (P S : Line) (ps : List String) (toks : List (String × Tok V)) (hP : Spec.Procs P ps)
    (hS : Spec.Text env S toks) (hne : S ≠ "None:None".toList) :
    selectArgs env [] = .ok ([], {}) ∧ selectArgs env [P] = .ok (ps, {}) ∧
    ∃ o, toSels o = .ok (parseAxisSelection toks) ∧ selectArgs env [S] = .ok ([], o) ∧ selectArgs env [P, S] = .ok (ps, o) := by
  obtain ⟨o, h1, h2⟩ := parse_text env S toks hS hne
  obtain ⟨p1, p2⟩ := procs_list hP
  have hc := text_colon hS
  refine ⟨?_, ?_, o, h2, ?_, ?_⟩
  · simp [selectArgs, parse]
  · simp [selectArgs, p1, p2, parse]
  · simp [selectArgs, hc, h1]
  · simp [selectArgs, p1, p2, hc, h1]

/-- C82.  `Ratio <ch num> <ch den> [<procs num> <procs den>] [<sel num> <sel den>]`: numerator and denominator get their own
processes and their own selections, in this order. -/
theorem c82_ratio (env : Env V C) (a b P Q S T : Line) (ps qs : List String) (ss ts : List (String × Tok V)) (ha : ':' ∉ a)
    (hb : ':' ∉ b) (hP : Spec.Procs P ps) (hQ : Spec.Procs Q qs) (hS : Spec.Text env S ss) (hT : Spec.Text env T ts)
    (hS' : S ≠ "None:None".toList) (hT' : T ≠ "None:None".toList) :
    ∃ o o', toSels o = .ok (parseAxisSelection ss) ∧ toSels o' = .ok (parseAxisSelection ts) ∧
      ratioArgs env [a, b] = .ok ⟨String.ofList a, String.ofList b, [], [], {}, {}⟩ ∧
      ratioArgs env [a, b, P, Q] = .ok ⟨String.ofList a, String.ofList b, ps, qs, {}, {}⟩ ∧
      ratioArgs env [a, b, S, T] = .ok ⟨String.ofList a, String.ofList b, [], [], o, o'⟩ ∧
      ratioArgs env [a, b, P, Q, S, T] = .ok ⟨String.ofList a, String.ofList b, ps, qs, o, o'⟩ ∧
      ratioArgs env [a, b, S, "None:None".toList] = .ok ⟨String.ofList a, String.ofList b, [], [], o, {}⟩ ∧
      ratioArgs env [a, b, "None:None".toList, T] = .ok ⟨String.ofList a, String.ofList b, [], [], {}, o'⟩ := by
  obtain ⟨o, h1, h2⟩ := parse_text env S ss hS hS'
  obtain ⟨o', h1', h2'⟩ := parse_text env T ts hT hT'
  obtain ⟨p1, p2⟩ := procs_list hP
  obtain ⟨q1, q2⟩ := procs_list hQ
  have hc := text_colon hS
  have hc' := text_colon hT
  have ca : hasColon a = false := by simpa [hasColon] using ha
  have cb : hasColon b = false := by simpa [hasColon] using hb
  have cn : hasColon "None:None".toList = true := by decide +kernel
  refine ⟨o, o', h2, h2', ?_, ?_, ?_, ?_, ?_, ?_⟩
  · simp [ratioArgs, ratioProcs, ratioSels, ca, cb, parse]
  · simp [ratioArgs, ratioProcs, ratioSels, ca, cb, p1, p2, q1, q2, parse]
  · simp [ratioArgs, ratioProcs, ratioSels, ca, cb, hc, hc', h1, h1']
  · simp [ratioArgs, ratioProcs, ratioSels, ca, cb, p1, p2, q1, q2, hc, hc', h1, h1']
  · have pn := parse_none env
    revert cn pn
    generalize "None:None".toList = N
    intro cn pn
    simp [ratioArgs, ratioProcs, ratioSels, ca, cb, cn, hc, h1, pn]
  · have pn := parse_none env
    revert cn pn
    generalize "None:None".toList = N
    intro cn pn
    simp [ratioArgs, ratioProcs, ratioSels, ca, cb, cn, hc', h1', pn]

/-- C82.  A ratio with processes or a selection for the numerator only is refused. -/
theorem c82_ratio_refused (env : Env V C) (a b P S : Line) (ps : List String) (ss : List (String × Tok V)) (ha : ':' ∉ a)
    (hb : ':' ∉ b) (hP : Spec.Procs P ps) (hS : Spec.Text env S ss) (hS' : S ≠ "None:None".toList) :
    ratioArgs env [a, b, P] = .error .index ∧ ratioArgs env [a, b, S] = .error .index ∧
    ratioArgs env [a, b, P, S] = .error .index := by
  obtain ⟨o, h1, h2⟩ := parse_text env S ss hS hS'
  obtain ⟨p1, p2⟩ := procs_list hP
  have hc := text_colon hS
  have ca : hasColon a = false := by simpa [hasColon] using ha
  have cb : hasColon b = false := by simpa [hasColon] using hb
  refine ⟨?_, ?_, ?_⟩
  · simp [ratioArgs, ratioProcs, p2]
  · simp [ratioArgs, ratioProcs, ratioSels, ca, cb, hc, h1]
  · simp [ratioArgs, ratioProcs, ratioSels, ca, cb, p2, hc, h1]

/-- C82, the part that holds.  `AngularCoefficients <channel> [<processes>] [<selection>]`: without processes, or with processes
and a selection, the arguments are used for what they are.  (Missing: processes without a selection, see
`c82_angular_violated`.) -/
theorem c82_angular_partial (env : Env V C) (a P S : Line) (ps : List String) (ss : List (String × Tok V)) (ha : ':' ∉ a)
    (hP : Spec.Procs P ps) (hS : Spec.Text env S ss) (hS' : S ≠ "None:None".toList) :
    ∃ o, toSels o = .ok (parseAxisSelection ss) ∧ angularArgs env [a] = .ok (String.ofList a, [], {}) ∧
      angularArgs env [a, S] = .ok (String.ofList a, [], o) ∧ angularArgs env [a, P, S] = .ok (String.ofList a, ps, o) := by
  obtain ⟨o, h1, h2⟩ := parse_text env S ss hS hS'
  obtain ⟨p1, p2⟩ := procs_list hP
  have hc := text_colon hS
  have ca : hasColon a = false := by simpa [hasColon] using ha
  refine ⟨o, h2, ?_, ?_, ?_⟩
  · simp [angularArgs, ca]
  · simp [angularArgs, ca, hc, h1]
  · simp [angularArgs, ca, p1, p2, hc, h1]

/-- C82 fails for the angular coefficients: processes given without a selection are left out without a word, because the
argument is only looked at when there are more than two (angular_coefficients.py:107). -/
theorem c82_angular_violated (env : Env V C) (a P : Line) (ps : List String) (ha : ':' ∉ a) (hP : Spec.Procs P ps) :
    angularArgs env [a, P] = .ok (String.ofList a, [], {}) := by
  obtain ⟨p1, p2⟩ := procs_list hP
  have ca : hasColon a = false := by simpa [hasColon] using ha
  simp [angularArgs, ca, p2]

/-- C82 fails for further arguments of `Select`: a second selection is not looked at, and neither are processes after the
selection. -/
theorem c82_extra_violated (env : Env V C) (P S T : Line) (hS : ':' ∈ S) :
    selectArgs env [S, T] = selectArgs env [S] ∧ selectArgs env [S, P] = selectArgs env [S] := by
  have hc : hasColon S = true := by simpa [hasColon] using hS
  constructor <;> simp [selectArgs, hc]

/-- C82 fails for a selection by value: `2j` is accepted, as an index and as a bound of a slice, and the histogram library
understands it, but the predictions cannot be indexed with it, so that the first evaluation raises. -/
theorem c82_value_violated (env : Env V C) (z : C) (h : env.cplx "2j".toList = .ok z) :
    (∃ o, parse env "pt:2j".toList = .ok o ∧ toSels o = .error .type) ∧
    (∃ o, parse env "pt:slice(2j,None)".toList = .ok o ∧ toSels o = .error .type) := by
  have h' : env.cplx ['2', 'j'] = .ok z := h
  have e1 : splitTop "pt:2j".toList = [['p', 't', ':', '2', 'j']] := by decide +kernel
  have e2 : splitTop "pt:slice(2j,None)".toList = ["pt:slice(2j,None)".toList] := by decide +kernel
  have e3 : splitOn ':' "pt:slice(2j,None)".toList = [['p', 't'], "slice(2j,None)".toList] := by decide +kernel
  have e4 : splitOn ',' (inner "slice(2j,None)".toList) = [['2', 'j'], "None".toList] := by decide +kernel
  have a1 : apply env ({} : Out V C) (String.ofList ['p', 't']) ['2', 'j'] =
      .ok { sel := [("pt", ⟨some (.cplx z), some (.cplx (env.succ z)), none⟩)], sum := ["pt"] } := by
    rw [apply, if_neg (by decide +kernel), if_neg (by decide +kernel), if_neg (by decide +kernel), if_neg (by decide +kernel), number,
      if_pos (by decide +kernel), h']
    rfl
  have a2 : apply env ({} : Out V C) (String.ofList ['p', 't']) "slice(2j,None)".toList =
      .ok { sel := [("pt", ⟨some (.cplx z), none, none⟩)] } := by
    rw [apply, if_pos (by decide +kernel), e4, sliceArgs, sliceArg, if_neg (by decide +kernel), number, if_pos (by decide +kernel), h']
    rfl
  constructor
  · refine ⟨{ sel := [("pt", ⟨some (.cplx z), some (.cplx (env.succ z)), none⟩)], sum := ["pt"] }, ?_, rfl⟩
    rw [parse, if_neg (by decide +kernel), e1, run]
    change (match (match apply env ({} : Out V C) (String.ofList ['p', 't']) ['2', 'j'] with
      | .error e => .error e
      | .ok o' => run env o' (some (String.ofList ['p', 't'])) [] : Res (Out V C × Option String)) with
      | .error e => Except.error e
      | .ok (o, none) => .ok o
      | .ok (o, some k) => if Dict.has o.sel k then .ok o else .ok { o with sel := Dict.set o.sel k {} }) = _
    rw [a1]
    rfl
  · refine ⟨{ sel := [("pt", ⟨some (.cplx z), none, none⟩)] }, ?_, rfl⟩
    rw [parse, if_neg (by decide +kernel), e2, run, e3]
    dsimp only
    rw [a2]
    rfl

/-! ## examples -/

namespace Ex82

def digit (c : Char) : Int := c.toNat - '0'.toNat

def env : Env Int Int where
  int s := if s ≠ [] ∧ ∀ c ∈ s, c.isDigit then .ok (s.foldl (fun n c => 10 * n + digit c) 0) else .error .value
  cplx s := if s = "2j".toList then .ok 2 else .error .value
  succ z := z + 1
  edges s := if s = "0,10,20".toList then .ok [0, 10, 20] else .error .value

def text : Line := "x:sum,y:slice(1,None),z:13,u:rebin(0,10,20),v:None".toList

def toks : List (String × Tok Int) :=
  [("x", .sum), ("y", .slice (some 1) none none), ("z", .index 13), ("u", .rebin [0, 10, 20]), ("v", .none)]

theorem textSays : Spec.Text env text toks := by
  refine ⟨[("x".toList, "sum".toList, .sum), ("y".toList, "slice(".toList ++ ("1".toList ++ ',' :: "None".toList) ++ ")".toList,
    .slice (some 1) none none), ("z".toList, "13".toList, .index 13), ("u".toList, "rebin(".toList ++ "0,10,20".toList ++ ")".toList,
    .rebin [0, 10, 20]), ("v".toList, "None".toList, .none)], by simp, ?_, by decide +kernel, rfl⟩
  simp only [List.mem_cons, List.not_mem_nil, or_false, forall_eq_or_imp, forall_eq]
  refine ⟨⟨by unfold Spec.Name; decide +kernel, .sum⟩, ⟨by unfold Spec.Name; decide +kernel,
    .range (.int (by unfold Spec.Digits; decide +kernel) (by decide +kernel)) .all⟩, ⟨by unfold Spec.Name; decide +kernel,
    .index (by unfold Spec.Digits; decide +kernel) (by decide +kernel)⟩, ⟨by unfold Spec.Name; decide +kernel,
    .rebin (by unfold Spec.Reals; decide +kernel) (by decide +kernel)⟩, ⟨by unfold Spec.Name; decide +kernel, .all⟩⟩

end Ex82

/-- a case of `c82_text` -/
example : Spec.Text Ex82.env Ex82.text Ex82.toks ∧ Ex82.text ≠ "None:None".toList ∧ (Ex82.toks.map Prod.fst).Nodup :=
  ⟨Ex82.textSays, by decide +kernel, by decide +kernel⟩

/-- a case of `c82_colon` -/
example : parse Ex82.env "x:sum,y,z:1".toList = .error .value := by decide +kernel

/-- cases of `c82_select`, `c82_ratio` and `c82_angular_partial` -/
example : Spec.Procs "sig,bkg".toList ["sig", "bkg"] ∧ Spec.Procs "None".toList [] ∧
    ratioArgs Ex82.env ["a".toList, "b".toList, "sig,bkg".toList, "None".toList, "x:1".toList, "None:None".toList] =
      .ok ⟨"a", "b", ["sig", "bkg"], [], { sel := [("x", ⟨some (.int 1), some (.int 2), none⟩)], sum := ["x"] }, {}⟩ :=
  ⟨Or.inr ⟨by simp, by decide +kernel, by decide +kernel⟩, Or.inl ⟨rfl, rfl⟩, by decide +kernel⟩

/-- a case of `c82_value_violated` -/
example : Ex82.env.cplx "2j".toList = .ok 2 := by decide +kernel

end Verif.SelText
