import Verif.Model.HistPlot
import Verif.Props.RunOutput
import Verif.Lemmas.Py
import Mathlib.Tactic.Ring
import Mathlib.Tactic.FieldSimp
import Mathlib.Algebra.Field.Rat

/-!
C91: plots of predictions and data.
-/

namespace Verif.HistPlot

open Verif.IoTools (Hist)

variable {V : Type}

/-! ### Specification -/

namespace Spec

/-- what a file holds about the agreement with data: of the fit (whether statistical parameters are profiled, likelihood, degrees of freedom) and of a
mapping (linear before and after the fit, saturated) -/
structure Stored (V : Type) where
  fit : Option (Bool × V × Int) := none
  pre : Option (V × Int) := none
  lin : Option (V × Int) := none
  sat : Option (V × Int) := none

/-- the statistic to be shown: before the fit the linear one; after it the linear one if asked for, the one of the fit for the plots of all bins, else the
saturated one of the mapping, else the linear one unless the saturated one is asked for -/
def chi2 [Field V] (s : Stored V) (base prefit : Bool) (kind : Kind) : Res (Option (V × Int) × Bool) :=
  match prefit, kind with
  | true, .saturated => .error .runtime
  | true, _ => .ok (s.pre, false)
  | false, .linear => .ok (s.lin, false)
  | false, k => match base, s.fit with
    | true, some (true, nll, ndf) => .ok (some (2 * nll, ndf), true)
    | _, _ => match s.sat, k with
      | some x, _ => .ok (some x, true)
      | none, .automatic => .ok (s.lin, false)
      | none, _ => .error .value

/-- a bin of the whole histogram from the bins of the selection axes (`true`) and of the other axes -/
def weave : List Bool → List Nat → List Nat → List Nat
  | true :: m, b :: bs, os => b :: weave m bs os
  | false :: m, bs, o :: os => o :: weave m bs os
  | _, _, _ => []

end Spec

/-! ### Test statistics -/

/-- results of the fit -/
def topStats (s : Spec.Stored V) : Stats V := match s.fit with
  | none => {}
  | some (p, n, d) => addFit p n d {}

def addOpt (prefit saturated : Bool) (x : Option (V × Int)) (r : Stats V) : Stats V := match x with
  | none => r
  | some (c, n) => addChi2 prefit saturated c n r

/-- results of the mapping -/
def instStats (s : Spec.Stored V) : Stats V := addOpt false true s.sat (addOpt false false s.lin (addOpt true false s.pre {}))

/-- value and degrees of freedom beside each other -/
def pair (x : Option (V × Int) × Bool) : Option V × Option Int × Bool := (x.1.map (·.1), x.1.map (·.2), x.2)

theorem instStats_eq (s : Spec.Stored V) :
    (instStats s).chi2.get? "chi2_prefit" = s.pre.map (·.1) ∧ (instStats s).ndf.get? "ndf_prefit" = s.pre.map (·.2) ∧
    (instStats s).chi2.get? "chi2" = s.lin.map (·.1) ∧ (instStats s).ndf.get? "ndf" = s.lin.map (·.2) ∧
    (instStats s).chi2.get? "chi2_saturated" = s.sat.map (·.1) ∧ (instStats s).ndf.get? "ndf_saturated" = s.sat.map (·.2) ∧
    (instStats s).profile = none := by
  obtain ⟨fit, pre, lin, sat⟩ := s
  rcases pre with _ | ⟨a, b⟩ <;> rcases lin with _ | ⟨c, d⟩ <;> rcases sat with _ | ⟨e, f⟩ <;>
    simp [instStats, addOpt, addChi2, Dict.set, Dict.get?]

/-- C91.  The statistic printed on a plot is the one asked for, with its degrees of freedom; for the plots of all bins provided that statistical parameters
are profiled in the fit (or the linear one is asked for). -/
theorem c91_chi2_partial [Field V] (s : Spec.Stored V) (key : String) (prefit : Bool) (kind : Kind)
    (hb : key = "BaseMapping" → prefit = false → kind ≠ .linear → ∃ n d, s.fit = some (true, n, d)) :
    chi2Of (topStats s) (instStats s) key false prefit kind = (Spec.chi2 s (key == "BaseMapping") prefit kind).map pair := by
  obtain ⟨p1, p2, l1, l2, s1, s2, hp⟩ := instStats_eq s
  unfold chi2Of
  by_cases hc : key = "BaseMapping" ∧ prefit = false ∧ kind ≠ .linear
  · obtain ⟨hk, rfl, hl⟩ := hc
    obtain ⟨n, d, hf⟩ := hb hk rfl hl
    have hk' : (key == "BaseMapping") = true := by simpa using hk
    rw [hk', if_pos (by simp [hl])]
    unfold topStats
    rw [hf]
    cases kind with
    | linear => exact absurd rfl hl
    | automatic => simp [getChi2, addFit, Spec.chi2, hf, pair, Except.map]
    | saturated => simp [getChi2, addFit, Spec.chi2, hf, pair, Except.map]
  · have hif : (if (!prefit && (key == "BaseMapping" && decide (kind ≠ .linear))) = true then topStats s else instStats s) = instStats s := by
      apply if_neg
      simp only [Bool.and_eq_true, Bool.not_eq_true', beq_iff_eq, decide_eq_true_eq, not_and]
      exact fun h1 h2 h3 => hc ⟨h2, h1, h3⟩
    rw [hif]
    cases prefit with
    | true =>
      cases kind <;> simp [getChi2, Spec.chi2, p1, p2, pair, Except.map]
    | false =>
      have hsat : (instStats s).chi2.has "chi2_saturated" = s.sat.isSome := by unfold Dict.has; rw [s1]; cases s.sat <;> rfl
      cases kind with
      | linear => simp [getChi2, Spec.chi2, l1, l2, pair, Except.map]
      | automatic =>
        have hbase : (key == "BaseMapping") = false := by
          rw [beq_eq_false_iff_ne]
          exact fun h => hc ⟨h, rfl, by decide⟩
        rw [hbase]
        simp only [getChi2, hp, hsat, s1, s2, l1, l2, Spec.chi2]
        cases s.sat <;> simp [pair, Except.map]
      | saturated =>
        have hbase : (key == "BaseMapping") = false := by
          rw [beq_eq_false_iff_ne]
          exact fun h => hc ⟨h, rfl, by decide⟩
        rw [hbase]
        simp only [getChi2, hp, hsat, s1, s2, l1, l2, Spec.chi2]
        cases s.sat <;> simp [pair, Except.map]

/-- C91, violated: without profiling, the plots of all bins show no statistic although the linear one is in the file, and the saturated one is refused even if
the file has it: both are looked for among the results of the fit instead of those of the mapping. -/
theorem c91_base_violated [Field V] (s : Spec.Stored V) (n : V) (d : Int) (hf : s.fit = some (false, n, d)) :
    chi2Of (topStats s) (instStats s) "BaseMapping" false false .automatic = .ok (none, none, false) ∧
    chi2Of (topStats s) (instStats s) "BaseMapping" false false .saturated = .error .value := by
  unfold chi2Of topStats
  rw [hf]
  constructor <;> rfl

/-- C91, violated: the choice "automatic" is documented as the saturated statistic for the plots of all bins and otherwise the linear one; the saturated one
of a projection is shown if it is in the file. -/
theorem c91_automatic_violated [Field V] (s : Spec.Stored V) (key : String) (hk : key ≠ "BaseMapping") (x : V × Int) (hs : s.sat = some x) :
    chi2Of (topStats s) (instStats s) key false false .automatic = .ok (some x.1, some x.2, true) := by
  rw [c91_chi2_partial s key false .automatic fun h => absurd h hk]
  have : (key == "BaseMapping") = false := by rw [beq_eq_false_iff_ne]; exact hk
  rw [this]
  simp [Spec.chi2, hs, pair, Except.map]

/-! ### Mappings and channels -/

/-- C91.  The plots are those of the channels asked for of the mappings whose key begins with a request. -/
theorem c91_plotted (results : List (String × List String)) (hnd : (results.map (·.1)).Nodup) (channels : Option (List String)) (req : List (List String))
    (hreq : ∀ r ∈ req, r ≠ []) (l : List (String × String)) (h : plotted results channels req = .ok l) (k c : String) :
    (k, c) ∈ l ↔ (∃ r ∈ req, (" ".intercalate r).toList <+: k.toList) ∧ (∃ cs, (k, cs) ∈ results ∧ c ∈ cs) ∧ ∀ cs, channels = some cs → c ∈ cs := by
  induction req generalizing l with
  | nil =>
    cases h
    simp
  | cons r req ih =>
    unfold plotted at h
    cases hi : instanceKeys (results.map (·.1)) r with
    | error e => rw [hi] at h; cases h
    | ok ks =>
      rw [hi] at h
      cases hp : plotted results channels req with
      | error e => rw [hp] at h; cases h
      | ok l' =>
        rw [hp] at h
        cases h
        have hks : ∀ k, k ∈ ks ↔ k ∈ results.map (·.1) ∧ (" ".intercalate r).toList <+: k.toList := by
          unfold instanceKeys at hi
          rw [if_neg (hreq r (by simp))] at hi
          dsimp only at hi
          split at hi
          · cases hi
          · cases hi
            intro k
            rw [List.mem_filter, List.isPrefixOf_iff_prefix]
        have hget : ∀ k cs, (k, cs) ∈ results ↔ Dict.get? results k = some cs := by
          clear hi hp ih hks
          intro k cs
          induction results with
          | nil => simp [Dict.get?]
          | cons p results ih =>
            obtain ⟨k', v⟩ := p
            rw [List.map_cons, List.nodup_cons] at hnd
            unfold Dict.get?
            by_cases hkk : k' = k
            · subst hkk
              rw [if_pos rfl, List.mem_cons]
              constructor
              · rintro (h | h)
                · cases h; rfl
                · exact absurd (List.mem_map.2 ⟨_, h, rfl⟩) hnd.1
              · rintro h
                cases h
                exact .inl rfl
            · rw [if_neg hkk, List.mem_cons, ← ih hnd.2]
              constructor
              · rintro (h | h)
                · cases h; exact absurd rfl hkk
                · exact h
              · exact .inr
        rw [List.mem_append, ih (fun r hr => hreq r (by simp [hr])) l' hp, List.mem_flatMap]
        have hone : (∃ a ∈ ks, (k, c) ∈ (((Dict.get? results a).getD []).filter (allowed channels)).map fun c => (a, c)) ↔
            ((" ".intercalate r).toList <+: k.toList) ∧ (∃ cs, (k, cs) ∈ results ∧ c ∈ cs) ∧ ∀ cs, channels = some cs → c ∈ cs := by
          constructor
          · rintro ⟨a, ha, hm⟩
            obtain ⟨c', hc', hcc⟩ := List.mem_map.1 hm
            cases hcc
            obtain ⟨h1, h2⟩ := List.mem_filter.1 hc'
            refine ⟨((hks _).1 ha).2, ?_, ?_⟩
            · cases hg : Dict.get? results k with
              | none => rw [hg] at h1; simp at h1
              | some cs => rw [hg] at h1; exact ⟨cs, (hget _ _).2 hg, h1⟩
            · rintro cs rfl
              simpa [allowed] using h2
          · rintro ⟨h1, ⟨cs, h2, h3⟩, h4⟩
            refine ⟨k, (hks _).2 ⟨List.mem_map.2 ⟨_, h2, rfl⟩, h1⟩, List.mem_map.2 ⟨c, List.mem_filter.2 ⟨?_, ?_⟩, rfl⟩⟩
            · rw [(hget _ _).1 h2]; exact h3
            · cases channels with
              | none => rfl
              | some cs => simpa [allowed] using h4 cs rfl
        rw [hone]
        constructor
        · rintro (⟨h1, h2⟩ | ⟨⟨r', hr', h1⟩, h2⟩)
          · exact ⟨⟨r, by simp, h1⟩, h2⟩
          · exact ⟨⟨r', by simp [hr'], h1⟩, h2⟩
        · rintro ⟨⟨r', hr', h1⟩, h2⟩
          rcases List.mem_cons.1 hr' with rfl | hr'
          · exact .inl ⟨h1, h2⟩
          · exact .inr ⟨⟨r', hr', h1⟩, h2⟩

/-- C91.  A request that begins no key is refused. -/
theorem c91_unknown (keys r : List String) (hr : r ≠ []) (h : ∀ k ∈ keys, ¬ (" ".intercalate r).toList <+: k.toList) : instanceKeys keys r = .error .value := by
  unfold instanceKeys
  rw [if_neg hr]
  dsimp only
  rw [if_pos]
  rw [List.filter_eq_nil_iff]
  intro k hk
  rw [List.isPrefixOf_iff_prefix]
  exact h k hk

/-- C91, violated: without a request nothing is plotted, although all mappings are documented as the default. -/
theorem c91_default_violated (results : List (String × List String)) (channels : Option (List String)) : plotted results channels [] = .ok [] := rfl

/-- C91, violated: a request for a mapping also gives all mappings with further arguments. -/
theorem c91_prefix_violated (keys r : List String) (hr : r ≠ []) (t : String) (h : " ".intercalate r ++ " " ++ t ∈ keys) :
    ∃ l, instanceKeys keys r = .ok l ∧ " ".intercalate r ++ " " ++ t ∈ l := by
  have hm : " ".intercalate r ++ " " ++ t ∈ keys.filter fun k => (" ".intercalate r).toList.isPrefixOf k.toList := by
    rw [List.mem_filter, List.isPrefixOf_iff_prefix]
    refine ⟨h, ⟨(" " ++ t).toList, ?_⟩⟩
    rw [← String.toList_append, String.append_assoc]
  refine ⟨_, ?_, hm⟩
  unfold instanceKeys
  rw [if_neg hr]
  dsimp only
  rw [if_neg]
  intro h0
  rw [h0] at hm
  cases hm

/-- C91, violated: two selections of the same axes of a channel are drawn into the same file. -/
theorem c91_file_violated (prefit normalized : Bool) (tag : List Char) (axes : List String) :
    fileName prefit tag axes (suffixOf "ch0" "Select x:1:112") normalized = fileName prefit tag axes (suffixOf "ch0" "Select x:11:12") normalized := by
  have : suffixOf "ch0" "Select x:1:112" = suffixOf "ch0" "Select x:11:12" := by decide +kernel
  rw [this]

/-! ### Histograms -/

theorem pick_eq (A B : Dict String (List String)) (name : String) (cats : List String) (val var : List Nat → V) (label : String)
    (hA : name ∉ A.map (·.1)) (hl : label ∈ cats) :
    (⟨A ++ (name, cats) :: B, val, var⟩ : Hist V).pick name label =
      .ok ⟨A ++ B, fun ix => val (ix.insertIdx A.length (cats.idxOf label)), fun ix => var (ix.insertIdx A.length (cats.idxOf label))⟩ := by
  have hk : (A ++ (name, cats) :: B).findIdx (fun a => a.1 == name) = A.length := by
    rw [List.findIdx_append, if_neg]
    · rw [List.findIdx_cons]
      simp
    · rw [List.findIdx_lt_length]
      rintro ⟨x, hx, h⟩
      exact hA (List.mem_map.2 ⟨x, hx, by simpa using h⟩)
  unfold IoTools.Hist.pick
  dsimp only
  rw [hk, List.getElem?_append_right (le_refl _), Nat.sub_self]
  dsimp only [List.getElem?_cons_zero]
  rw [if_pos hl, List.eraseIdx_append_of_length_le (le_refl _), Nat.sub_self]
  rfl

theorem pick_missing (A B : Dict String (List String)) (name : String) (cats : List String) (val var : List Nat → V) (label : String)
    (hA : name ∉ A.map (·.1)) (hl : label ∉ cats) : (⟨A ++ (name, cats) :: B, val, var⟩ : Hist V).pick name label = .error .key := by
  have hk : (A ++ (name, cats) :: B).findIdx (fun a => a.1 == name) = A.length := by
    rw [List.findIdx_append, if_neg]
    · rw [List.findIdx_cons]
      simp
    · rw [List.findIdx_lt_length]
      rintro ⟨x, hx, h⟩
      exact hA (List.mem_map.2 ⟨x, hx, by simpa using h⟩)
  unfold IoTools.Hist.pick
  dsimp only
  rw [hk, List.getElem?_append_right (le_refl _), Nat.sub_self]
  dsimp only [List.getElem?_cons_zero]
  rw [if_neg hl]

theorem insertIdx_end {α : Type} (l : List α) (n : Nat) (h : l.length = n) (x : α) : l.insertIdx n x = l ++ [x] := by
  subst h
  induction l with
  | nil => rfl
  | cons y l ih => rw [List.length_cons, List.insertIdx_succ_cons, ih]; rfl

theorem insertIdx_mid {α : Type} (l r : List α) (n : Nat) (h : l.length = n) (x : α) : (l ++ r).insertIdx n x = l ++ x :: r := by
  subst h
  induction l with
  | nil => rfl
  | cons y l ih => rw [List.length_cons, List.cons_append, List.insertIdx_succ_cons, ih]; rfl

/-- C91.  The processes are stacked from the last to the first, each with its own prediction and its name. -/
theorem c91_stack (res : Dict String (Hist V)) (prefit : Bool) (procs suppress ps : List String) (axes : Dict String (List String)) (val var : List Nat → V)
    (hax : "processes" ∉ axes.map (·.1)) (hres : res.get? (if prefit then "hist_prefit" else "hist_postfit") = some ⟨axes ++ [("processes", ps)], val, var⟩)
    (hp : ∀ p ∈ procs, p ∈ ps) :
    ∃ l : List (Option String × Hist V), stackOf res prefit (procsOf procs none) suppress = .ok l ∧ l.length = procs.length ∧
      ∀ (i : Nat) p, procs[i]? = some p → ∃ g, l[procs.length - 1 - i]? = some (if p ∈ suppress then none else some p, g) ∧ g.axes = axes ∧
        ∀ ix, ix.length = axes.length → g.val ix = val (ix ++ [ps.idxOf p]) := by
  unfold stackOf procsOf
  rw [hres]
  dsimp only
  refine ⟨_, RunOutput.mapM_ok _ (fun p => (if p ∈ suppress then none else some p,
    ⟨axes, fun ix => val (ix.insertIdx axes.length (ps.idxOf p)), fun ix => var (ix.insertIdx axes.length (ps.idxOf p))⟩)) _ ?_, by simp, ?_⟩
  · intro p hp'
    unfold stackOne
    rw [pick_eq axes [] "processes" ps val var p hax (hp p (List.mem_reverse.1 hp')), List.append_nil]
    rfl
  · intro i p hi
    have hlt := (List.getElem?_eq_some_iff.1 hi).1
    refine ⟨⟨axes, fun ix => val (ix.insertIdx axes.length (ps.idxOf p)), fun ix => var (ix.insertIdx axes.length (ps.idxOf p))⟩, ?_, rfl, fun ix hix => ?_⟩
    · rw [List.getElem?_map, List.getElem?_reverse (by omega)]
      have : procs.length - 1 - (procs.length - 1 - i) = i := by omega
      rw [this, hi]
      rfl
    · dsimp only
      rw [insertIdx_end _ _ hix]

/-- C91.  With a selection of processes the stack is made of these processes only. -/
theorem c91_stack_filter (procs f : List String) (p : String) : p ∈ procsOf procs (some f) ↔ p ∈ procs ∧ p ∈ f := by
  unfold procsOf
  rw [List.mem_filter, List.mem_reverse, decide_eq_true_eq]

/-- C91, violated: predictions of a mapping with fewer processes than the file (a selection of processes) can not be plotted. -/
theorem c91_stack_violated (res : Dict String (Hist V)) (prefit : Bool) (procs suppress ps : List String) (axes : Dict String (List String))
    (val var : List Nat → V) (hax : "processes" ∉ axes.map (·.1))
    (hres : res.get? (if prefit then "hist_prefit" else "hist_postfit") = some ⟨axes ++ [("processes", ps)], val, var⟩) (p : String) (hp : p ∈ procs) (hn : p ∉ ps) :
    stackOf res prefit (procsOf procs none) suppress = .error .key := by
  unfold stackOf procsOf
  rw [hres]
  dsimp only
  have hp' := List.mem_reverse.2 hp
  generalize procs.reverse = l at hp'
  induction l with
  | nil => cases hp'
  | cons q l ih =>
    rw [List.mapM_cons]
    by_cases hq : q ∈ ps
    · rcases List.mem_cons.1 hp' with rfl | hp'
      · exact absurd hq hn
      · rw [ih hp']
        unfold stackOne
        rw [pick_eq axes [] "processes" ps val var q hax hq]
        rfl
    · unfold stackOne
      rw [pick_missing axes [] "processes" ps val var q hax hq]
      rfl

/-! ### Variations -/

namespace Spec

/-- up or down -/
def sgn [Field V] (up : Bool) (x : V) : V := if up then x else -x

def side {α : Type} (up : Bool) (p : α × α) : α := if up then p.2 else p.1

end Spec

theorem named_ok (axes : Dict String (List String)) (vars : List String) (val var : List Nat → V) (h1 : "vars" ∉ axes.map (·.1)) (h2 : "downUpVar" ∉ axes.map (·.1))
    (n : String) (hn : n ∈ vars) :
    ∃ p, namedVar (⟨axes ++ [("vars", vars), ("downUpVar", ["0", "1"])], val, var⟩ : Hist V) (axes.map (·.1)) n = .ok p ∧ ∀ up, (Spec.side up p).axes = axes ∧
      ∀ ix, ix.length = axes.length → (Spec.side up p).val ix = val (ix ++ [vars.idxOf n, if up then 1 else 0]) := by
  have hA : "downUpVar" ∉ (axes ++ [("vars", vars)]).map (·.1) := by
    rw [List.map_append, List.mem_append, not_or]
    exact ⟨h2, by simp⟩
  have hsplit : axes ++ [("vars", vars), ("downUpVar", ["0", "1"])] = (axes ++ [("vars", vars)]) ++ ("downUpVar", ["0", "1"]) :: [] := by simp
  have one : ∀ d : String, d ∈ ["0", "1"] → ∃ g : Hist V, (((⟨axes ++ [("vars", vars), ("downUpVar", ["0", "1"])], val, var⟩ : Hist V).pick "downUpVar" d).bind fun h =>
      (h.pick "vars" n).bind (project (axes.map (·.1)))) = .ok g ∧ g.axes = axes ∧
        ∀ ix, ix.length = axes.length → g.val ix = val (ix ++ [vars.idxOf n, ["0", "1"].idxOf d]) := by
    intro d hd
    rw [hsplit, pick_eq (axes ++ [("vars", vars)]) [] "downUpVar" ["0", "1"] val var d hA hd]
    dsimp only [Except.bind]
    rw [List.append_nil, pick_eq axes [] "vars" vars _ _ n h1 hn]
    dsimp only
    unfold project
    rw [if_pos (by simp)]
    refine ⟨_, rfl, by simp, fun ix hix => ?_⟩
    dsimp only
    rw [insertIdx_end ix _ hix, insertIdx_end _ _ (by simp [hix]), List.append_assoc]
    rfl
  obtain ⟨gd, d1, d2, d3⟩ := one "0" (by simp)
  obtain ⟨gu, u1, u2, u3⟩ := one "1" (by simp)
  refine ⟨(gd, gu), ?_, fun up => ?_⟩
  · unfold namedVar
    rw [d1]
    dsimp only [Except.bind]
    exact (congrArg (Except.map fun u => (gd, u)) u1)
  · cases up
    · exact ⟨d2, d3⟩
    · exact ⟨u2, u3⟩

theorem group_ok [Field V] (nominal : Hist V) (gs : List String) (val var : List Nat → V) (h : "impacts" ∉ nominal.axes.map (·.1)) (g : String) (hg : g ∈ gs) :
    ∃ p, groupVar nominal (⟨nominal.axes ++ [("impacts", gs)], val, var⟩ : Hist V) (nominal.axes.map (·.1)) g = .ok p ∧ ∀ up, (Spec.side up p).axes = nominal.axes ∧
      ∀ ix, ix.length = nominal.axes.length → (Spec.side up p).val ix = nominal.val ix + Spec.sgn up (val (ix ++ [gs.idxOf g])) := by
  unfold groupVar
  rw [pick_eq nominal.axes [] "impacts" gs val var g h hg]
  dsimp only [Except.bind]
  unfold project
  rw [if_pos (by simp)]
  refine ⟨_, rfl, fun up => ?_⟩
  cases up
  · refine ⟨rfl, fun ix hix => ?_⟩
    show nominal.val ix - val (ix.insertIdx _ _) = _ + -_
    rw [insertIdx_end ix _ hix, sub_eq_add_neg]
  · refine ⟨rfl, fun ix hix => ?_⟩
    show nominal.val ix + val (ix.insertIdx _ _) = _ + _
    rw [insertIdx_end ix _ hix]
    rfl

theorem mapM_index {α β : Type} (f : α → Res β) (P : α → β → Prop) (l : List α) (h : ∀ x ∈ l, ∃ y, f x = .ok y ∧ P x y) :
    ∃ r : List β, l.mapM f = .ok r ∧ r.length = l.length ∧ ∀ (i : Nat) x, l[i]? = some x → ∃ y, r[i]? = some y ∧ P x y := by
  induction l with
  | nil => exact ⟨[], rfl, rfl, fun i x h => by simp at h⟩
  | cons a l ih =>
    obtain ⟨y, hy, hp⟩ := h a (by simp)
    obtain ⟨r, hr, hlen, hi⟩ := ih fun x hx => h x (by simp [hx])
    refine ⟨y :: r, ?_, by simp [hlen], fun i x hx => ?_⟩
    · rw [List.mapM_cons, hy, hr]
      rfl
    · cases i with
      | zero => cases hx; exact ⟨y, rfl, hp⟩
      | succ i => exact hi i x hx

/-- the name of the prediction -/
def inclusive (prefit : Bool) : String := (if prefit then "hist_prefit" else "hist_postfit") ++ "_inclusive"

theorem get_ok {β : Type} {d : Dict String β} {k : String} {v : β} (h : d.get? k = some v) : d.get k = .ok v := by
  unfold Dict.get
  rw [h]

theorem files_ok [Field V] (sqrt : V → V) (files : List (Dict String (Hist V))) (types : List Bool) (ht : types.length = 1 ∨ types.length = files.length)
    (hf : ∀ f ∈ files, ∀ t, ∃ h, f.get? (inclusive t) = some h) :
    ∃ a : List (Hist V × Hist V), (files.zip (fitTypes types files.length)).mapM (fileVar sqrt) = .ok a ∧ a.length = files.length ∧
      ∀ (i : Nat) f, files[i]? = some f → ∃ (p : Hist V × Hist V) (t : Bool) (h : Hist V), a[i]? = some p ∧ (types.length = 1 ∧ types[0]? = some t ∨ types[i]? = some t) ∧ f.get? (inclusive t) = some h ∧
        ∀ up, (Spec.side up p).axes = h.axes ∧ ∀ ix, (Spec.side up p).val ix = h.val ix + Spec.sgn up (sqrt (h.var ix)) := by
  have hlen : (fitTypes types files.length).length = files.length := by
    unfold fitTypes
    split
    · simp
    · rcases ht with h | h
      · exfalso
        obtain ⟨t, rfl⟩ := List.length_eq_one_iff.1 h
        simp_all
      · exact h
  obtain ⟨a, ha, hal, hai⟩ := mapM_index (fileVar sqrt) (fun (f : Dict String (Hist V) × Bool) (p : Hist V × Hist V) => ∃ h : Hist V, f.1.get? (inclusive f.2) = some h ∧ ∀ up, (Spec.side up p).axes = h.axes ∧
      ∀ ix, (Spec.side up p).val ix = h.val ix + Spec.sgn up (sqrt (h.var ix))) (files.zip (fitTypes types files.length)) (by
    rintro ⟨f, t⟩ hft
    obtain ⟨h, hh⟩ := hf f (List.of_mem_zip hft).1 t
    refine ⟨({ h with val := fun ix => h.val ix - sqrt (h.var ix) }, { h with val := fun ix => h.val ix + sqrt (h.var ix) }), ?_, h, hh, fun up => ?_⟩
    · show Except.map _ (Dict.get f (inclusive t)) = _
      rw [get_ok hh]
      rfl
    · cases up
      · exact ⟨rfl, fun ix => sub_eq_add_neg _ _⟩
      · exact ⟨rfl, fun ix => rfl⟩)
  refine ⟨a, ha, by rw [hal, List.length_zip, hlen, Nat.min_self], fun i f hi => ?_⟩
  have hlt := (List.getElem?_eq_some_iff.1 hi).1
  have ht' : ∃ t, (fitTypes types files.length)[i]? = some t := ⟨_, List.getElem?_eq_getElem (by rw [hlen]; exact hlt)⟩
  obtain ⟨t, hti⟩ := ht'
  obtain ⟨p, hp, h, h1, h2⟩ := hai i (f, t) (by rw [List.getElem?_zip_eq_some]; exact ⟨hi, hti⟩)
  refine ⟨p, t, h, hp, ?_, h1, h2⟩
  unfold fitTypes at hti
  split at hti
  · left
    rw [List.getElem?_replicate] at hti
    rw [if_pos hlt] at hti
    cases hti
    exact ⟨rfl, rfl⟩
  · exact .inr hti

theorem groups_ok [Field V] (res : Dict String (Hist V)) (prefit : Bool) (nominal : Hist V) (groups gs : List String) (val var : List Nat → V)
    (h : "impacts" ∉ nominal.axes.map (·.1)) (hg : ∀ g ∈ groups, g ∈ gs)
    (hres : groups ≠ [] → res.get? (inclusive prefit ++ "_global_impacts_grouped") = some ⟨nominal.axes ++ [("impacts", gs)], val, var⟩) :
    ∃ b : List (Hist V × Hist V), groupVars res prefit nominal (nominal.axes.map (·.1)) groups = .ok b ∧ b.length = groups.length ∧
      ∀ (i : Nat) g, groups[i]? = some g → ∃ p, b[i]? = some p ∧ ∀ up, (Spec.side up p).axes = nominal.axes ∧
        ∀ ix, ix.length = nominal.axes.length → (Spec.side up p).val ix = nominal.val ix + Spec.sgn up (val (ix ++ [gs.idxOf g])) := by
  unfold groupVars
  by_cases h0 : groups = []
  · rw [if_pos h0]
    subst h0
    exact ⟨[], rfl, rfl, fun i g h => by simp at h⟩
  · rw [if_neg h0]
    have hk : (if prefit then "hist_prefit" else "hist_postfit") ++ "_inclusive_global_impacts_grouped" = inclusive prefit ++ "_global_impacts_grouped" := by
      cases prefit <;> decide +kernel
    rw [hk, hres h0]
    dsimp only
    have hax : (⟨nominal.axes ++ [("impacts", gs)], val, var⟩ : Hist V).axis "impacts" = .ok gs := by
      unfold IoTools.Hist.axis
      apply get_ok
      dsimp only
      generalize nominal.axes = l at h
      induction l with
      | nil => rfl
      | cons x l ih =>
        obtain ⟨k, v⟩ := x
        rw [List.map_cons, List.mem_cons, not_or] at h
        show (if k = "impacts" then some v else Dict.get? (l ++ [("impacts", gs)]) "impacts") = _
        rw [if_neg (fun e => h.1 e.symm)]
        exact ih h.2
    rw [hax]
    dsimp only [Except.bind]
    rw [if_pos (by rw [List.all_eq_true]; intro g hg'; exact decide_eq_true (hg g hg'))]
    exact mapM_index _ _ _ fun g hg' => group_ok nominal gs val var h g (hg g hg')

/-- C91.  The variations, one for every name and group in the order of their labels: first the prediction of every file of variations with its uncertainty
(of its fit type), then the stored variations of the nominal file, then the nominal prediction with the impact of a group.  Provided that there are not more
files than names. -/
theorem c91_variations_partial [Field V] (sqrt : V → V) (res : Dict String (Hist V)) (prefit : Bool) (files : List (Dict String (Hist V))) (types : List Bool)
    (names groups vars gs : List String) (nominal : Hist V) (v w vg wg : List Nat → V) (hle : files.length ≤ names.length)
    (ht : types.length = 1 ∨ types.length = files.length) (hf : ∀ f ∈ files, ∀ t, ∃ h, f.get? (inclusive t) = some h)
    (hnom : res.get? (inclusive prefit) = some nominal)
    (h1 : "vars" ∉ nominal.axes.map (·.1)) (h2 : "downUpVar" ∉ nominal.axes.map (·.1)) (h3 : "impacts" ∉ nominal.axes.map (·.1))
    (hv : res.get? (inclusive prefit ++ "_variations") = some ⟨nominal.axes ++ [("vars", vars), ("downUpVar", ["0", "1"])], v, w⟩)
    (hg : groups ≠ [] → res.get? (inclusive prefit ++ "_global_impacts_grouped") = some ⟨nominal.axes ++ [("impacts", gs)], vg, wg⟩)
    (hvn : ∀ n ∈ names.drop files.length, n ∈ vars) (hgn : ∀ g ∈ groups, g ∈ gs) :
    ∃ l : List (Hist V × Hist V), variations sqrt res prefit false files types (some names) groups = .ok (some l) ∧ l.length = (names ++ groups).length ∧
      (∀ (i : Nat) f, files[i]? = some f → ∃ (p : Hist V × Hist V) (t : Bool) (h : Hist V), l[i]? = some p ∧ (types.length = 1 ∧ types[0]? = some t ∨ types[i]? = some t) ∧ f.get? (inclusive t) = some h ∧
        ∀ up, (Spec.side up p).axes = h.axes ∧ ∀ ix, (Spec.side up p).val ix = h.val ix + Spec.sgn up (sqrt (h.var ix))) ∧
      (∀ (i : Nat) n, files.length ≤ i → names[i]? = some n → ∃ p, l[i]? = some p ∧ ∀ up, (Spec.side up p).axes = nominal.axes ∧
        ∀ ix, ix.length = nominal.axes.length → (Spec.side up p).val ix = v (ix ++ [vars.idxOf n, if up then 1 else 0])) ∧
      (∀ (i : Nat) g, groups[i]? = some g → ∃ p, l[names.length + i]? = some p ∧ ∀ up, (Spec.side up p).axes = nominal.axes ∧
        ∀ ix, ix.length = nominal.axes.length → (Spec.side up p).val ix = nominal.val ix + Spec.sgn up (vg (ix ++ [gs.idxOf g]))) := by
  obtain ⟨a, ha, hal, hai⟩ := files_ok sqrt files types ht hf
  obtain ⟨b, hb, hbl, hbi⟩ := mapM_index (namedVar (⟨nominal.axes ++ [("vars", vars), ("downUpVar", ["0", "1"])], v, w⟩ : Hist V) (nominal.axes.map (·.1))) _
    (names.drop files.length) fun n hn => named_ok nominal.axes vars v w h1 h2 n (hvn n hn)
  obtain ⟨c, hc, hcl, hci⟩ := groups_ok res prefit nominal groups gs vg wg h3 hgn hg
  have hnamed : namedVars sqrt res prefit false (nominal.axes.map (·.1)) files types names = .ok (a ++ b) := by
    unfold namedVars
    rw [ha]
    dsimp only [Except.bind]
    by_cases hlt : files.length < names.length
    · rw [if_pos hlt]
      have hk : (if prefit then "hist_prefit" else "hist_postfit") ++ "_inclusive_variations" ++ (if false = true then "_correlated" else "") =
          inclusive prefit ++ "_variations" := by cases prefit <;> decide +kernel
      rw [hk, get_ok hv]
      dsimp only
      rw [hb]
      rfl
    · rw [if_neg hlt]
      have : b = [] := by rw [← List.length_eq_zero_iff, hbl, List.length_drop]; omega
      rw [this, List.append_nil]
  have hlab : (a ++ b).length = names.length := by rw [List.length_append, hal, hbl, List.length_drop]; omega
  refine ⟨a ++ b ++ c, ?_, ?_, ?_, ?_, ?_⟩
  · unfold variations
    show Except.bind (Dict.get res (inclusive prefit)) _ = _
    rw [get_ok hnom]
    dsimp only [Except.bind]
    rw [hnamed]
    dsimp only
    rw [hc]
    rfl
  · rw [List.length_append, hlab, hcl, List.length_append]
  · intro i f hi
    obtain ⟨p, t, h, hp, hx⟩ := hai i f hi
    have hlt := (List.getElem?_eq_some_iff.1 hi).1
    refine ⟨p, t, h, ?_, hx⟩
    rw [List.append_assoc, List.getElem?_append_left (by omega), hp]
  · intro i n hle' hi
    have hlt := (List.getElem?_eq_some_iff.1 hi).1
    obtain ⟨p, hp, hx⟩ := hbi (i - files.length) n (by rw [List.getElem?_drop, Nat.add_sub_cancel' hle', hi])
    refine ⟨p, ?_, hx⟩
    rw [List.getElem?_append_left (by omega), List.getElem?_append_right (by omega), hal, hp]
  · intro i g hi
    obtain ⟨p, hp, hx⟩ := hci i g hi
    refine ⟨p, ?_, hx⟩
    rw [List.getElem?_append_right (by omega), hlab, Nat.add_sub_cancel_left, hp]

/-- C91.  Groups alone are shown as if there were no names and no files. -/
theorem c91_groups [Field V] (sqrt : V → V) (res : Dict String (Hist V)) (prefit correlated : Bool) (files : List (Dict String (Hist V))) (types : List Bool)
    (groups : List String) (hg : groups ≠ []) :
    variations sqrt res prefit correlated files types none groups = variations sqrt res prefit correlated [] types (some []) groups := by
  obtain ⟨g, gs, rfl⟩ := List.exists_cons_of_ne_nil hg
  unfold variations namedVars
  cases Dict.get res ((if prefit then "hist_prefit" else "hist_postfit") ++ "_inclusive") with
  | error e => rfl
  | ok nominal =>
    dsimp only [Except.bind, List.zip_nil_left, List.length_nil]
    show Except.map some _ = Except.map (fun b => some ([] ++ b)) _
    rfl

/-- C91.  Labels are taken one for each name and group, or refused. -/
theorem c91_labels (syst : String → String) (names : Option (List String)) (groups : List String) (labels : Option (List String))
    (h0 : names.getD [] ++ groups ≠ []) :
    varLabels syst names groups labels = match labels with
      | none => .ok (some ((names.getD [] ++ groups).map syst))
      | some l => if l.length = (names.getD [] ++ groups).length then .ok (some l) else .error .value := by
  unfold varLabels
  dsimp only
  rw [if_neg h0]
  cases labels with
  | none => rfl
  | some l =>
    dsimp only
    by_cases h : l.length = (names.getD [] ++ groups).length
    · rw [if_neg (not_not.2 h), if_pos h]
    · rw [if_pos h, if_neg h]

/-- C91, violated: with fewer names than files of variations the label of the first group stands at the prediction of another file. -/
theorem c91_files_violated [Field V] (sqrt : V → V) (syst : String → String) (res : Dict String (Hist V)) (prefit correlated : Bool)
    (files : List (Dict String (Hist V))) (types : List Bool) (names gs : List String) (g : String) (nominal : Hist V) (vg wg : List Nat → V)
    (hlt : names.length < files.length)
    (ht : types.length = 1 ∨ types.length = files.length) (hf : ∀ f ∈ files, ∀ t, ∃ h, f.get? (inclusive t) = some h)
    (hnom : res.get? (inclusive prefit) = some nominal) (h3 : "impacts" ∉ nominal.axes.map (·.1))
    (hg : res.get? (inclusive prefit ++ "_global_impacts_grouped") = some ⟨nominal.axes ++ [("impacts", gs)], vg, wg⟩) (hgn : g ∈ gs) :
    ∃ (labels : List String) (l : List (Hist V × Hist V)), varLabels syst (some names) [g] none = .ok (some labels) ∧ labels[names.length]? = some (syst g) ∧
      variations sqrt res prefit correlated files types (some names) [g] = .ok (some l) ∧
      ∃ (f : Dict String (Hist V)) (p : Hist V × Hist V) (t : Bool) (h : Hist V), files[names.length]? = some f ∧ l[names.length]? = some p ∧ f.get? (inclusive t) = some h ∧
        ∀ up, (Spec.side up p).axes = h.axes ∧ ∀ ix, (Spec.side up p).val ix = h.val ix + Spec.sgn up (sqrt (h.var ix)) := by
  obtain ⟨a, ha, hal, hai⟩ := files_ok sqrt files types ht hf
  obtain ⟨c, hc, hcl, hci⟩ := groups_ok res prefit nominal [g] gs vg wg h3 (by simpa using hgn) (fun _ => hg)
  have hnamed : namedVars sqrt res prefit correlated (nominal.axes.map (·.1)) files types names = .ok a := by
    unfold namedVars
    rw [ha]
    dsimp only [Except.bind]
    rw [if_neg (by omega)]
  obtain ⟨f, hfi⟩ : ∃ f, files[names.length]? = some f := ⟨_, List.getElem?_eq_getElem hlt⟩
  obtain ⟨p, t, h, hp, -, hh, hx⟩ := hai _ f hfi
  refine ⟨(names ++ [g]).map syst, a ++ c, ?_, by simp, ?_, f, p, t, h, hfi, ?_, hh, hx⟩
  · rw [c91_labels syst (some names) [g] none (by simp)]
    rfl
  · unfold variations
    show Except.bind (Dict.get res (inclusive prefit)) _ = _
    rw [get_ok hnom]
    dsimp only [Except.bind]
    rw [hnamed]
    dsimp only
    rw [hc]
    rfl
  · rw [List.getElem?_append_left (by omega), hp]

/-- C91, violated: variations correlated among parameters can be asked for, but no run of the fit stores them. -/
theorem c91_correlated_violated (o : RunOutput.Opts) (e : RunOutput.Env) (maps : List RunOutput.MapInfo) (data prefit : Bool) (x : RunOutput.Out)
    (h : RunOutput.Spec.Asked o e maps data x) (hc : x.channel.isSome) :
    x.key ≠ (if prefit then "hist_prefit" else "hist_postfit") ++ "_inclusive_variations" ++ "_correlated" := by
  intro hk
  rcases RunOutput.asked_form o e maps data x h with ⟨-, h2, -⟩ | ⟨-, h2, -⟩ | ⟨-, -, h3⟩
  · rw [h2] at hc; cases hc
  · rw [h2] at hc; cases hc
  · have : x.key ∈ (RunOutput.chanNames o).map (·.1) := List.mem_map.2 ⟨_, h3, rfl⟩
    rw [RunOutput.chanNames_fst] at this
    revert this
    show ¬ x.key ∈ _
    rw [hk]
    cases prefit <;> decide +kernel

/-- C91, violated: nor the statistical part of the uncertainties of cross sections, under the name by which it is looked for. -/
theorem c91_stat_violated (o : RunOutput.Opts) (e : RunOutput.Env) (maps : List RunOutput.MapInfo) (data prefit : Bool) (x : RunOutput.Out)
    (h : RunOutput.Spec.Asked o e maps data x) (hc : x.channel.isSome) : x.key ≠ statName prefit := by
  intro hk
  rcases RunOutput.asked_form o e maps data x h with ⟨-, h2, -⟩ | ⟨-, h2, -⟩ | ⟨-, -, h3⟩
  · rw [h2] at hc; cases hc
  · rw [h2] at hc; cases hc
  · have : x.key ∈ (RunOutput.chanNames o).map (·.1) := List.mem_map.2 ⟨_, h3, rfl⟩
    rw [RunOutput.chanNames_fst] at this
    revert this
    show ¬ x.key ∈ _
    rw [hk]
    cases prefit <;> decide +kernel

/-! ### Slices -/

theorem takeBin_eq (A B : Dict String (List String)) (name : String) (cats : List String) (val var : List Nat → V) (i : Nat)
    (hA : name ∉ A.map (·.1)) (hi : i < cats.length) :
    takeBin (⟨A ++ (name, cats) :: B, val, var⟩ : Hist V) name i =
      .ok ⟨A ++ B, fun ix => val (ix.insertIdx A.length i), fun ix => var (ix.insertIdx A.length i)⟩ := by
  have hk : (A ++ (name, cats) :: B).findIdx (fun a => a.1 == name) = A.length := by
    rw [List.findIdx_append, if_neg]
    · rw [List.findIdx_cons]
      simp
    · rw [List.findIdx_lt_length]
      rintro ⟨x, hx, h⟩
      exact hA (List.mem_map.2 ⟨x, hx, by simpa using h⟩)
  unfold takeBin
  dsimp only
  rw [hk, List.getElem?_append_right (le_refl _), Nat.sub_self]
  dsimp only [List.getElem?_cons_zero]
  rw [if_pos hi, List.eraseIdx_append_of_length_le (le_refl _), Nat.sub_self]
  rfl

/-- which axes are selected -/
def mask (selection : List String) (axes : Dict String (List String)) : List Bool := axes.map fun a => decide (a.1 ∈ selection)

def kept (selection : List String) (axes : Dict String (List String)) : Dict String (List String) := axes.filter fun a => decide (a.1 ∉ selection)

def chosen (selection : List String) (axes : Dict String (List String)) : Dict String (List String) := axes.filter fun a => decide (a.1 ∈ selection)

/-- a choice of bins of axes -/
def Choice (axes : Dict String (List String)) (t : List (String × Nat)) : Prop := List.Forall₂ (fun a b => b.1 = a.1 ∧ b.2 < a.2.length) axes t

theorem takeBins_ok (selection : List String) (B : Dict String (List String)) : ∀ (A : Dict String (List String)) (val var : List Nat → V) (t : List (String × Nat)),
    ((A ++ B).map (·.1)).Nodup → Choice (chosen selection B) t →
    ∃ g, takeBins t (⟨A ++ B, val, var⟩ : Hist V) = .ok g ∧ g.axes = A ++ kept selection B ∧
      ∀ xs os, xs.length = A.length → os.length = (kept selection B).length → g.val (xs ++ os) = val (xs ++ Spec.weave (mask selection B) (t.map (·.2)) os) ∧
        g.var (xs ++ os) = var (xs ++ Spec.weave (mask selection B) (t.map (·.2)) os) := by
  induction B with
  | nil =>
    intro A val var t _ ht
    cases ht
    refine ⟨_, rfl, rfl, fun xs os _ ho => ?_⟩
    obtain rfl := List.length_eq_zero_iff.1 ho
    exact ⟨rfl, rfl⟩
  | cons b B ih =>
    intro A val var t hnd ht
    by_cases hb : b.1 ∈ selection
    · have hch : chosen selection (b :: B) = b :: chosen selection B := by unfold chosen; rw [List.filter_cons, if_pos (decide_eq_true hb)]
      have hk : kept selection (b :: B) = kept selection B := by unfold kept; rw [List.filter_cons, if_neg (by simpa using hb)]
      rw [hch] at ht
      obtain ⟨⟨n, cats⟩, rfl⟩ : ∃ x : String × List String, x = b := ⟨b, rfl⟩
      cases ht with
      | @cons _ c _ t' hc ht' =>
        obtain ⟨m, i⟩ := c
        obtain ⟨rfl, hi⟩ := hc
        dsimp only at hi hb
        have hnA : m ∉ A.map (·.1) := by
          rw [List.map_append, List.nodup_append] at hnd
          exact fun h => hnd.2.2 m h m (by simp) rfl
        have hnd' : ((A ++ B).map (·.1)).Nodup := by
          refine hnd.sublist (List.Sublist.map _ ?_)
          exact List.Sublist.append (List.Sublist.refl _) (List.sublist_cons_self _ _)
        obtain ⟨g, hg, hax, hval⟩ := ih A (fun ix => val (ix.insertIdx A.length i)) (fun ix => var (ix.insertIdx A.length i)) t' hnd' ht'
        refine ⟨g, ?_, by rw [hk]; exact hax, fun xs os hx ho => ?_⟩
        · show (takeBin _ m i).bind (takeBins t') = _
          rw [takeBin_eq A B m cats val var i hnA hi]
          exact hg
        · rw [hk] at ho
          have hm : mask selection ((m, cats) :: B) = true :: mask selection B := by unfold mask; rw [List.map_cons, decide_eq_true hb]
          rw [hm]
          have := hval xs os hx ho
          rw [insertIdx_mid _ _ _ hx] at this
          exact this
    · have hch : chosen selection (b :: B) = chosen selection B := by unfold chosen; rw [List.filter_cons, if_neg (by simpa using hb)]
      have hk : kept selection (b :: B) = b :: kept selection B := by unfold kept; rw [List.filter_cons, if_pos (by simpa using hb)]
      rw [hch] at ht
      have happ : A ++ b :: B = (A ++ [b]) ++ B := by simp
      rw [happ] at hnd ⊢
      obtain ⟨g, hg, hax, hval⟩ := ih (A ++ [b]) val var t hnd ht
      refine ⟨g, hg, by rw [hax, hk]; simp, fun xs os hx ho => ?_⟩
      rw [hk] at ho
      obtain ⟨o, os, rfl⟩ : ∃ o os', os = o :: os' := List.exists_cons_of_length_eq_add_one ho
      have hm : mask selection (b :: B) = false :: mask selection B := by unfold mask; rw [List.map_cons, decide_eq_false hb]
      rw [hm]
      have := hval (xs ++ [o]) os (by simp [hx]) (by simpa using ho)
      rw [List.append_assoc, List.append_assoc] at this
      exact this

theorem mem_binTuples (axes : Dict String (List String)) (t : List (String × Nat)) : t ∈ binTuples (axes.map fun a => (a.1, a.2.length)) ↔ Choice axes t := by
  unfold Choice
  induction axes generalizing t with
  | nil => simp [binTuples]
  | cons a axes ih =>
    rw [List.map_cons]
    show t ∈ (List.range a.2.length).flatMap _ ↔ _
    rw [List.mem_flatMap]
    constructor
    · rintro ⟨i, hi, ht⟩
      obtain ⟨t', ht', rfl⟩ := List.mem_map.1 ht
      exact .cons ⟨rfl, List.mem_range.1 hi⟩ ((ih t').1 ht')
    · intro h
      cases h with
      | @cons _ b _ t' h1 h2 =>
        obtain ⟨m, i⟩ := b
        obtain ⟨rfl, hi⟩ := h1
        exact ⟨i, List.mem_range.2 hi, List.mem_map.2 ⟨t', (ih t').2 h2, rfl⟩⟩

theorem nodup_binTuples (l : List (String × Nat)) : (binTuples l).Nodup := by
  induction l with
  | nil => simp [binTuples]
  | cons a l ih =>
    show ((List.range a.2).flatMap _).Nodup
    rw [List.nodup_flatMap]
    refine ⟨fun i _ => ih.map fun x y h => by cases h; rfl, ?_⟩
    refine List.Pairwise.imp_of_mem ?_ List.nodup_range
    intro i j _ _ hij
    rw [Function.onFun, List.disjoint_left]
    intro t hi hj
    obtain ⟨t1, -, rfl⟩ := List.mem_map.1 hi
    obtain ⟨t2, -, h⟩ := List.mem_map.1 hj
    cases h
    exact hij rfl

theorem slices_ok (selection : List String) (h : Hist V) (hnd : (h.axes.map (·.1)).Nodup) :
    ∃ L, slices selection h = .ok L ∧ L.map (·.1) = binTuples ((chosen selection h.axes).map fun a => (a.1, a.2.length)) ∧
      ∀ p ∈ L, takeBins p.1 h = .ok p.2 := by
  show ∃ L, (if chosen selection h.axes = [] then .ok [([], h)] else
    (binTuples ((chosen selection h.axes).map fun a => (a.1, a.2.length))).mapM (sliceOne h)) = .ok L ∧ _
  by_cases h0 : chosen selection h.axes = []
  · rw [if_pos h0, h0]
    exact ⟨_, rfl, rfl, fun p hp => by rw [List.mem_singleton] at hp; subst hp; rfl⟩
  · rw [if_neg h0]
    have hall : ∀ t ∈ binTuples ((chosen selection h.axes).map fun a => (a.1, a.2.length)), ∃ p, sliceOne h t = .ok p ∧ (p.1 = t ∧ takeBins p.1 h = .ok p.2) := by
      intro t ht
      rw [mem_binTuples] at ht
      obtain ⟨g, hg, -⟩ := takeBins_ok selection h.axes [] h.val h.var t hnd ht
      refine ⟨(t, g), ?_, rfl, hg⟩
      unfold sliceOne
      rw [show takeBins t h = .ok g from hg]
      rfl
    obtain ⟨L, hL, hlen, hi⟩ := mapM_index _ _ _ hall
    refine ⟨L, hL, ?_, ?_⟩
    · apply List.ext_getElem?
      intro i
      rw [List.getElem?_map]
      cases hx : (binTuples ((chosen selection h.axes).map fun a => (a.1, a.2.length)))[i]? with
      | none =>
        rw [List.getElem?_eq_none_iff] at hx
        rw [List.getElem?_eq_none (by omega)]
        rfl
      | some t =>
        obtain ⟨p, hp, h1, -⟩ := hi i t hx
        rw [hp]
        exact congrArg some h1
    · intro p hp
      obtain ⟨i, hi'⟩ := List.getElem?_of_mem hp
      obtain ⟨t, ht⟩ : ∃ t, (binTuples ((chosen selection h.axes).map fun a => (a.1, a.2.length)))[i]? = some t :=
        ⟨_, List.getElem?_eq_getElem (by rw [← hlen]; exact (List.getElem?_eq_some_iff.1 hi').1)⟩
      obtain ⟨q, hq, -, h2⟩ := hi i t ht
      rw [hi'] at hq
      cases hq
      exact h2

/-- C91.  There is one plot for every choice of bins of the selection axes of a histogram; it shows the histogram in the other axes at these bins. -/
theorem c91_slices (selection : List String) (h : Hist V) (hnd : (h.axes.map (·.1)).Nodup) :
    ∃ L, slices selection h = .ok L ∧ (L.map (·.1)).Nodup ∧ (∀ t, t ∈ L.map (·.1) ↔ Choice (chosen selection h.axes) t) ∧
      ∀ t g, (t, g) ∈ L → g.axes = kept selection h.axes ∧ ∀ os, os.length = (kept selection h.axes).length →
        g.val os = h.val (Spec.weave (mask selection h.axes) (t.map (·.2)) os) ∧ g.var os = h.var (Spec.weave (mask selection h.axes) (t.map (·.2)) os) := by
  obtain ⟨L, hL, hm, hb⟩ := slices_ok selection h hnd
  refine ⟨L, hL, by rw [hm]; exact nodup_binTuples _, fun t => by rw [hm, mem_binTuples], fun t g htg => ?_⟩
  have hc : Choice (chosen selection h.axes) t := by
    rw [← mem_binTuples, ← hm]
    exact List.mem_map.2 ⟨_, htg, rfl⟩
  obtain ⟨g', hg', hax, hval⟩ := takeBins_ok selection h.axes [] h.val h.var t hnd hc
  have : takeBins t h = .ok g := hb _ htg
  rw [show takeBins t h = .ok g' from hg'] at this
  cases this
  exact ⟨hax, fun os ho => hval [] os rfl ho⟩

/-- C91.  Every bin of the histogram is one bin of one of these plots. -/
theorem c91_slices_bins (selection : List String) (axes : Dict String (List String)) (ix : List Nat) (hix : List.Forall₂ (fun a i => i < a.2.length) axes ix) :
    ∃! p : List (String × Nat) × List Nat, Choice (chosen selection axes) p.1 ∧ List.Forall₂ (fun a i => i < a.2.length) (kept selection axes) p.2 ∧
      Spec.weave (mask selection axes) (p.1.map (·.2)) p.2 = ix := by
  induction hix with
  | nil =>
    refine ⟨([], []), ⟨.nil, .nil, rfl⟩, ?_⟩
    rintro ⟨t, os⟩ ⟨h1, h2, -⟩
    cases h1
    cases h2
    rfl
  | @cons a i axes ix ha _ ih =>
    obtain ⟨⟨t, os⟩, ⟨h1, h2, h3⟩, hu⟩ := ih
    obtain ⟨n, cats⟩ := a
    dsimp only at ha h1 h2 h3
    by_cases hb : n ∈ selection
    · have hch : chosen selection ((n, cats) :: axes) = (n, cats) :: chosen selection axes := by unfold chosen; rw [List.filter_cons, if_pos (decide_eq_true hb)]
      have hk : kept selection ((n, cats) :: axes) = kept selection axes := by unfold kept; rw [List.filter_cons, if_neg (by simpa using hb)]
      have hm : mask selection ((n, cats) :: axes) = true :: mask selection axes := by unfold mask; rw [List.map_cons, decide_eq_true hb]
      rw [hch, hk, hm]
      refine ⟨((n, i) :: t, os), ⟨.cons ⟨rfl, ha⟩ h1, h2, ?_⟩, ?_⟩
      · show i :: Spec.weave _ _ _ = _
        rw [h3]
      · rintro ⟨t', os'⟩ ⟨g1, g2, g3⟩
        dsimp only at g1 g2 g3
        cases g1 with
        | @cons _ b _ t' hb' g1 =>
          obtain ⟨m, j⟩ := b
          obtain ⟨rfl, hj⟩ := hb'
          have g3' : j :: Spec.weave (mask selection axes) (t'.map (·.2)) os' = i :: ix := g3
          rw [List.cons.injEq] at g3'
          obtain ⟨rfl, g3'⟩ := g3'
          have := hu (t', os') ⟨g1, g2, g3'⟩
          cases this
          rfl
    · have hch : chosen selection ((n, cats) :: axes) = chosen selection axes := by unfold chosen; rw [List.filter_cons, if_neg (by simpa using hb)]
      have hk : kept selection ((n, cats) :: axes) = (n, cats) :: kept selection axes := by unfold kept; rw [List.filter_cons, if_pos (by simpa using hb)]
      have hm : mask selection ((n, cats) :: axes) = false :: mask selection axes := by unfold mask; rw [List.map_cons, decide_eq_false hb]
      rw [hch, hk, hm]
      have hw : ∀ (bs : List Nat) (o : Nat) (os : List Nat), Spec.weave (false :: mask selection axes) bs (o :: os) = o :: Spec.weave (mask selection axes) bs os := by
        intro bs o os
        cases bs <;> rfl
      refine ⟨(t, i :: os), ⟨h1, .cons ha h2, ?_⟩, ?_⟩
      · dsimp only
        rw [hw, h3]
      · rintro ⟨t', os'⟩ ⟨g1, g2, g3⟩
        dsimp only at g1 g2 g3
        cases g2 with
        | @cons _ j _ os' hj g2 =>
          rw [hw, List.cons.injEq] at g3
          obtain ⟨rfl, g3⟩ := g3
          have := hu (t', os') ⟨g1, g2, g3⟩
          cases this
          rfl

theorem join_cons (g : String × Nat → List Char) (a b : String × Nat) (l : List (String × Nat)) :
    (List.intersperse ['_'] ((a :: b :: l).map g)).flatten = g a ++ '_' :: (List.intersperse ['_'] ((b :: l).map g)).flatten := by
  simp

theorem split_at {l1 l2 r1 r2 : List Char} (h1 : '_' ∉ l1) (h2 : '_' ∉ l2) (h : l1 ++ '_' :: r1 = l2 ++ '_' :: r2) : l1 = l2 ∧ r1 = r2 := by
  induction l1 generalizing l2 with
  | nil =>
    cases l2 with
    | nil => simpa using h
    | cons c l2 =>
      rw [List.nil_append, List.cons_append, List.cons.injEq] at h
      exact absurd (by rw [← h.1]; simp) h2
  | cons c l1 ih =>
    cases l2 with
    | nil =>
      rw [List.nil_append, List.cons_append, List.cons.injEq] at h
      exact absurd (by rw [h.1]; simp) h1
    | cons d l2 =>
      rw [List.cons_append, List.cons_append, List.cons.injEq] at h
      obtain ⟨h3, h4⟩ := ih (fun h => h1 (by simp [h])) (fun h => h2 (by simp [h])) h.2
      exact ⟨by rw [h.1, h3], h4⟩

/-- C91.  Plots of different bins are different files. -/
theorem c91_slices_files (channel : List Char) (t u : List (String × Nat)) (hn : t.map (·.1) = u.map (·.1)) (h : sliceSuffix channel t = sliceSuffix channel u) : t = u := by
  unfold sliceSuffix at h
  replace h := List.append_cancel_left h
  rw [List.cons.injEq] at h
  replace h := h.2
  have inj : ∀ i j : Nat, Nat.toDigits 10 i = Nat.toDigits 10 j → i = j := by
    intro i j h
    rw [← Nat.ofDigitChars_ten_toDigits (n := i), h, Nat.ofDigitChars_ten_toDigits]
  induction t generalizing u with
  | nil =>
    cases u with
    | nil => rfl
    | cons b u => simp at hn
  | cons a t ih =>
    cases u with
    | nil => simp at hn
    | cons b u =>
      obtain ⟨n, i⟩ := a
      obtain ⟨m, j⟩ := b
      rw [List.map_cons, List.map_cons, List.cons.injEq] at hn
      obtain ⟨rfl, hn⟩ := hn
      cases t with
      | nil =>
        cases u with
        | cons b u => simp at hn
        | nil =>
          simp at h
          rw [inj i j h]
      | cons a t =>
        cases u with
        | nil => simp at hn
        | cons b u =>
          rw [join_cons, join_cons] at h
          dsimp only at h
          rw [List.append_assoc, List.append_assoc] at h
          have h := List.append_cancel_left h
          rw [List.cons_append, List.cons_append, List.cons.injEq] at h
          obtain ⟨h1, h2⟩ := split_at Nat.underscore_not_in_toDigits Nat.underscore_not_in_toDigits h.2
          rw [inj i j h1, ih (b :: u) hn h2]

/-! ### Panels -/

section
variable [Field V]

theorem sum_scale (l : List V) (s : V) : (l.map (· * s)).sum = l.sum * s := by
  induction l with
  | nil => simp
  | cons x l ih => rw [List.map_cons, List.sum_cons, List.sum_cons, ih]; ring

/-- C91.  Scaled to data, the prediction has the sum of data and is still the sum of the stack in every bin. -/
theorem c91_norm (p : Panel V) (d : List V) (hd : p.data = some d) (hp : p.pred.sum ≠ 0) :
    (normToData p).pred.sum = d.sum ∧ (normToData p).data = some d ∧
    ∀ (i : Nat) x, p.pred[i]? = some x → (p.stack.map fun h => h.getD i 0).sum = x →
      ∃ y, (normToData p).pred[i]? = some y ∧ ((normToData p).stack.map fun h => h.getD i 0).sum = y := by
  unfold normToData
  rw [hd]
  dsimp only
  refine ⟨?_, rfl, fun i x hi hs => ⟨x * (d.sum / p.pred.sum), by rw [List.getElem?_map, hi]; rfl, ?_⟩⟩
  · rw [sum_scale]
    field_simp
  · rw [← hs, ← sum_scale, List.map_map, List.map_map]
    congr 1
    apply List.map_congr_left
    intro h _
    simp only [Function.comp, List.getD_eq_getElem?_getD, List.getElem?_map]
    cases h[i]? <;> simp

/-- C91, violated: the variations are not scaled with it: one that leaves the prediction as it is appears at the ratio of prediction and data. -/
theorem c91_norm_violated (p : Panel V) (d : List V) (hd : p.data = some d) (hv : p.pred ∈ p.up) (hp : p.pred.sum ≠ 0) (hd0 : d.sum ≠ 0) :
    p.pred ∈ (normToData p).up ∧ ∀ (i : Nat) x y, p.pred[i]? = some x → (normToData p).pred[i]? = some y → x ≠ 0 → x / y = p.pred.sum / d.sum := by
  unfold normToData
  rw [hd]
  dsimp only
  refine ⟨hv, fun i x y hx hy h0 => ?_⟩
  rw [List.getElem?_map, hx] at hy
  cases hy
  field_simp

/-- C91.  The uncertainty in the ratio is the prediction up and down by its uncertainty over the denominator, whatever the width of the bin. -/
theorem c91_band (nom std den w : V) (hw : w ≠ 0) : band false nom std den w = ((nom - std) / den, (nom + std) / den) := by
  unfold band
  rw [if_neg (by decide)]
  dsimp only
  rw [← sub_div, ← add_div, div_div_div_cancel_right₀ hw, div_div_div_cancel_right₀ hw]

/-- C91, violated: with differences the band is drawn about the prediction, not about its difference to the denominator, which for the prediction itself is 0. -/
theorem c91_diff_violated (nom std w : V) : (band true nom std nom w).1 + (band true nom std nom w).2 = 2 * (nom / w) ∧
    band true nom std nom w = (nom / w - std / w, nom / w + std / w) := by
  unfold band
  dsimp only
  rw [if_pos rfl, div_one, div_one]
  exact ⟨by ring, rfl⟩

/-- C91.  A variation scaled by a factor differs from the prediction by that factor of what it did, relative to the prediction. -/
theorem c91_scale_partial (s h data pred : V) : scaleVar s h (denominator false data pred) - pred = s * (h - pred) := by
  unfold scaleVar denominator
  simp
  ring

/-- C91, violated: relative to data it is the difference to data that is scaled: a variation that changes nothing is moved away from the prediction. -/
theorem c91_scale_violated (s data pred : V) (hs : s ≠ 1) (hd : data ≠ pred) : scaleVar s pred (denominator true data pred) ≠ pred := by
  unfold scaleVar denominator
  rw [if_pos rfl]
  intro h
  have : (s - 1) * (pred - data) = 0 := by
    have : (pred - data) * s + data - pred = 0 := sub_eq_zero.2 h
    rw [← this]
    ring
  rcases mul_eq_zero.1 this with h | h
  · exact hs (sub_eq_zero.1 h)
  · exact hd (sub_eq_zero.1 h).symm

end

/-- C91, violated: one-sided is asked for by variation, but in the upper panel any such entry, even that of a two-sided variation, hides the down curves of all. -/
theorem c91_sided_violated (oneSided : List Nat) (h : oneSided ≠ []) (h0 : ∀ x ∈ oneSided, x = 0) (i : Nat) : curvesLower oneSided i = 2 ∧ curvesUpper oneSided = 1 := by
  unfold curvesLower curvesUpper
  constructor
  · apply if_neg
    rw [not_not, List.getD_eq_getElem?_getD]
    cases hx : oneSided[i]? with
    | none => rfl
    | some x => exact h0 x (List.mem_of_getElem? hx)
  · apply if_neg
    rwa [List.length_eq_zero_iff]

/-! ### Examples -/

/-- statistics of a fit with all of them -/
def exStored : Spec.Stored Rat := { fit := some (true, 5, 3), pre := some (20, 4), lin := some (11, 4), sat := some (12, 4) }

example : chi2Of (topStats exStored) (instStats exStored) "BaseMapping" false false .automatic = .ok (some 10, some 3, true) := by
  rw [c91_chi2_partial exStored "BaseMapping" false .automatic fun _ _ _ => ⟨5, 3, rfl⟩]
  have : ("BaseMapping" == "BaseMapping") = true := by decide +kernel
  rw [this]
  show Except.ok (some (2 * (5 : Rat)), some (3 : Int), true) = _
  norm_num

example : chi2Of (topStats exStored) (instStats exStored) "Project ch0 x" false true .automatic = .ok (some 20, some 4, false) := by
  rw [c91_chi2_partial exStored "Project ch0 x" true .automatic fun h => absurd h (by decide +kernel)]
  have : ("Project ch0 x" == "BaseMapping") = false := by decide +kernel
  rw [this]
  rfl

example : plotted [("BaseMapping", ["ch0", "ch1"]), ("Project ch0 x", ["ch0"])] (some ["ch0"]) [["BaseMapping"], ["Project", "ch0"]] =
    .ok [("BaseMapping", "ch0"), ("Project ch0 x", "ch0")] := by decide +kernel

/-- a histogram of two axes -/
def exHist : Hist Int := ⟨[("x", ["0", "1"]), ("y", ["0", "1", "2"])], fun ix => (ix.foldl (fun a i => 10 * a + i) 0 : Nat), fun _ => 1⟩

example : (slices ["y"] exHist).map (fun l => l.map fun p => (p.1, p.2.axes, p.2.val [1])) =
    .ok [([("y", 0)], [("x", ["0", "1"])], 10), ([("y", 1)], [("x", ["0", "1"])], 11), ([("y", 2)], [("x", ["0", "1"])], 12)] := by rfl

example : (exHist.axes.map (·.1)).Nodup := by decide +kernel

example : sliceSuffix "ch0".toList [("x", 3), ("y", 12)] = "ch0_x_3_y_12".toList := by decide +kernel

example : fileName false "tag".toList ["x"] (suffixOf "ch0" "Select x:1:112") true = "postfit_tag_x_ch0_Select_x1112_normalized".toList := by decide +kernel

/-- a file with a variation, a group and the prediction of another file -/
def exFile : Dict String (Hist Rat) := [("hist_postfit_inclusive", ⟨[("x", ["0"])], fun _ => 10, fun _ => 4⟩),
  ("hist_prefit_inclusive", ⟨[("x", ["0"])], fun _ => 10, fun _ => 4⟩),
  ("hist_postfit_inclusive_variations", ⟨[("x", ["0"]), ("vars", ["lumi", "jes"]), ("downUpVar", ["0", "1"])], fun ix => (ix.sum : Nat), fun _ => 0⟩),
  ("hist_postfit_inclusive_global_impacts_grouped", ⟨[("x", ["0"]), ("impacts", ["exp"])], fun _ => 3, fun _ => 0⟩)]

example : (variations (fun x => x / 2) exFile false false [exFile] [false] (some ["other", "jes"]) ["exp"]).map
    (fun o => (o.getD []).map fun p => (p.1.val [0], p.2.val [0])) = .ok [(8, 12), (1, 2), (7, 13)] := by decide +kernel

example : normToData (⟨some [6, 6], [[1, 2], [1, 2]], [2, 4], [], [[2, 4]]⟩ : Panel Rat) = ⟨some [6, 6], [[2, 4], [2, 4]], [4, 8], [], [[2, 4]]⟩ := by
  unfold normToData
  simp
  norm_num

example : curvesLower [0, 1] 1 = 1 := by decide

end Verif.HistPlot
