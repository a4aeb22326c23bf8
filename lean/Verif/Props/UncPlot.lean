import Verif.Model.UncPlot
import Verif.Props.HistPlot
import Mathlib.Analysis.SpecialFunctions.Sqrt

/-!
C110: plots of the uncertainties of histograms by source.
-/

namespace Verif.UncPlot

open Verif.IoTools (Hist)
open Verif.HistPlot (takeBins takeBins_ok binTuples mem_binTuples nodup_binTuples mapM_index chosen kept mask Choice pick_eq insertIdx_end get_ok)

/-! ### Specification -/

namespace Spec

/-- the sources of uncertainty to be shown: those that pass the filter and belong to the grouping -/
def wanted (o : Opts) (u : String) : Bool :=
  (match o.filter with | none => true | some f => decide (u ∈ f)) && (match o.grouping with | none => true | some g => decide (u ∈ g))

/-- the total uncertainty is asked for by an entry of the grouping -/
def wantsTotal (o : Opts) : Prop := ∃ g, o.grouping = some g ∧ "Total" ∈ g

/-- what is shown of an uncertainty `u` of a prediction `n`: itself or in percent -/
noncomputable def shown (absolute : Bool) (u n : ℝ) : ℝ := if absolute then u else 100 * (u / n)

/-- number of entries that colours are made for -/
def entries (o : Opts) (us : List String) : Nat := match o.grouping with
  | some g => g.length
  | none => (us.filter (wanted o)).length

end Spec

/-! ### Curves -/

section
variable {V : Type}

theorem lines_ok (grouping : Option (List String)) (A : Dict String (List String)) (us0 : List String) (val var : List Nat → V) (n : Nat) (hA : A ≠ [])
    (hna : "impacts" ∉ A.map (·.1)) (us : List String) (hus : ∀ u ∈ us, u ∈ us0) (icol : Nat) :
    ∃ L, lines grouping (some (⟨A ++ [("impacts", us0)], val, var⟩ : Hist V)) n icol us = .ok L ∧ L.map (·.label) = us.filter (drawn grouping) ∧
      L.map (·.color) = (List.range L.length).map (fun i => (icol + 1 + i) % n) ∧
      ∀ l ∈ L, l.hist.axes = A ∧ ∀ ix, ix.length = A.length → l.hist.val ix = val (ix ++ [us0.idxOf l.label]) := by
  induction us generalizing icol with
  | nil => exact ⟨[], rfl, rfl, rfl, fun l hl => by cases hl⟩
  | cons u us ih =>
    unfold lines
    by_cases hd : drawn grouping u = true
    · rw [if_pos hd]
      obtain ⟨L, h1, h2, h3, h4⟩ := ih (fun x hx => hus x (List.mem_cons_of_mem _ hx)) (icol + 1)
      dsimp only
      rw [h1]
      unfold line
      rw [pick_eq A [] "impacts" us0 val var u hna (hus u (List.mem_cons_self ..))]
      dsimp only [Except.bind]
      rw [if_neg (by
        have := List.length_pos_iff.2 hA
        simp only [List.length_append, List.length_cons, List.length_nil]
        omega)]
      refine ⟨_, rfl, ?_, ?_, ?_⟩
      · rw [List.map_cons, h2, List.filter_cons, if_pos hd]
      · rw [List.map_cons, h3, List.length_cons, List.range_succ_eq_map, List.map_cons, List.map_map]
        congr 1
        apply List.map_congr_left
        intro i _
        show (icol + 1 + 1 + i) % n = (icol + 1 + (i + 1)) % n
        rw [show icol + 1 + 1 + i = icol + 1 + (i + 1) by omega]
      · intro l hl
        rcases List.mem_cons.1 hl with rfl | hl
        · refine ⟨List.append_nil A, fun ix hix => ?_⟩
          show val (ix.insertIdx _ _) = _
          rw [insertIdx_end ix _ hix]
        · exact h4 l hl
    · rw [if_neg hd]
      obtain ⟨L, h1, h2, h3, h4⟩ := ih (fun x hx => hus x (List.mem_cons_of_mem _ hx)) icol
      refine ⟨L, h1, ?_, h3, h4⟩
      rw [h2, List.filter_cons, if_neg hd]

/-- the sources after the filter -/
def passed (o : Opts) (us : List String) : List String := match o.filter with
  | none => us
  | some f => us.filter fun u => decide (u ∈ f)

theorem passed_sub (o : Opts) (us : List String) : ∀ u ∈ passed o us, u ∈ us := by
  intro u hu
  unfold passed at hu
  cases hf : o.filter with
  | none => rw [hf] at hu; exact hu
  | some f => rw [hf] at hu; exact (List.mem_filter.1 hu).1

theorem passed_drawn (o : Opts) (us : List String) : (passed o us).filter (drawn o.grouping) = us.filter (Spec.wanted o) := by
  unfold passed
  cases hf : o.filter with
  | none =>
    apply List.filter_congr
    intro u _
    unfold Spec.wanted drawn
    rw [hf]
    cases o.grouping <;> simp
  | some f =>
    dsimp only
    rw [List.filter_filter]
    apply List.filter_congr
    intro u _
    unfold Spec.wanted drawn
    rw [hf, Bool.and_comm]
    cases o.grouping <;> simp

theorem sources_eq (o : Opts) (A : Dict String (List String)) (us : List String) (val var : List Nat → V) (hna : "impacts" ∉ A.map (·.1)) :
    sources o.filter (some (⟨A ++ [("impacts", us)], val, var⟩ : Hist V)) = .ok (passed o us) := by
  have : Dict.get (A ++ [("impacts", us)]) "impacts" = .ok us := by
    apply get_ok
    induction A with
    | nil => unfold Dict.get?; simp
    | cons a A ih =>
      obtain ⟨k, v⟩ := a
      have hk : ¬ k = "impacts" := fun h => hna (by simp [h])
      rw [List.cons_append]
      unfold Dict.get?
      rw [if_neg hk]
      exact ih fun h => hna (List.mem_cons_of_mem _ h)
  unfold sources stored IoTools.Hist.axis
  dsimp only
  rw [this]
  unfold passed
  cases o.filter <;> rfl

/-! ### Slices -/

/-- the selection without the name of the axis of impacts -/
def proper (selection : List String) : List String := selection.filter fun s => decide (s ≠ "impacts")

theorem proper_iff (selection : List String) (A : Dict String (List String)) (hna : "impacts" ∉ A.map (·.1)) (a : String × List String) (ha : a ∈ A) :
    a.1 ∈ proper selection ↔ a.1 ∈ selection := by
  unfold proper
  rw [List.mem_filter]
  have : a.1 ≠ "impacts" := fun h => hna (List.mem_map.2 ⟨a, ha, h⟩)
  simp [this]

theorem chosen_proper (selection : List String) (A : Dict String (List String)) (hna : "impacts" ∉ A.map (·.1)) :
    chosen (proper selection) A = chosen selection A := by
  apply List.filter_congr
  intro a ha
  exact decide_eq_decide.2 (proper_iff selection A hna a ha)

theorem kept_proper (selection : List String) (A : Dict String (List String)) (hna : "impacts" ∉ A.map (·.1)) :
    kept (proper selection) A = kept selection A := by
  apply List.filter_congr
  intro a ha
  exact decide_eq_decide.2 (not_congr (proper_iff selection A hna a ha))

theorem mask_proper (selection : List String) (A : Dict String (List String)) (hna : "impacts" ∉ A.map (·.1)) :
    mask (proper selection) A = mask selection A := by
  apply List.map_congr_left
  intro a ha
  exact decide_eq_decide.2 (proper_iff selection A hna a ha)

theorem not_proper (selection : List String) : "impacts" ∉ proper selection := by
  unfold proper
  simp

/-- bins of a histogram with a further axis -/
theorem weave_append (A : Dict String (List String)) (selection : List String) (bs os : List Nat) (k : Nat) (hb : bs.length = (chosen selection A).length)
    (ho : os.length = (kept selection A).length) :
    HistPlot.Spec.weave (mask selection A ++ [false]) bs (os ++ [k]) = HistPlot.Spec.weave (mask selection A) bs os ++ [k] := by
  induction A generalizing bs os with
  | nil =>
    obtain rfl := List.length_eq_zero_iff.1 hb
    obtain rfl := List.length_eq_zero_iff.1 ho
    rfl
  | cons a A ih =>
    by_cases ha : a.1 ∈ selection
    · have h1 : chosen selection (a :: A) = a :: chosen selection A := by unfold chosen; rw [List.filter_cons, if_pos (decide_eq_true ha)]
      have h2 : kept selection (a :: A) = kept selection A := by unfold kept; rw [List.filter_cons, if_neg (by simpa using ha)]
      rw [h1] at hb
      rw [h2] at ho
      cases bs with
      | nil => simp at hb
      | cons b bs =>
        have hm : mask selection (a :: A) = true :: mask selection A := by unfold mask; rw [List.map_cons, decide_eq_true ha]
        rw [hm]
        show b :: HistPlot.Spec.weave (mask selection A ++ [false]) bs (os ++ [k]) = b :: (_ ++ [k])
        rw [ih bs os (by simpa using hb) ho]
    · have h1 : chosen selection (a :: A) = chosen selection A := by unfold chosen; rw [List.filter_cons, if_neg (by simpa using ha)]
      have h2 : kept selection (a :: A) = a :: kept selection A := by unfold kept; rw [List.filter_cons, if_pos (by simpa using ha)]
      rw [h1] at hb
      rw [h2] at ho
      cases os with
      | nil => simp at ho
      | cons o os =>
        have hm : mask selection (a :: A) = false :: mask selection A := by unfold mask; rw [List.map_cons, decide_eq_false ha]
        rw [hm]
        show o :: HistPlot.Spec.weave (mask selection A ++ [false]) bs (os ++ [k]) = o :: (_ ++ [k])
        rw [ih bs os hb (by simpa using ho)]

theorem choice_length {A : Dict String (List String)} {t : List (String × Nat)} (h : Choice A t) : (t.map (·.2)).length = A.length := by
  rw [List.length_map]
  exact (List.Forall₂.length_eq h).symm

/-- impacts at a choice of bins -/
theorem impacts_slice (selection : List String) (A : Dict String (List String)) (us : List String) (val var : List Nat → V) (hnd : (A.map (·.1)).Nodup)
    (hna : "impacts" ∉ A.map (·.1)) (t : List (String × Nat)) (ht : Choice (chosen selection A) t) :
    ∃ v w, takeBins t (⟨A ++ [("impacts", us)], val, var⟩ : Hist V) = .ok ⟨kept selection A ++ [("impacts", us)], v, w⟩ ∧
      ∀ os k, os.length = (kept selection A).length → v (os ++ [k]) = val (HistPlot.Spec.weave (mask selection A) (t.map (·.2)) os ++ [k]) := by
  have e1 : chosen (proper selection) (A ++ [("impacts", us)]) = chosen selection A := by
    rw [← chosen_proper selection A hna]
    unfold chosen
    rw [List.filter_append, List.filter_cons, if_neg (by simpa using not_proper selection)]
    simp
  have e2 : kept (proper selection) (A ++ [("impacts", us)]) = kept selection A ++ [("impacts", us)] := by
    rw [← kept_proper selection A hna]
    unfold kept
    rw [List.filter_append, List.filter_cons, if_pos (by simpa using not_proper selection)]
    simp
  have e3 : mask (proper selection) (A ++ [("impacts", us)]) = mask selection A ++ [false] := by
    rw [← mask_proper selection A hna]
    unfold mask
    rw [List.map_append, List.map_cons, decide_eq_false (not_proper selection)]
    rfl
  obtain ⟨g, h1, h2, h3⟩ := takeBins_ok (proper selection) (A ++ [("impacts", us)]) [] val var t (by
    rw [List.nil_append, List.map_append, List.nodup_append]
    refine ⟨hnd, by simp, ?_⟩
    intro a ha b hb
    rw [show b = "impacts" by simpa using hb]
    rintro rfl
    exact hna ha) (by rw [e1]; exact ht)
  obtain ⟨ax, v, w⟩ := g
  rw [List.nil_append, e2] at h2
  dsimp only at h2
  subst h2
  refine ⟨v, w, h1, fun os k hos => ?_⟩
  have := (h3 [] (os ++ [k]) rfl (by rw [e2, List.length_append, List.length_append, hos]; rfl)).1
  rw [List.nil_append, List.nil_append, e3, weave_append A selection _ os k (choice_length ht) hos] at this
  exact this

theorem slice_ok (selection : List String) (grouping : Option (List String)) (A : Dict String (List String)) (us0 us : List String) (val var tv tw : List Nat → V)
    (hnd : (A.map (·.1)).Nodup) (hna : "impacts" ∉ A.map (·.1)) (hk : kept selection A ≠ []) (hus : ∀ u ∈ us, u ∈ us0) (t : List (String × Nat))
    (ht : Choice (chosen selection A) t) :
    ∃ p, slice grouping us (some (⟨A ++ [("impacts", us0)], val, var⟩ : Hist V)) ⟨A, tv, tw⟩ t = .ok p ∧ p.bins = t ∧
      p.lines.map (·.label) = us.filter (drawn grouping) ∧
      p.lines.map (·.color) = (List.range p.lines.length).map (fun i => (i + 1) % colors (ncols grouping us)) ∧
      (∀ l ∈ p.lines, l.hist.axes = kept selection A ∧ ∀ os, os.length = (kept selection A).length →
        l.hist.val os = val (HistPlot.Spec.weave (mask selection A) (t.map (·.2)) os ++ [us0.idxOf l.label])) ∧
      (p.total.isSome ↔ ∃ g, grouping = some g ∧ "Total" ∈ g) ∧
      ∀ h, p.total = some h → h.axes = kept selection A ∧ ∀ os, os.length = (kept selection A).length →
        h.val os = tv (HistPlot.Spec.weave (mask selection A) (t.map (·.2)) os) := by
  obtain ⟨v, w, h1, h2⟩ := impacts_slice selection A us0 val var hnd hna t ht
  obtain ⟨g, g1, g2, g3⟩ := takeBins_ok selection A [] tv tw t hnd ht
  rw [List.nil_append] at g1 g2
  obtain ⟨L, l1, l2, l3, l4⟩ := lines_ok grouping (kept selection A) us0 v w (colors (ncols grouping us)) hk
    (fun h => hna (by
      obtain ⟨a, ha, he⟩ := List.mem_map.1 h
      exact List.mem_map.2 ⟨a, (List.mem_filter.1 ha).1, he⟩)) us hus 0
  have hp : slice grouping us (some (⟨A ++ [("impacts", us0)], val, var⟩ : Hist V)) ⟨A, tv, tw⟩ t = .ok ⟨t, L, totalLine grouping g⟩ := by
    unfold slice takeOpt
    dsimp only
    rw [h1]
    dsimp only [Except.map, Except.bind]
    rw [g1]
    dsimp only
    unfold plot
    rw [l1]
    rfl
  refine ⟨_, hp, rfl, l2, ?_, ?_, ?_, ?_⟩
  · show L.map _ = (List.range L.length).map _
    rw [l3]
    apply List.map_congr_left
    intro i _
    rw [show 0 + 1 + i = i + 1 by omega]
  · intro l hl
    refine ⟨(l4 l hl).1, fun os hos => ?_⟩
    rw [(l4 l hl).2 os hos, h2 os _ hos]
  · show (totalLine grouping g).isSome ↔ _
    unfold totalLine
    cases grouping with
    | none => simp
    | some gr => by_cases hT : "Total" ∈ gr <;> simp [hT]
  · intro h hh
    have : h = g := by
      change totalLine grouping g = some h at hh
      unfold totalLine at hh
      cases grouping with
      | none => cases hh
      | some gr =>
        by_cases hT : "Total" ∈ gr
        · dsimp only at hh
          rw [if_pos hT] at hh
          exact (Option.some.inj hh).symm
        · dsimp only at hh
          rw [if_neg hT] at hh
          cases hh
    subst this
    refine ⟨g2, fun os hos => ?_⟩
    exact (g3 [] os rfl hos).1

/-- all plots, with and without selection axes -/
theorem breakdown_eq [Field V] (sqrt : V → V) (o : Opts) (res : Dict String (Hist V)) (total : Hist V) (us : List String)
    (ht : res.get? "hist_postfit_inclusive" = some total) (hs : sources o.filter (res.get? (impactsName o.gaussian)) = .ok us) :
    breakdown sqrt o res = (binTuples ((chosen o.selection total.axes).map fun a => (a.1, a.2.length))).mapM
      (slice o.grouping us ((res.get? (impactsName o.gaussian)).map fun h => impactsOf o.absolute h total) (totalOf sqrt o.absolute total)) := by
  unfold breakdown
  dsimp only
  rw [get_ok ht]
  dsimp only [Except.bind]
  rw [hs]
  dsimp only
  by_cases h0 : chosen o.selection total.axes = []
  · rw [show (total.axes.filter fun a => decide (a.1 ∈ o.selection)) = [] from h0, if_pos rfl, h0]
    show _ = List.mapM _ [[]]
    rw [List.mapM_cons, List.mapM_nil]
    have : slice o.grouping us ((res.get? (impactsName o.gaussian)).map fun h => impactsOf o.absolute h total) (totalOf sqrt o.absolute total) [] =
        plot o.grouping us [] ((res.get? (impactsName o.gaussian)).map fun h => impactsOf o.absolute h total) (totalOf sqrt o.absolute total) := by
      unfold slice
      cases (res.get? (impactsName o.gaussian)).map fun h => impactsOf o.absolute h total <;> rfl
    rw [this]
    cases plot o.grouping us [] ((res.get? (impactsName o.gaussian)).map fun h => impactsOf o.absolute h total) (totalOf sqrt o.absolute total) <;> rfl
  · rw [if_neg (show ¬ (total.axes.filter fun a => decide (a.1 ∈ o.selection)) = [] from h0)]
    rfl

theorem mapM_bins {f : List (String × Nat) → Res (Plot V)} (P : List (String × Nat) → Plot V → Prop) (l : List (List (String × Nat)))
    (h : ∀ t ∈ l, ∃ p, f t = .ok p ∧ p.bins = t ∧ P t p) : ∃ L, l.mapM f = .ok L ∧ L.map (·.bins) = l ∧ ∀ p ∈ L, P p.bins p := by
  obtain ⟨L, h1, h2, h3⟩ := mapM_index f (fun t p => p.bins = t ∧ P t p) l h
  refine ⟨L, h1, ?_, ?_⟩
  · apply List.ext_getElem?
    intro i
    rw [List.getElem?_map]
    cases hx : l[i]? with
    | none =>
      rw [List.getElem?_eq_none_iff] at hx
      rw [List.getElem?_eq_none (by omega)]
      rfl
    | some t =>
      obtain ⟨p, hp, h4, -⟩ := h3 i t hx
      rw [hp]
      exact congrArg some h4
  · intro p hp
    obtain ⟨i, hi⟩ := List.getElem?_of_mem hp
    obtain ⟨t, ht⟩ : ∃ t, l[i]? = some t := ⟨_, List.getElem?_eq_getElem (by rw [← h2]; exact (List.getElem?_eq_some_iff.1 hi).1)⟩
    obtain ⟨q, hq, h4, h5⟩ := h3 i t ht
    rw [hi] at hq
    cases hq
    rw [h4]
    exact h5

end

/-! ### What is shown -/

/-- bins of the whole histogram have one number for every axis -/
theorem weave_length (A : Dict String (List String)) (selection : List String) (bs os : List Nat) (hb : bs.length = (chosen selection A).length)
    (ho : os.length = (kept selection A).length) : (HistPlot.Spec.weave (mask selection A) bs os).length = A.length := by
  induction A generalizing bs os with
  | nil =>
    obtain rfl := List.length_eq_zero_iff.1 hb
    obtain rfl := List.length_eq_zero_iff.1 ho
    rfl
  | cons a A ih =>
    by_cases ha : a.1 ∈ selection
    · have h1 : chosen selection (a :: A) = a :: chosen selection A := by unfold chosen; rw [List.filter_cons, if_pos (decide_eq_true ha)]
      have h2 : kept selection (a :: A) = kept selection A := by unfold kept; rw [List.filter_cons, if_neg (by simpa using ha)]
      rw [h1] at hb
      rw [h2] at ho
      cases bs with
      | nil => simp at hb
      | cons b bs =>
        have hm : mask selection (a :: A) = true :: mask selection A := by unfold mask; rw [List.map_cons, decide_eq_true ha]
        rw [hm]
        show (b :: HistPlot.Spec.weave (mask selection A) bs os).length = _
        rw [List.length_cons, ih bs os (by simpa using hb) ho, List.length_cons]
    · have h1 : chosen selection (a :: A) = chosen selection A := by unfold chosen; rw [List.filter_cons, if_neg (by simpa using ha)]
      have h2 : kept selection (a :: A) = a :: kept selection A := by unfold kept; rw [List.filter_cons, if_pos (by simpa using ha)]
      rw [h1] at hb
      rw [h2] at ho
      cases os with
      | nil => simp at ho
      | cons o os =>
        have hm : mask selection (a :: A) = false :: mask selection A := by unfold mask; rw [List.map_cons, decide_eq_false ha]
        rw [hm]
        show (o :: HistPlot.Spec.weave (mask selection A) bs os).length = _
        rw [List.length_cons, ih bs os hb (by simpa using ho), List.length_cons]

theorem impactsOf_eq (absolute : Bool) (total : Hist ℝ) (B : Dict String (List String)) (val var : List Nat → ℝ) :
    ∃ v w, impactsOf absolute ⟨B, val, var⟩ total = ⟨B, v, w⟩ ∧
      ∀ ix, v ix = Spec.shown absolute (val ix) (total.val (ix.take total.axes.length)) := by
  cases absolute
  · refine ⟨_, _, rfl, fun ix => ?_⟩
    show val ix / total.val (ix.take total.axes.length) * 100 = 100 * (val ix / _)
    ring
  · exact ⟨_, _, rfl, fun ix => rfl⟩

theorem totalOf_eq (absolute : Bool) (total : Hist ℝ) :
    ∃ v w, totalOf Real.sqrt absolute total = ⟨total.axes, v, w⟩ ∧
      ∀ ix, ix.length = total.axes.length → v ix = Spec.shown absolute (√(total.var ix)) |total.val ix| := by
  cases absolute
  · refine ⟨_, _, rfl, fun ix hix => ?_⟩
    show √(total.var ix / total.val (ix.take total.axes.length) ^ 2) * 100 = 100 * (√(total.var ix) / |total.val ix|)
    rw [← hix, List.take_length, Real.sqrt_div' _ (sq_nonneg _), Real.sqrt_sq_eq_abs]
    ring
  · exact ⟨_, _, rfl, fun ix _ => rfl⟩

/-- C110.  There is one plot for every choice of bins of the selection axes.  It has a curve for every source that passes the filter and the grouping, in the
order of the file and under its name: its impact in the bins of the plot, as it is or in percent of the prediction.  The total uncertainty is shown if the
grouping names it: the standard deviation of the prediction, as it is or in percent.  (In percent, in bins with a prediction; an axis must be left to draw.) -/
theorem c110_breakdown_partial (o : Opts) (res : Dict String (Hist ℝ)) (total : Hist ℝ) (us : List String) (val var : List Nat → ℝ)
    (ht : res.get? "hist_postfit_inclusive" = some total)
    (hi : res.get? (impactsName o.gaussian) = some ⟨total.axes ++ [("impacts", us)], val, var⟩)
    (hnd : (total.axes.map (·.1)).Nodup) (hna : "impacts" ∉ total.axes.map (·.1)) (hk : kept o.selection total.axes ≠ []) :
    ∃ L, breakdown Real.sqrt o res = .ok L ∧ (L.map (·.bins)).Nodup ∧ (∀ t, t ∈ L.map (·.bins) ↔ Choice (chosen o.selection total.axes) t) ∧
      ∀ p ∈ L, p.lines.map (·.label) = us.filter (Spec.wanted o) ∧
        (∀ l ∈ p.lines, l.hist.axes = kept o.selection total.axes ∧ ∀ os, os.length = (kept o.selection total.axes).length →
          let ix := HistPlot.Spec.weave (mask o.selection total.axes) (p.bins.map (·.2)) os
          (o.absolute = false → total.val ix ≠ 0) → l.hist.val os = Spec.shown o.absolute (val (ix ++ [us.idxOf l.label])) (total.val ix)) ∧
        (p.total.isSome ↔ Spec.wantsTotal o) ∧
        ∀ h, p.total = some h → h.axes = kept o.selection total.axes ∧ ∀ os, os.length = (kept o.selection total.axes).length →
          let ix := HistPlot.Spec.weave (mask o.selection total.axes) (p.bins.map (·.2)) os
          (o.absolute = false → total.val ix ≠ 0) → h.val os = Spec.shown o.absolute (√(total.var ix)) |total.val ix| := by
  rw [breakdown_eq Real.sqrt o res total (passed o us) ht (by rw [hi]; exact sources_eq o total.axes us val var hna), hi]
  obtain ⟨v, w, e1, e2⟩ := impactsOf_eq o.absolute total (total.axes ++ [("impacts", us)]) val var
  obtain ⟨tv, tw, f1, f2⟩ := totalOf_eq o.absolute total
  rw [Option.map_some, e1, f1]
  obtain ⟨L, h1, h2, h3⟩ := mapM_bins _ (binTuples ((chosen o.selection total.axes).map fun a => (a.1, a.2.length))) fun t htm =>
    slice_ok o.selection o.grouping total.axes us (passed o us) v w tv tw hnd hna hk (passed_sub o us) t ((mem_binTuples _ _).1 htm)
  have hbins : ∀ p ∈ L, Choice (chosen o.selection total.axes) p.bins := by
    intro p hp
    rw [← mem_binTuples, ← h2]
    exact List.mem_map.2 ⟨p, hp, rfl⟩
  refine ⟨L, h1, by rw [h2]; exact nodup_binTuples _, fun t => by rw [h2, mem_binTuples], fun p hp => ?_⟩
  obtain ⟨a1, -, a3, a4, a5⟩ := h3 p hp
  have hl : ∀ os, os.length = (kept o.selection total.axes).length →
      (HistPlot.Spec.weave (mask o.selection total.axes) (p.bins.map (·.2)) os).length = total.axes.length :=
    fun os hos => weave_length _ _ _ _ (choice_length (hbins p hp)) hos
  refine ⟨by rw [a1, passed_drawn], fun l hlm => ⟨(a3 l hlm).1, fun os hos _ => ?_⟩, a4, fun h hh => ⟨(a5 h hh).1, fun os hos _ => ?_⟩⟩
  · rw [(a3 l hlm).2 os hos, e2, ← hl os hos, List.take_left]
  · rw [(a5 h hh).2 os hos, f2 _ (hl os hos)]

/-- C110.  In percent or not, where the prediction is positive, a curve stands to that of the total as the impact to the standard deviation of the prediction. -/
theorem c110_share (o : Opts) (res : Dict String (Hist ℝ)) (total : Hist ℝ) (us : List String) (val var : List Nat → ℝ)
    (ht : res.get? "hist_postfit_inclusive" = some total)
    (hi : res.get? (impactsName o.gaussian) = some ⟨total.axes ++ [("impacts", us)], val, var⟩)
    (hnd : (total.axes.map (·.1)).Nodup) (hna : "impacts" ∉ total.axes.map (·.1)) (hk : kept o.selection total.axes ≠ []) (L : List (Plot ℝ))
    (hL : breakdown Real.sqrt o res = .ok L) (p : Plot ℝ) (hp : p ∈ L) (l : Line ℝ) (hl : l ∈ p.lines) (h : Hist ℝ) (hh : p.total = some h) (os : List Nat)
    (hos : os.length = (kept o.selection total.axes).length)
    (hpos : 0 < total.val (HistPlot.Spec.weave (mask o.selection total.axes) (p.bins.map (·.2)) os)) :
    l.hist.val os / h.val os = val (HistPlot.Spec.weave (mask o.selection total.axes) (p.bins.map (·.2)) os ++ [us.idxOf l.label]) /
      √(total.var (HistPlot.Spec.weave (mask o.selection total.axes) (p.bins.map (·.2)) os)) := by
  obtain ⟨L', h1, -, -, h4⟩ := c110_breakdown_partial o res total us val var ht hi hnd hna hk
  rw [hL] at h1
  cases h1
  obtain ⟨-, h5, -, h6⟩ := h4 p hp
  rw [(h5 l hl).2 os hos fun _ => hpos.ne', (h6 h hh).2 os hos fun _ => hpos.ne', abs_of_pos hpos]
  generalize val _ = u
  generalize √(total.var _) = s
  revert hpos
  generalize total.val _ = n
  intro hpos
  unfold Spec.shown
  cases o.absolute
  · by_cases hs : s = 0
    · subst hs; simp
    · simp only [Bool.false_eq_true, if_false]
      field_simp
  · rfl

/-! ### Colours -/

theorem colors_nodup (k n : Nat) (h : k ≤ colors n) : ((List.range k).map fun i => (i + 1) % colors n).Nodup := by
  refine List.Nodup.map_on ?_ List.nodup_range
  intro i hi j hj hij
  rw [List.mem_range] at hi hj
  have hc : 0 < colors n := by unfold colors; split <;> omega
  rcases Nat.lt_or_ge (i + 1) (colors n) with h1 | h1 <;> rcases Nat.lt_or_ge (j + 1) (colors n) with h2 | h2
  · rw [Nat.mod_eq_of_lt h1, Nat.mod_eq_of_lt h2] at hij
    omega
  · rw [Nat.mod_eq_of_lt h1, show j + 1 = colors n by omega, Nat.mod_self] at hij
    omega
  · rw [Nat.mod_eq_of_lt h2, show i + 1 = colors n by omega, Nat.mod_self] at hij
    omega
  · omega

/-- C110.  Up to twenty entries are shown in different colours. -/
theorem c110_colours_partial (o : Opts) (res : Dict String (Hist ℝ)) (total : Hist ℝ) (us : List String) (val var : List Nat → ℝ)
    (ht : res.get? "hist_postfit_inclusive" = some total)
    (hi : res.get? (impactsName o.gaussian) = some ⟨total.axes ++ [("impacts", us)], val, var⟩)
    (hnd : (total.axes.map (·.1)).Nodup) (hna : "impacts" ∉ total.axes.map (·.1)) (hk : kept o.selection total.axes ≠ []) (hus : us.Nodup)
    (h20 : Spec.entries o us ≤ 20) (L : List (Plot ℝ)) (hL : breakdown Real.sqrt o res = .ok L) (p : Plot ℝ) (hp : p ∈ L) : (p.lines.map (·.color)).Nodup := by
  rw [breakdown_eq Real.sqrt o res total (passed o us) ht (by rw [hi]; exact sources_eq o total.axes us val var hna), hi] at hL
  obtain ⟨v, w, e1, e2⟩ := impactsOf_eq o.absolute total (total.axes ++ [("impacts", us)]) val var
  obtain ⟨tv, tw, f1, f2⟩ := totalOf_eq o.absolute total
  rw [Option.map_some, e1, f1] at hL
  obtain ⟨L', h1, -, h3⟩ := mapM_bins _ (binTuples ((chosen o.selection total.axes).map fun a => (a.1, a.2.length))) fun t htm =>
    slice_ok o.selection o.grouping total.axes us (passed o us) v w tv tw hnd hna hk (passed_sub o us) t ((mem_binTuples _ _).1 htm)
  rw [hL] at h1
  cases h1
  obtain ⟨a1, a2, -⟩ := h3 p hp
  rw [a2]
  apply colors_nodup
  have hlen : p.lines.length = (us.filter (Spec.wanted o)).length := by rw [← passed_drawn, ← a1, List.length_map]
  have hle : p.lines.length ≤ ncols o.grouping (passed o us) ∧ ncols o.grouping (passed o us) ≤ 20 := by
    rw [hlen]
    unfold ncols
    unfold Spec.entries at h20
    cases hg : o.grouping with
    | none =>
      rw [hg] at h20
      have : us.filter (Spec.wanted o) = passed o us := by
        rw [← passed_drawn]
        apply List.filter_eq_self.2
        intro u _
        rw [hg]
        rfl
      dsimp only at h20 ⊢
      rw [this] at h20 ⊢
      exact ⟨le_refl _, h20⟩
    | some g =>
      rw [hg] at h20
      refine ⟨?_, h20⟩
      refine (List.Nodup.filter _ hus).subperm (l₂ := g) ?_ |>.length_le
      intro u hu
      have := (List.mem_filter.1 hu).2
      unfold Spec.wanted at this
      rw [hg] at this
      simp only [Bool.and_eq_true, decide_eq_true_eq] at this
      exact this.2
  unfold colors
  split <;> omega

/-- C110, violated: with more entries two sources have the same colour. -/
theorem c110_colours_violated (o : Opts) (res : Dict String (Hist ℝ)) (total : Hist ℝ) (us : List String) (val var : List Nat → ℝ)
    (ht : res.get? "hist_postfit_inclusive" = some total)
    (hi : res.get? (impactsName o.gaussian) = some ⟨total.axes ++ [("impacts", us)], val, var⟩)
    (hnd : (total.axes.map (·.1)).Nodup) (hna : "impacts" ∉ total.axes.map (·.1)) (hk : kept o.selection total.axes ≠ [])
    (h20 : 20 < (us.filter (Spec.wanted o)).length) (L : List (Plot ℝ)) (hL : breakdown Real.sqrt o res = .ok L) (p : Plot ℝ) (hp : p ∈ L) :
    ¬ (p.lines.map (·.color)).Nodup := by
  rw [breakdown_eq Real.sqrt o res total (passed o us) ht (by rw [hi]; exact sources_eq o total.axes us val var hna), hi] at hL
  obtain ⟨v, w, e1, e2⟩ := impactsOf_eq o.absolute total (total.axes ++ [("impacts", us)]) val var
  obtain ⟨tv, tw, f1, f2⟩ := totalOf_eq o.absolute total
  rw [Option.map_some, e1, f1] at hL
  obtain ⟨L', h1, -, h3⟩ := mapM_bins _ (binTuples ((chosen o.selection total.axes).map fun a => (a.1, a.2.length))) fun t htm =>
    slice_ok o.selection o.grouping total.axes us (passed o us) v w tv tw hnd hna hk (passed_sub o us) t ((mem_binTuples _ _).1 htm)
  rw [hL] at h1
  cases h1
  obtain ⟨a1, a2, -⟩ := h3 p hp
  have hlen : p.lines.length = (us.filter (Spec.wanted o)).length := by rw [← passed_drawn, ← a1, List.length_map]
  rw [a2]
  intro hn
  have hsub : ((List.range p.lines.length).map fun i => (i + 1) % colors (ncols o.grouping (passed o us))) ⊆ List.range 20 := by
    intro x hx
    obtain ⟨i, -, rfl⟩ := List.mem_map.1 hx
    rw [List.mem_range]
    have : colors (ncols o.grouping (passed o us)) ≤ 20 ∧ 0 < colors (ncols o.grouping (passed o us)) := by unfold colors; split <;> omega
    exact lt_of_lt_of_le (Nat.mod_lt _ this.2) this.1
  have := (hn.subperm hsub).length_le
  rw [List.length_map, List.length_range, List.length_range] at this
  omega

/-! ### What is missing -/

theorem slice_none {V : Type} (grouping : Option (List String)) (A : Dict String (List String)) (tv tw : List Nat → V) (selection : List String)
    (hnd : (A.map (·.1)).Nodup) (t : List (String × Nat)) (ht : Choice (chosen selection A) t) :
    ∃ p, slice grouping [] none (⟨A, tv, tw⟩ : Hist V) t = .ok p ∧ p.bins = t ∧ p.lines = [] := by
  obtain ⟨g, g1, -⟩ := takeBins_ok selection A [] tv tw t hnd ht
  rw [List.nil_append] at g1
  refine ⟨⟨t, [], totalLine grouping g⟩, ?_, rfl, rfl⟩
  unfold slice takeOpt
  dsimp only [Except.bind]
  rw [g1]
  rfl

/-- C110, violated: if the impacts asked for are not in the file, this is not reported: all plots are made, without any curve of a source. -/
theorem c110_missing_violated (o : Opts) (res : Dict String (Hist ℝ)) (total : Hist ℝ) (ht : res.get? "hist_postfit_inclusive" = some total)
    (hi : res.get? (impactsName o.gaussian) = none) (hnd : (total.axes.map (·.1)).Nodup) :
    ∃ L, breakdown Real.sqrt o res = .ok L ∧ (∀ t, t ∈ L.map (·.bins) ↔ Choice (chosen o.selection total.axes) t) ∧ ∀ p ∈ L, p.lines = [] := by
  have hs : sources o.filter (none : Option (Hist ℝ)) = .ok [] := by
    unfold sources stored
    cases o.filter <;> rfl
  rw [breakdown_eq Real.sqrt o res total [] ht (by rw [hi]; exact hs), hi]
  obtain ⟨tv, tw, f1, f2⟩ := totalOf_eq o.absolute total
  rw [Option.map_none, f1]
  obtain ⟨L, h1, h2, h3⟩ := mapM_bins _ (binTuples ((chosen o.selection total.axes).map fun a => (a.1, a.2.length))) fun t htm =>
    slice_none o.grouping total.axes tv tw o.selection hnd t ((mem_binTuples _ _).1 htm)
  exact ⟨L, h1, fun t => by rw [h2, mem_binTuples], h3⟩

theorem slice_total {V : Type} (grouping : Option (List String)) (us : List String) (h : Option (Hist V)) (total : Hist V) (t : List (String × Nat)) (p : Plot V)
    (hp : slice grouping us h total t = .ok p) : ∃ g, p.total = totalLine grouping g := by
  unfold slice at hp
  cases h1 : takeOpt t h with
  | error e => rw [h1] at hp; cases hp
  | ok h' =>
    rw [h1] at hp
    dsimp only [Except.bind] at hp
    cases h2 : takeBins t total with
    | error e => rw [h2] at hp; cases hp
    | ok g =>
      rw [h2] at hp
      dsimp only at hp
      unfold plot at hp
      cases h3 : lines grouping h' (colors (ncols grouping us)) 0 us with
      | error e => rw [h3] at hp; cases hp
      | ok L =>
        rw [h3] at hp
        cases hp
        exact ⟨g, rfl⟩

theorem mapM_mem {α β : Type} (f : α → Res β) (l : List α) (L : List β) (h : l.mapM f = .ok L) : ∀ y ∈ L, ∃ x ∈ l, f x = .ok y := by
  induction l generalizing L with
  | nil => cases h; intro y hy; cases hy
  | cons x l ih =>
    rw [List.mapM_cons] at h
    cases hx : f x with
    | error e => rw [hx] at h; cases h
    | ok y =>
      rw [hx] at h
      cases hl : l.mapM f with
      | error e => rw [hl] at h; cases h
      | ok M =>
        rw [hl] at h
        cases h
        intro z hz
        rcases List.mem_cons.1 hz with rfl | hz
        · exact ⟨x, List.mem_cons_self .., hx⟩
        · obtain ⟨x', h1, h2⟩ := ih M hl z hz
          exact ⟨x', List.mem_cons_of_mem _ h1, h2⟩

theorem mapM_all {α β : Type} (f : α → Res β) (l : List α) (L : List β) (h : l.mapM f = .ok L) : ∀ x ∈ l, ∃ y, f x = .ok y := by
  induction l generalizing L with
  | nil => intro x hx; cases hx
  | cons x l ih =>
    rw [List.mapM_cons] at h
    cases hx : f x with
    | error e => rw [hx] at h; cases h
    | ok y =>
      rw [hx] at h
      cases hl : l.mapM f with
      | error e => rw [hl] at h; cases h
      | ok M =>
        intro z hz
        rcases List.mem_cons.1 hz with rfl | hz
        · exact ⟨y, hx⟩
        · exact ih M hl z hz

/-- C110, violated: without a grouping of the configuration the total uncertainty is never shown; with one that names it, it is shown even if it was
declined (`--noUncertainty` is read nowhere). -/
theorem c110_total_violated (o : Opts) (res : Dict String (Hist ℝ)) (L : List (Plot ℝ)) (hL : breakdown Real.sqrt o res = .ok L) :
    (o.grouping = none → ∀ p ∈ L, p.total = none) ∧ breakdown Real.sqrt { o with noUncertainty := !o.noUncertainty } res = .ok L ∧
      (∀ g, o.grouping = some g → "Total" ∈ g → ∀ p ∈ L, p.total.isSome) := by
  have key : ∀ p ∈ L, ∃ g, p.total = totalLine o.grouping g := by
    cases ht : res.get? "hist_postfit_inclusive" with
    | none =>
      unfold breakdown Dict.get at hL
      rw [ht] at hL
      cases hL
    | some total =>
      cases hs : sources o.filter (res.get? (impactsName o.gaussian)) with
      | error e =>
        unfold breakdown at hL
        rw [get_ok ht] at hL
        dsimp only [Except.bind] at hL
        rw [hs] at hL
        cases hL
      | ok us =>
        rw [breakdown_eq Real.sqrt o res total us ht hs] at hL
        intro p hp
        obtain ⟨t, -, h⟩ := mapM_mem _ _ _ hL p hp
        exact slice_total _ _ _ _ _ _ h
  refine ⟨fun hg p hp => ?_, hL, fun g hg hT p hp => ?_⟩
  · obtain ⟨x, hx⟩ := key p hp
    rw [hx, hg]
    rfl
  · obtain ⟨x, hx⟩ := key p hp
    rw [hx, hg]
    unfold totalLine
    dsimp only
    rw [if_pos hT]
    rfl

/-- C110, violated: the plots of both definitions of impacts are the same files. -/
theorem c110_file_violated (o : Opts) (invert : Bool) (tag : List Char) (axes : List String) (suffix : List Char) :
    fileName { o with gaussian := true } invert tag axes suffix = fileName { o with gaussian := false } invert tag axes suffix ∧
      impactsName true ≠ impactsName false := ⟨rfl, by decide +kernel⟩

/-- C110.  Absolute and relative uncertainties are different files. -/
theorem c110_files (o : Opts) (invert : Bool) (tag : List Char) (axes : List String) (suffix : List Char) :
    fileName { o with absolute := true } invert tag axes suffix ≠ fileName { o with absolute := false } invert tag axes suffix := by
  unfold fileName
  dsimp only
  rw [if_pos rfl, if_neg (show ¬ false = true by decide), List.append_nil]
  intro h
  have := congrArg List.length h
  rw [List.length_append, show ("_absolute".toList).length = 9 by decide +kernel] at this
  omega

/-- C110, violated: with all axes of the histogram among the selection axes (the charge alone, say) nothing is drawn: the run fails at the first source. -/
theorem c110_selected_violated (o : Opts) (res : Dict String (Hist ℝ)) (total : Hist ℝ) (us : List String) (val var : List Nat → ℝ)
    (ht : res.get? "hist_postfit_inclusive" = some total)
    (hi : res.get? (impactsName o.gaussian) = some ⟨total.axes ++ [("impacts", us)], val, var⟩)
    (hnd : (total.axes.map (·.1)).Nodup) (hna : "impacts" ∉ total.axes.map (·.1)) (hk : kept o.selection total.axes = [])
    (t : List (String × Nat)) (htc : Choice (chosen o.selection total.axes) t) (u : String) (hu : u ∈ us) (hw : Spec.wanted o u = true) (L : List (Plot ℝ)) :
    breakdown Real.sqrt o res ≠ .ok L := by
  intro hL
  rw [breakdown_eq Real.sqrt o res total (passed o us) ht (by rw [hi]; exact sources_eq o total.axes us val var hna), hi] at hL
  obtain ⟨v, w, e1, e2⟩ := impactsOf_eq o.absolute total (total.axes ++ [("impacts", us)]) val var
  rw [Option.map_some, e1] at hL
  obtain ⟨p, hp⟩ := mapM_all _ _ _ hL t ((mem_binTuples _ _).2 htc)
  obtain ⟨v', w', h1, -⟩ := impacts_slice o.selection total.axes us v w hnd hna t htc
  unfold slice takeOpt at hp
  dsimp only at hp
  rw [h1, hk] at hp
  dsimp only [Except.map, Except.bind] at hp
  cases h2 : takeBins t (totalOf Real.sqrt o.absolute total) with
  | error e => rw [h2] at hp; cases hp
  | ok g =>
    rw [h2] at hp
    dsimp only at hp
    unfold plot at hp
    have key : ∀ (n icol : Nat) (l : List String) (M : List (Line ℝ)), u ∈ l → drawn o.grouping u = true →
        lines o.grouping (some (⟨[] ++ [("impacts", us)], v', w'⟩ : Hist ℝ)) n icol l ≠ .ok M := by
      intro n icol l M hul hd
      induction l generalizing icol M with
      | nil => cases hul
      | cons x l ih =>
        unfold lines
        by_cases hx : drawn o.grouping x = true
        · rw [if_pos hx]
          dsimp only
          unfold line
          cases IoTools.Hist.pick (⟨[] ++ [("impacts", us)], v', w'⟩ : Hist ℝ) "impacts" x with
          | error e => intro h; cases h
          | ok y =>
            dsimp only [Except.bind]
            rw [if_pos (by rfl)]
            intro h
            cases h
        · rw [if_neg hx]
          rcases List.mem_cons.1 hul with rfl | hul
          · exact absurd hd hx
          · exact ih icol M hul
    have hmem : u ∈ (passed o us).filter (drawn o.grouping) := by
      rw [passed_drawn]
      exact List.mem_filter.2 ⟨hu, hw⟩
    cases h3 : lines o.grouping (some (⟨[] ++ [("impacts", us)], v', w'⟩ : Hist ℝ)) (colors (ncols o.grouping (passed o us))) 0 (passed o us) with
    | error e => rw [h3] at hp; cases hp
    | ok M => exact key _ _ _ M (List.mem_filter.1 hmem).1 (List.mem_filter.1 hmem).2 h3

/-! ### What a run of the fit stores -/

/-- C110.  A fit run with the option for these impacts is asked to store them together with the prediction, which then has its variances. -/
theorem c110_stored (o : RunOutput.Opts) (e : RunOutput.Env) (maps : List RunOutput.MapInfo) (data gaussian : Bool) (x : RunOutput.Out)
    (h : RunOutput.Spec.Asked o e maps data x) (hc : x.channel.isSome) (hx : x.key = impactsName gaussian) :
    (if gaussian then o.computeHistGaussianImpacts else o.computeHistImpacts) = true ∧
      RunOutput.Spec.Asked o e maps data ⟨x.mapping, x.channel, "hist_postfit_inclusive", .hist true⟩ := by
  cases h with
  | observed hs hm hd hcm hn =>
    exfalso
    dsimp only at hx
    rcases hn with rfl | rfl | ⟨-, rfl⟩ | ⟨-, rfl⟩ <;> revert hx <;> cases gaussian <;> decide +kernel
  | @inclusive m c b prefit hm hi hcm => exfalso; dsimp only at hx; revert hx; cases gaussian <;> cases prefit <;> decide +kernel
  | @impacts m c n b prefit hm hi hcm ho hn =>
    dsimp only at hx
    have hp : prefit = false ∧ gaussian = false := by
      rcases hn with rfl | rfl <;> revert hx <;> cases gaussian <;> cases prefit <;> decide +kernel
    obtain ⟨rfl, rfl⟩ := hp
    refine ⟨ho, ?_⟩
    have := RunOutput.Spec.Asked.inclusive (o := o) (e := e) (maps := maps) (data := data) hm hi hcm
    rw [show RunOutput.Spec.withVariance o = true by unfold RunOutput.Spec.withVariance; simp [ho]] at this
    exact this
  | @gaussianImpacts m c n b prefit hm hi hcm ho hn =>
    dsimp only at hx
    have hp : prefit = false ∧ gaussian = true := by
      rcases hn with rfl | rfl <;> revert hx <;> cases gaussian <;> cases prefit <;> decide +kernel
    obtain ⟨rfl, rfl⟩ := hp
    refine ⟨ho, ?_⟩
    have := RunOutput.Spec.Asked.inclusive (o := o) (e := e) (maps := maps) (data := data) hm hi hcm
    rw [show RunOutput.Spec.withVariance o = true by unfold RunOutput.Spec.withVariance; simp [ho]] at this
    exact this
  | @process m c b prefit hm ho hi hcm => exfalso; dsimp only at hx; revert hx; cases gaussian <;> cases prefit <;> decide +kernel
  | @variations m c b prefit hm ho hcm => exfalso; dsimp only at hx; revert hx; cases gaussian <;> cases prefit <;> decide +kernel
  | _ => cases hc

/-! ### Examples -/

namespace Ex

/-- two axes and two sources -/
def axes : Dict String (List String) := [("x", ["0", "1", "2"]), ("charge", ["-1", "1"])]

def us : List String := ["stat", "lumi", "jes"]

/-- predictions and their variances -/
def total (V : Type) [Field V] : Hist V := ⟨axes, fun ix => 10 * (1 + ix.sum : Nat), fun ix => (4 + ix.sum : Nat)⟩

/-- impacts -/
def imp (V : Type) [Field V] : Hist V := ⟨axes ++ [("impacts", us)], fun ix => (ix.sum : Nat), fun _ => 0⟩

def res (V : Type) [Field V] : Dict String (Hist V) := [("hist_postfit_inclusive", total V), (impactsName false, imp V)]

/-- one source is filtered out, the total is asked for -/
def opts : Opts := { filter := some ["stat", "jes"], grouping := some ["Total", "jes", "stat", "lumi"] }

example : (res ℝ).get? "hist_postfit_inclusive" = some (total ℝ) ∧ (res ℝ).get? (impactsName opts.gaussian) = some ⟨(total ℝ).axes ++ [("impacts", us)], (imp ℝ).val, (imp ℝ).var⟩ ∧
    ((total ℝ).axes.map (·.1)).Nodup ∧ "impacts" ∉ (total ℝ).axes.map (·.1) ∧ kept opts.selection (total ℝ).axes ≠ [] ∧ us.Nodup ∧ Spec.entries opts us ≤ 20 := by
  refine ⟨?_, ?_, by show (axes.map (·.1)).Nodup; decide +kernel, by show "impacts" ∉ axes.map (·.1); decide +kernel,
    by show kept opts.selection axes ≠ []; decide +kernel, by decide +kernel, by decide +kernel⟩
  · unfold res Dict.get?
    rw [if_pos rfl]
  · unfold res Dict.get?
    rw [if_neg (by decide +kernel)]
    unfold Dict.get?
    rw [if_pos (by decide +kernel)]
    rfl

example : (breakdown (fun x : Rat => x) opts (res Rat)).toOption.map (fun L => L.map fun p =>
    p.lines.map fun l => (l.label, l.color, l.hist.val [2])) =
    some [[("stat", 1, 20 / 3), ("jes", 2, 40 / 3)], [("stat", 1, 30 / 4), ("jes", 2, 50 / 4)]] := by decide +kernel

example : (breakdown (fun x : Rat => x) opts (res Rat)).toOption.map (fun L => L.map (·.bins)) = some [[("charge", 0)], [("charge", 1)]] := by decide +kernel

example : (breakdown (fun x : Rat => x) opts (res Rat)).toOption.map (fun L => L.map fun p => (p.total.map fun h => h.val [2]).getD 0) = some [2 / 3, 7 / 16] := by
  decide +kernel

example : (breakdown (fun x : Rat => x) { absolute := true, selection := [] } (res Rat)).toOption.map (fun L => L.map fun p =>
    (p.bins, p.lines.map (fun l => (l.label, l.color, l.hist.val [2, 1])), p.total.isSome)) =
    some [([], [("stat", 1, 3), ("lumi", 2, 4), ("jes", 3, 5)], false)] := by
  rfl

/-- all axes selected -/
example : Choice (chosen ["x", "charge"] axes) [("x", 1), ("charge", 0)] ∧ kept ["x", "charge"] axes = [] ∧ Spec.wanted { selection := ["x", "charge"] } "jes" = true := by
  refine ⟨?_, by decide +kernel, rfl⟩
  rw [show chosen ["x", "charge"] axes = axes by decide +kernel]
  exact .cons ⟨rfl, by decide⟩ (.cons ⟨rfl, by decide⟩ .nil)

example : fileName { absolute := true } true "tag".toList ["x", "y"] "ch0_BaseMapping".toList = "uncertainties_tag_y_x_ch0_BaseMapping_absolute".toList := by
  decide +kernel

/-- a run that stores impacts -/
example (e : RunOutput.Env) (m : RunOutput.MapInfo) (h1 : m.skipInclusive = false) (h2 : ("ch0", false) ∈ m.channels) :
    RunOutput.Spec.Asked { saveHists := true, computeHistImpacts := true } e [m] true ⟨some m.key, some "ch0", impactsName false, .plain⟩ :=
  RunOutput.Spec.Asked.impacts (o := { saveHists := true, computeHistImpacts := true }) (e := e) (maps := [m]) (data := true) (prefit := false)
    (m := m) (c := "ch0") (n := "_global_impacts_grouped") (b := false) ⟨⟨rfl, .inr rfl⟩, by simp, by simp⟩ h1 h2 rfl (.inr rfl)

end Ex

end Verif.UncPlot
