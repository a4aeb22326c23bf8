import Verif.Props.CompositeMapping

/-
C52 and C53: mappings get the predictions per process when they need them (rabbit/fitter.py:1955-1992,
rabbit/mappings/ratio.py:70-75, rabbit/mappings/mapping.py:101-132).

Specification: the value of the mapping on the predictions per process, whatever the mapping asks the fitter for.
-/

namespace Verif.Workspace

open Verif.ABCD Verif.Grid Verif.Mappings

variable {V : Type}

theorem side_summed [LinearOrder V] [AddCommMonoid V] (inp : InData V) (s : Sels V) (c : Chan V) (nb : Nat) (hg : Good s c)
    (hnb : c.start + c.shape.prod ≤ nb) (obs : Tensor V) (hobs : obs.shape = [nb, inp.procs.length]) :
    Mappings.Spec.side inp s c [] (obs.reduceSum [1]) = Mappings.Spec.side inp s c [] obs := by
  have hr := reduce_last obs [nb] inp.procs.length (by rw [hobs]; rfl)
  rw [show obs.shape.length - 1 = 1 by rw [hobs]; rfl] at hr
  funext i
  unfold Mappings.Spec.side Mappings.Spec.selected
  congr 1
  apply List.map_congr_left
  intro j hj
  have hb : c.start + ravel (c.axes.map (·.size)) j < nb := by
    have := ravel_lt (List.mem_filter.1 hj).1
    rw [shape_noflow hg.flow] at hnb
    omega
  unfold Mappings.Spec.content
  rw [if_pos (by rw [hr.1]; rfl), if_neg (by rw [hobs]; simp), hr.2 _ (by rw [grid_one]; exact List.mem_map.2 ⟨_, List.mem_range.2 hb, rfl⟩)]
  unfold Mappings.Spec.procSel
  rw [if_pos rfl]
  rfl

section

variable [LinearOrder V] [Field V] (inp : InData V) (nch dch : String) (nps dps : List String) (ns ds : Sels V)
  (nc dc : Chan V) (hnc : inp.chans.get? nch = some nc) (hdc : inp.chans.get? dch = some dc)
  (nb : Nat) (hnb : nc.start + nc.shape.prod ≤ nb) (hdb : dc.start + dc.shape.prod ≤ nb)

omit [Field V] in
theorem ratioInit_need (m : RatioM V) (hm : ratioInit inp nch dch nps dps ns ds = .ok m) :
    ∃ tn td, termInit inp nch nps ns = .ok tn ∧ termInit inp dch dps ds = .ok td ∧
      m.hasData = (tn.hasData && td.hasData) ∧ m.needProcesses = (!nps.isEmpty || !dps.isEmpty) := by
  unfold ratioInit at hm
  split at hm
  · exact nomatch hm
  split at hm
  · exact nomatch hm
  split at hm
  · exact nomatch hm
  rename_i _ tn hn _ td hd _
  cases hm
  exact ⟨tn, td, hn, hd, rfl, rfl⟩

omit [Field V] in
theorem termInit_data (ch : String) (ps : List String) (s : Sels V) (c : Chan V) (hc : inp.chans.get? ch = some c) (t : Term V)
    (h : termInit inp ch ps s = .ok t) : t.hasData = true ↔ c.masked = false ∧ ps = [] := by
  unfold termInit at h
  rw [hc] at h
  dsimp only at h
  split at h
  · exact nomatch h
  split at h
  · exact nomatch h
  split at h
  · exact nomatch h
  split at h
  · exact nomatch h
  cases h
  simp

include hnc hdc hnb hdb in
/-- C52.  The ratio that the fitter computes is that of the selected processes, whether or not processes are selected in
the numerator, in the denominator or in both. -/
theorem c52_processes (hgn : Good ns nc) (hgd : Good ds dc) (m : RatioM V)
    (hm : ratioInit inp nch dch nps dps ns ds = .ok m) (obs : Tensor V) (hobs : obs.shape = [nb, inp.procs.length]) (key : String) :
    evaluate (ofRatio key m) obs = .ok ((grid (Mappings.Spec.outSizes ns nc)).map fun i =>
      Mappings.Spec.side inp ns nc nps obs i / Mappings.Spec.side inp ds dc dps obs i) := by
  obtain ⟨-, -, -, -, -, hneed⟩ := ratioInit_need inp nch dch nps dps ns ds m hm
  show m.ratio (if m.needProcesses then obs else obs.reduceSum [1]) = _
  cases hn : m.needProcesses with
  | true =>
    exact (c52_value inp nch dch nps dps ns ds nc dc hnc hdc nb hnb hdb hgn hgd m hm obs (.inr hobs)).2.1
  | false =>
    rw [hn] at hneed
    obtain ⟨rfl, rfl⟩ : nps = [] ∧ dps = [] := by
      cases nps <;> cases dps <;> simp at hneed ⊢
    have hr := reduce_last obs [nb] inp.procs.length (by rw [hobs]; rfl)
    rw [show obs.shape.length - 1 = 1 by rw [hobs]; rfl] at hr
    have := (c52_value inp nch dch [] [] ns ds nc dc hnc hdc nb hnb hdb hgn hgd m hm (obs.reduceSum [1]) (.inl hr.1)).2.1
    rw [side_summed inp ns nc nb hgn hnb obs hobs, side_summed inp ds dc nb hgd hdb obs hobs] at this
    exact this

include hnc hdc in
/-- C52.  A ratio is compared with data exactly if it is one of the observed numbers of events: both channels observed, no
process selected. -/
theorem c52_data (m : RatioM V) (hm : ratioInit inp nch dch nps dps ns ds = .ok m) (key : String) :
    (ofRatio key m).hasData = true ↔ (nc.masked = false ∧ dc.masked = false) ∧ nps = [] ∧ dps = [] := by
  obtain ⟨tn, td, hn, hd, hdata, -⟩ := ratioInit_need inp nch dch nps dps ns ds m hm
  show m.hasData = true ↔ _
  rw [hdata, Bool.and_eq_true, termInit_data inp nch nps ns nc hnc tn hn, termInit_data inp dch dps ds dc hdc td hd]
  tauto

end

theorem forall₂_congr_mem {α β : Type} {R S : α → β → Prop} {l : List α} {l' : List β} (h : ∀ a ∈ l, ∀ b, R a b ↔ S a b) :
    List.Forall₂ R l l' ↔ List.Forall₂ S l l' := by
  induction l generalizing l' with
  | nil => simp
  | cons a l ih =>
    cases l' with
    | nil => simp
    | cons b l' =>
      rw [List.forall₂_cons, List.forall₂_cons, h a (by simp), ih fun a' ha' => h a' (List.mem_cons_of_mem _ ha')]

/-- C53.  When either no component or every component needs the predictions per process, the fitter's result of the
composite is the concatenation of its results of the components.  Missing: other composites, see `c53_order_violated`. -/
theorem c53_evaluate_partial [AddMonoid V] (ms : List (Mp V)) (hne : ms ≠ [])
    (h : (∀ m ∈ ms, m.needProcesses = false) ∨ ∀ m ∈ ms, m.needProcesses = true) (obs : Tensor V) (out : List V) :
    evaluate (composite ms) obs = .ok out ↔
      ∃ outs, List.Forall₂ (fun (m : Mp V) o => evaluate m obs = .ok o) ms outs ∧ out = outs.flatten := by
  have hn : ∀ m ∈ ms, m.needProcesses = (composite ms).needProcesses := by
    intro m hm
    show _ = ms.any (·.needProcesses)
    rcases h with h | h
    · rw [h m hm, eq_comm, List.any_eq_false]; intro m' hm'; simp [h m' hm']
    · rw [h m hm, eq_comm, List.any_eq_true]; exact ⟨m, hm, h m hm⟩
  unfold evaluate
  rw [c53_concat ms hne h]
  refine exists_congr fun outs => and_congr_left fun _ => ?_
  exact forall₂_congr_mem fun m hm o => by rw [hn m hm]

/-- a request for a ratio: channels, processes and selections of numerator and denominator -/
structure Spec.Req (V : Type) where
  num : String × List String × Sels V
  den : String × List String × Sels V

/-- the request concerns observed numbers of events only -/
def Spec.Req.observed (inp : InData V) (r : Spec.Req V) : Prop :=
  (∀ c, inp.chans.get? r.num.1 = some c → c.masked = false) ∧ (∀ c, inp.chans.get? r.den.1 = some c → c.masked = false) ∧
    r.num.2.1 = [] ∧ r.den.2.1 = []

/-- C53.  A composite of ratios is compared with data exactly if every request concerns observed numbers of events only. -/
theorem c53_data [LinearOrder V] [Field V] (inp : InData V) (rs : List (Spec.Req V)) (ms : List (RatioM V)) (key : RatioM V → String)
    (hms : List.Forall₂ (fun (r : Spec.Req V) m => ratioInit inp r.num.1 r.den.1 r.num.2.1 r.den.2.1 r.num.2.2 r.den.2.2 = .ok m) rs ms) :
    (composite (ms.map fun m => ofRatio (key m) m)).hasData = true ↔ ∀ r ∈ rs, r.observed inp := by
  show (ms.map fun m => ofRatio (key m) m).all (·.hasData) = true ↔ _
  rw [List.all_eq_true]
  induction hms with
  | nil => simp
  | @cons r m rs ms h _ ih =>
    rw [List.map_cons, List.forall_mem_cons, List.forall_mem_cons, ih]
    refine and_congr_left fun _ => ?_
    obtain ⟨tn, td, hn, hd, -, -⟩ := ratioInit_need inp _ _ _ _ _ _ m h
    have get : ∀ ch ps s t, termInit inp ch ps s = .ok t → ∃ c, inp.chans.get? ch = some c := by
      intro ch ps s t ht
      unfold termInit at ht
      split at ht
      · exact nomatch ht
      · exact ⟨_, ‹_›⟩
    obtain ⟨nc, hnc⟩ := get _ _ _ _ hn
    obtain ⟨dc, hdc⟩ := get _ _ _ _ hd
    rw [c52_data inp _ _ _ _ _ _ nc dc hnc hdc m h]
    unfold Spec.Req.observed
    rw [hnc, hdc]
    constructor
    · rintro ⟨⟨h1, h2⟩, h3, h4⟩
      exact ⟨fun c hc => by cases hc; exact h1, fun c hc => by cases hc; exact h2, h3, h4⟩
    · rintro ⟨h1, h2, h3, h4⟩
      exact ⟨⟨h1 _ rfl, h2 _ rfl⟩, h3, h4⟩

/-! ## examples -/

namespace ExProcesses

open Verif.Mappings.Ex51

/-- process b over everything, summed over x: only the denominator has no process selection -/
example : ((ratioInit inp "ch" "ch" ["b"] [] { sum := ["x"] } { sum := ["x"] }).toOption.bind fun m =>
      (evaluate (ofRatio "r" m) obs2).toOption) = some [10/11, 10/11, 10/11, 10/11] ∧
    ((ratioInit inp "ch" "ch" [] ["b"] { sum := ["x"] } { sum := ["x"] }).toOption.bind fun m =>
      (evaluate (ofRatio "r" m) obs2).toOption) = some [11/10, 11/10, 11/10, 11/10] ∧
    ((ratioInit inp "ch" "ch" [] [] { sum := ["x"] } { sum := ["x"] }).toOption.bind fun m =>
      (evaluate (ofRatio "r" m) obs2).toOption) = some [1, 1, 1, 1] := by
  refine ⟨?_, ?_, ?_⟩ <;> decide +kernel

/-- the hypotheses of `c52_processes`, `c52_data` and `c53_data` -/
example : obs2.shape = [9, inp.procs.length] ∧ inp.chans.get? "ch" = some chan ∧ chan.start + chan.shape.prod ≤ 9 ∧
    (ratioInit inp "ch" "ch" [] ["b"] { sum := ["x"] } { sum := ["x"] }).isOk = true :=
  ⟨by decide +kernel, rfl, by decide +kernel, by decide +kernel⟩

/-- the hypotheses of `c53_evaluate_partial` -/
example : (evaluate (composite [Ex53.rat, Ex53.rat]) obs2).toOption = some [10, 10, 10, 10, 10, 10, 10, 10] ∧
    ∀ m ∈ [Ex53.rat, Ex53.rat], m.needProcesses = true := by
  refine ⟨by decide +kernel, ?_⟩
  intro m hm
  simp only [List.mem_cons, List.not_mem_nil, or_false, or_self] at hm
  rw [hm]; rfl

end ExProcesses

end Verif.Workspace
