import Verif.Props.CardFit
import Verif.Props.FileAsimov

/-!
C106 for converted datacards: the Asimov fit of the file closes.
-/

namespace Verif.CardFile

open Verif.Writer Verif.Datacard FileFit.Spec

noncomputable section

/-- C106 for a converted card.  Cards as in C105, with `lnN` and shape rows and rate parameters. -/
theorem c106_card (close : Axis → Axis → Bool) (symm : Symm) (iter : List String → List String) (hit : ∀ l, (iter l).Perm l)
    (roots : String → Dict String (Node (Hist ℝ))) (mass : String) (flt : String → Res ℝ) (c : Card ℝ) (A : Analysis)
    (D : Spec.Describes roots mass flt symm c A) (t : Tensor ℝ)
    (hw : cardFile (writerCfg Yields.num close false) symm iter roots mass flt 0 1.01 c = .ok t) (neg : Bool) (xdef : List ℝ)
    (expect : List (String × ℝ)) (hexp : ParamModels.setParamDefault Real.sqrt t.signals t.signals.length neg expect = .ok xdef)
    (hneg : neg = true ∨ ∀ p ∈ A.signals, 0 ≤ SatTest.Spec.requested expect p)
    (hpos : ∀ c n, (c, n) ∈ A.chans → ∀ i < n, 0 ≤ A.expected (SatTest.Spec.requested expect) (fun _ => 0) c i) :
    ∃ d v₀, (FileFit.ofFile t .logNormal xdef neg).asimov (FileFit.ofFile t .logNormal xdef neg).x0 = .ok d ∧
      ((FileFit.ofFile t .logNormal xdef neg).prepared (FileFit.ofFile t .logNormal xdef neg).x0 d).loss (FileFit.ofFile t .logNormal xdef neg).x0 = .ok (some v₀) ∧
      ∀ (x : Fin (FileFit.ofFile t .logNormal xdef neg).n → ℝ),
        A.sound (SatTest.Spec.requested expect) (strength t neg (List.ofFn x)) (nuisance t (List.ofFn x)) →
        ∃ v, ((FileFit.ofFile t .logNormal xdef neg).prepared (FileFit.ofFile t .logNormal xdef neg).x0 d).loss x = .ok (some v) ∧ v₀ ≤ v ∧
          (v = v₀ ↔ (∀ m ∈ A.nuisances, A.constrained m = true → nuisance t (List.ofFn x) m = 0) ∧
            ∀ c n, (c, n) ∈ A.chans → ∀ i < n, A.expected (strength t neg (List.ofFn x)) (nuisance t (List.ofFn x)) c i =
              A.expected (SatTest.Spec.requested expect) (fun _ => 0) c i) := by
  obtain ⟨calls, hconv, hw⟩ := Datacard.bind_ok hw
  obtain ⟨ops, hops, hw⟩ := Datacard.bind_ok hw
  obtain ⟨s, hrun, hw⟩ := Datacard.bind_ok hw
  obtain ⟨F, hok⟩ := written D hconv hops hrun hw
  have hD := described D hconv hops
  refine FileFit.c106_closure _ ops iter t A F hok rfl hit (fun b b' h h' he h1 h2 => ?_) hD neg xdef expect hexp hneg hpos
  rw [← hD.constrained b h h1, ← hD.constrained b' h' h2, he]

/-- C106 for a converted card without rate parameters and `shapeU` rows: the fit gives the requested strengths back. -/
theorem c106_card_unique (close : Axis → Axis → Bool) (symm : Symm) (iter : List String → List String) (hit : ∀ l, (iter l).Perm l)
    (roots : String → Dict String (Node (Hist ℝ))) (mass : String) (flt : String → Res ℝ) (c : Card ℝ) (A : Analysis)
    (D : Spec.Describes roots mass flt symm c A) (t : Tensor ℝ)
    (hw : cardFile (writerCfg Yields.num close false) symm iter roots mass flt 0 1.01 c = .ok t) (neg : Bool) (xdef : List ℝ)
    (expect : List (String × ℝ)) (hexp : ParamModels.setParamDefault Real.sqrt t.signals t.signals.length neg expect = .ok xdef)
    (hneg : neg = true ∨ ∀ p ∈ A.signals, 0 ≤ SatTest.Spec.requested expect p)
    (hpos : ∀ c n, (c, n) ∈ A.chans → ∀ i < n, 0 ≤ A.expected (SatTest.Spec.requested expect) (fun _ => 0) c i)
    (hrate : c.rateParams = []) (hshape : ∀ s ∈ c.systematics, s.type ≠ "shapeU") (hind : A.independent) :
    ∃ d v₀, (FileFit.ofFile t .logNormal xdef neg).asimov (FileFit.ofFile t .logNormal xdef neg).x0 = .ok d ∧
      ((FileFit.ofFile t .logNormal xdef neg).prepared (FileFit.ofFile t .logNormal xdef neg).x0 d).loss (FileFit.ofFile t .logNormal xdef neg).x0 = .ok (some v₀) ∧
      ∀ (x : Fin (FileFit.ofFile t .logNormal xdef neg).n → ℝ),
        A.sound (SatTest.Spec.requested expect) (strength t neg (List.ofFn x)) (nuisance t (List.ofFn x)) →
        ∃ v, ((FileFit.ofFile t .logNormal xdef neg).prepared (FileFit.ofFile t .logNormal xdef neg).x0 d).loss x = .ok (some v) ∧ v₀ ≤ v ∧
          (v = v₀ ↔ (∀ p ∈ A.signals, strength t neg (List.ofFn x) p = SatTest.Spec.requested expect p) ∧
            ∀ m ∈ A.nuisances, nuisance t (List.ofFn x) m = 0) := by
  obtain ⟨calls, hconv, hw⟩ := Datacard.bind_ok hw
  obtain ⟨ops, hops, hw⟩ := Datacard.bind_ok hw
  obtain ⟨s, hrun, hw⟩ := Datacard.bind_ok hw
  obtain ⟨F, hok⟩ := written D hconv hops hrun hw
  have hD := described D hconv hops
  refine FileFit.c106_unique _ ops iter t A F hok rfl hit (fun b b' h h' he h1 h2 => ?_) hD neg xdef expect hexp hneg hpos (fun m hm => ?_) hind
  · rw [← hD.constrained b h h1, ← hD.constrained b' h' h2, he]
  · rcases (D.nuisances m).1 hm with ⟨b, p, row, hr, _⟩ | ⟨s, hs, hn, b, p, e, he⟩
    · rw [hrate] at hr; cases hr
    · rw [D.constrained s hs b p e he m hn, decide_eq_false (hshape s hs)]; rfl

/-! ### cases -/

namespace Ex

theorem expected_zero (μ : String → ℝ) (i : Nat) : paper.expected μ (fun _ => 0) "b" i = (μ "s" + 1) * [1, 2].getD i 0 := by
  simp [Analysis.expected, Analysis.varied, paper, paired]
  ring

end Ex

/-- The hypotheses of `c106_card` are met by the card of C105, with a signal strength of 3 asked for; at a point of equal
loss the constrained nuisances are zero and the second bin has 8 expected events. -/
example : ∃ t d v₀, cardFile (writerCfg Yields.num Ex.close false) .none id Ex.roots "125" Ex.flt 0 1.01 Ex.card = .ok t ∧
    (FileFit.ofFile t .logNormal [3] true).asimov (FileFit.ofFile t .logNormal [3] true).x0 = .ok d ∧
    ∀ (x : Fin (FileFit.ofFile t .logNormal [3] true).n → ℝ),
      Ex.paper.sound (SatTest.Spec.requested [("s", 3)]) (strength t true (List.ofFn x)) (nuisance t (List.ofFn x)) →
      ∃ v, ((FileFit.ofFile t .logNormal [3] true).prepared (FileFit.ofFile t .logNormal [3] true).x0 d).loss x = .ok (some v) ∧ v₀ ≤ v ∧
        (v = v₀ → nuisance t (List.ofFn x) "jes" = 0 ∧ Ex.paper.expected (strength t true (List.ofFn x)) (nuisance t (List.ofFn x)) "b" 1 = 8) := by
  obtain ⟨h1, h2⟩ := Ex.good
  obtain ⟨t, ht, hv⟩ := Writer.Ex.okB_iff h1
  have hw : cardFile (writerCfg Yields.num Ex.close false) .none id Ex.roots "125" Ex.flt 0 1.01 Ex.card = .ok t := by
    have hc := Ex.converted
    obtain ⟨calls, hconv, hops⟩ := Datacard.bind_ok hc
    rw [cardFile, hconv, ok_bind, hops, ok_bind, Ex.run_ok h2, ok_bind]
    exact ht
  have hsig : t.signals = ["s"] := by
    obtain ⟨calls, hconv, hw⟩ := Datacard.bind_ok hw
    obtain ⟨ops, hops, hw⟩ := Datacard.bind_ok hw
    obtain ⟨s, hrun, hw⟩ := Datacard.bind_ok hw
    obtain ⟨F, hok⟩ := written Ex.describes hconv hops hrun hw
    obtain ⟨_, _, _, hp, _⟩ := FileFit.procs_split F hok (described Ex.describes hconv hops)
    exact List.perm_singleton.1 hp
  have hreq : SatTest.Spec.requested [("s", (3 : ℝ))] "s" = 3 := rfl
  obtain ⟨d, v₀, c1, -, c3⟩ := c106_card Ex.close .none id (fun l => .refl l) Ex.roots "125" Ex.flt Ex.card Ex.paper Ex.describes t hw true [3]
    [("s", 3)] (by rw [hsig]; rfl) (.inl rfl) (fun c n hc i hi => by
      obtain ⟨rfl, rfl⟩ := Prod.mk.inj (List.mem_singleton.1 (show (c, n) ∈ [("b", 2)] from hc))
      rw [Ex.expected_zero, hreq]
      match i, hi with
      | 0, _ => norm_num
      | 1, _ => norm_num)
  refine ⟨t, d, v₀, hw, c1, fun x hx => ?_⟩
  obtain ⟨v, e1, e2, e3⟩ := c3 x hx
  refine ⟨v, e1, e2, fun h => ⟨(e3.1 h).1 "jes" (by simp [Ex.paper]) rfl, ?_⟩⟩
  rw [(e3.1 h).2 "b" 2 (List.mem_singleton.2 rfl) 1 (by norm_num), Ex.expected_zero, hreq]
  norm_num

namespace ExU

open Ex (hh flt file roots shape distinct vals_hh hh_vals names_eq close run_ok toks toksY)

/-- a signal and a background, a shape row, a row of normalisations, one of them a pair -/
def card : Card ℝ where
  bins := ["b"]
  processes := ["s", "q"]
  indices := [("s", 0), ("q", 1)]
  binMap := [("b", [("s", 5), ("q", 6)])]
  systematics := [⟨"jes", "shape", none, [(("b", "s"), "1"), (("b", "q"), "-")]⟩, ⟨"lum", "lnN", none, [(("b", "s"), "2"), (("b", "q"), "1/3")]⟩]
  rateParams := []
  shapes := [shape]
  maxDepth := 1

/-- the analysis on paper -/
def paper : Analysis where
  chans := [("b", 2)]
  signals := ["s"]
  backgrounds := ["q"]
  nuisances := ["jes", "lum"]
  constrained := fun _ => true
  obs := fun _ i => [2, 3].getD i 0
  nominal := fun _ p i => if p = "s" ∨ p = "q" then [1, 2].getD i 0 else 0
  response := fun _ p m i θ =>
    if p = "s" ∧ m = "jes" then paired .none false (logRatio 1 ([1, 2].getD i 0) ([2, 3].getD i 0)) (logRatio 1 ([1, 2].getD i 0) ([1, 1].getD i 0)) θ
    else if p = "s" ∧ m = "lum" then Real.log 2 * θ
    else if p = "q" ∧ m = "lum" then (Real.log 3 - Real.log 1) / 2 * θ
    else 0

theorem last (p : String) : Datacard.Spec.LastShape card p "b" shape := ⟨[], [], rfl, by simp [Datacard.Spec.Applies, shape], by simp⟩

theorem given_nominal (p : String) (h : Hist ℝ) (hp : '/' ∉ p.toList) (ha : Datacard.Spec.At file ["b", p] h) :
    Datacard.Spec.Given roots "125" card p "b" none h := by
  refine ⟨shape, 'b' :: '/' :: p.toList, ["b", p], last p, ⟨toks, ?_, ?_, by decide +kernel, ?_⟩, ⟨by simp, ?_, ?_⟩, by simp [card], distinct, ha⟩
  · intro l hl; simp [toks] at hl; subst hl; decide
  · simp [toks]
  · simp [toks, Datacard.Spec.render, Datacard.Spec.values]
  · intro q hq; simp at hq; rcases hq with rfl | rfl
    · decide +kernel
    · exact hp
  · simp [List.intercalate, List.intersperse]

theorem given_syst (y : String) (h : Hist ℝ) (hy : '/' ∉ y.toList) (ha : Datacard.Spec.At file ["b", "s_" ++ y] h) :
    Datacard.Spec.Given roots "125" card "s" "b" (some y) h := by
  refine ⟨shape, ("b/s_" ++ y).toList, ["b", "s_" ++ y], last "s",
    .inl ⟨_, toksY, rfl, ?_, by decide +kernel, ?_⟩, ⟨by simp, ?_, ?_⟩, by simp [card], distinct, ha⟩
  · intro l hl; simp [toks, toksY] at hl; rcases hl with rfl | rfl <;> decide
  · simp [toks, toksY, Datacard.Spec.render, Datacard.Spec.values]
  · intro q hq; simp at hq; rcases hq with rfl | rfl
    · decide +kernel
    · simp [hy]
  · simp [List.intercalate, List.intersperse]

theorem given_obs : Datacard.Spec.Given roots "125" card "data_obs" "b" none (hh [2, 3]) :=
  given_nominal _ _ (by decide +kernel) (.down List.mem_cons_self (.here (by simp)))
theorem given_s : Datacard.Spec.Given roots "125" card "s" "b" none (hh [1, 2]) :=
  given_nominal _ _ (by decide +kernel) (.down List.mem_cons_self (.here (by simp)))
theorem given_q : Datacard.Spec.Given roots "125" card "q" "b" none (hh [1, 2]) :=
  given_nominal _ _ (by decide +kernel) (.down List.mem_cons_self (.here (by simp)))
theorem given_up : Datacard.Spec.Given roots "125" card "s" "b" (some ("jes" ++ "Up")) (hh [2, 3]) :=
  given_syst _ _ (by decide +kernel) (.down List.mem_cons_self (.here (by simp)))
theorem given_down : Datacard.Spec.Given roots "125" card "s" "b" (some ("jes" ++ "Down")) (hh [1, 1]) :=
  given_syst _ _ (by decide +kernel) (.down List.mem_cons_self (.here (by simp)))

/-- all histograms of the file have two bins -/
theorem two_bins {p b y h} (hg : Datacard.Spec.Given roots "125" card p b y h) : Spec.nbins h = 2 ∧ (h.vals false).length = 2 ∧ (h.vars false).length = 2 := by
  obtain ⟨s, name, ps, _, _, _, _, _, ha⟩ := hg
  cases ha with
  | here hm => simp [roots, file] at hm
  | down hm ha =>
    simp only [roots, file, List.mem_singleton, Prod.mk.injEq, Node.dir.injEq] at hm
    obtain ⟨-, rfl⟩ := hm
    cases ha with
    | here hm =>
      simp only [List.mem_cons, Prod.mk.injEq, Node.hist.injEq, List.not_mem_nil, or_false] at hm
      rcases hm with ⟨_, rfl⟩ | ⟨_, rfl⟩ | ⟨_, rfl⟩ | ⟨_, rfl⟩ | ⟨_, rfl⟩ <;> simp [Spec.nbins, hh, Writer.Ex.ax]
    | down hm _ => simp at hm

theorem column_iff (b p : String) : Spec.Column card b p ↔ b = "b" ∧ (p = "s" ∨ p = "q") := by
  unfold Spec.Column
  simp only [card, Dict.get?]
  by_cases hb : b = "b"
  · subst hb
    by_cases h1 : p = "s"
    · subst h1; simp [Dict.get?]
    · by_cases h2 : p = "q"
      · subst h2; simp [Dict.get?]
      · simp [Dict.get?, h1, h2, Ne.symm h1, Ne.symm h2]
  · simp [hb, Ne.symm hb]

theorem entry_iff {s : Syst} (hs : s ∈ card.systematics) (b p e : String) : Spec.Entry s b p e ↔ b = "b" ∧
    ((s.name = "jes" ∧ p = "s" ∧ e = "1") ∨ (s.name = "lum" ∧ ((p = "s" ∧ e = "2") ∨ (p = "q" ∧ e = "1/3")))) := by
  simp only [card, List.mem_cons, List.not_mem_nil, or_false] at hs
  rcases hs with rfl | rfl
  · simp only [Spec.Entry, List.mem_cons, Prod.mk.injEq, List.not_mem_nil, or_false]
    constructor
    · rintro ⟨⟨⟨rfl, rfl⟩, rfl⟩ | ⟨⟨rfl, rfl⟩, rfl⟩, h1, h2⟩
      · simp
      · exact absurd rfl h1
    · rintro ⟨rfl, ⟨_, rfl, rfl⟩ | ⟨h, _⟩⟩
      · simp
      · exact absurd h (by decide)
  · simp only [Spec.Entry, List.mem_cons, Prod.mk.injEq, List.not_mem_nil, or_false]
    constructor
    · rintro ⟨⟨⟨rfl, rfl⟩, rfl⟩ | ⟨⟨rfl, rfl⟩, rfl⟩, h1, h2⟩ <;> simp
    · rintro ⟨rfl, ⟨h, _⟩ | ⟨_, ⟨rfl, rfl⟩ | ⟨rfl, rfl⟩⟩⟩
      · exact absurd h (by decide)
      · simp
      · simp

theorem describes : Spec.Describes roots "125" flt .none card paper where
  named := by
    refine ⟨?_, ?_, ?_, ?_, ?_⟩ <;> simp only [card] <;> decide +kernel
  binsOnce := by simp [card]
  columns := by
    intro b _ p hcol
    obtain ⟨rfl, rfl | rfl⟩ := (column_iff b p).1 hcol <;> simp [card, Dict.get?]
  types := by simp [card, Spec.shapeTypes]
  entries := by
    intro s hs b p e he
    obtain ⟨rfl, ⟨_, rfl, _⟩ | ⟨_, ⟨rfl, _⟩ | ⟨rfl, _⟩⟩⟩ := (entry_iff hs b p e).1 he <;> simp [card]
  rateOne := by simp [card]
  once := by
    simp only [card]
    decide +kernel
  sizes := by
    intro b _ h0 h1 p y h h2
    rw [(two_bins h1).1]
    exact (two_bins h2).2
  chansOnce := by simp [paper]
  chans := by
    intro b n
    simp only [paper, List.mem_singleton, Prod.mk.injEq]
    constructor
    · rintro ⟨rfl, rfl⟩
      exact ⟨by simp [card], _, given_obs, (two_bins given_obs).1.symm⟩
    · rintro ⟨hb, h, hg, rfl⟩
      exact ⟨by simpa [card] using hb, (two_bins hg).1⟩
  obs := by
    intro b hb
    obtain rfl : b = "b" := by simpa [card] using hb
    exact ⟨_, given_obs, fun i x hx => vals_hh hx⟩
  signalsOnce := by simp [paper]
  signals := by
    intro p
    simp only [column_iff, paper, List.mem_singleton]
    constructor
    · rintro rfl
      exact ⟨⟨"b", by simp [card], rfl, .inl rfl⟩, 0, by simp [card, Dict.get?], le_rfl⟩
    · rintro ⟨⟨_, _, _, rfl | rfl⟩, i, hi, hle⟩
      · rfl
      · simp [card, Dict.get?] at hi
        omega
  backgroundsOnce := by simp [paper]
  backgrounds := by
    intro p
    simp only [column_iff, paper, List.mem_singleton]
    constructor
    · rintro rfl
      exact ⟨⟨"b", by simp [card], rfl, .inr rfl⟩, 1, by simp [card, Dict.get?], by decide⟩
    · rintro ⟨⟨_, _, _, rfl | rfl⟩, i, hi, hle⟩
      · simp [card, Dict.get?] at hi
        omega
      · rfl
  nominal := by
    intro b _ p hcol
    obtain ⟨rfl, hp⟩ := (column_iff b p).1 hcol
    have hpos : ∀ i, (0 : ℝ) ≤ [1, 2].getD i 0 := by
      intro i
      match i with
      | 0 => exact one_pos.le
      | 1 => exact two_pos.le
      | i + 2 => exact le_rfl
    have hg : Datacard.Spec.Given roots "125" card p "b" none (hh [1, 2]) := by
      rcases hp with rfl | rfl
      · exact given_s
      · exact given_q
    refine ⟨_, hg, fun i x hx => ⟨_, vals_hh hx, ?_⟩⟩
    rw [max_eq_left (hpos i)]
    exact if_pos hp
  absent := by
    intro b hb p hcol i
    obtain rfl : b = "b" := by simpa [card] using hb
    exact if_neg fun h => hcol ((column_iff _ p).2 ⟨rfl, h⟩)
  nuisancesOnce := by simp [paper]
  nuisances := by
    intro m
    simp only [names_eq, List.mem_singleton]
    constructor
    · intro hm
      simp only [paper, List.mem_cons, List.not_mem_nil, or_false] at hm
      rcases hm with rfl | rfl
      · exact .inr ⟨card.systematics[0], by simp [card], rfl, "b", "s", "1", by simp [card, Spec.Entry]⟩
      · exact .inr ⟨card.systematics[1], by simp [card], rfl, "b", "s", "2", by simp [card, Spec.Entry]⟩
    · rintro (⟨b, p, row, hr, h⟩ | ⟨s, hs, rfl, _⟩)
      · exact nomatch hr
      · simp only [card, List.mem_cons, List.not_mem_nil, or_false] at hs
        rcases hs with rfl | rfl <;> simp [paper]
  free := by
    intro row hr m b p h
    exact nomatch hr
  constrained := by
    intro s hs b p e _ m hm
    rw [names_eq, List.mem_singleton] at hm
    subst hm
    simp only [card, List.mem_cons, List.not_mem_nil, or_false] at hs
    rcases hs with rfl | rfl <;> simp [paper]
  silent := by
    intro b hb p m h1 h2 i θ
    obtain rfl : b = "b" := by simpa [card] using hb
    have n2 : ¬ (p = "s" ∧ m = "jes") := by
      rintro ⟨rfl, rfl⟩
      exact h2 card.systematics[0] (by simp [card]) (by simp [card, names_eq]) "1" (by simp [card, Spec.Entry])
    have n3 : ¬ (p = "s" ∧ m = "lum") := by
      rintro ⟨rfl, rfl⟩
      exact h2 card.systematics[1] (by simp [card]) (by simp [card, names_eq]) "2" (by simp [card, Spec.Entry])
    have n4 : ¬ (p = "q" ∧ m = "lum") := by
      rintro ⟨rfl, rfl⟩
      exact h2 card.systematics[1] (by simp [card]) (by simp [card, names_eq]) "1/3" (by simp [card, Spec.Entry])
    show (if p = "s" ∧ m = "jes" then _ else _) = (0 : ℝ)
    rw [if_neg n2, if_neg n3, if_neg n4]
  rate := by
    intro row hr m b p h i θ
    exact nomatch hr
  norm := by
    intro s hs ht b p e he
    have hn : s.name = "lum" := by
      simp only [card, List.mem_cons, List.not_mem_nil, or_false] at hs
      rcases hs with rfl | rfl
      · exact absurd ht (by decide)
      · rfl
    obtain ⟨rfl, ⟨h, _⟩ | ⟨_, ⟨rfl, rfl⟩ | ⟨rfl, rfl⟩⟩⟩ := (entry_iff hs b p e).1 he
    · rw [hn] at h
      exact absurd h (by decide)
    · refine .inl ⟨by decide +kernel, 2, by simp [flt], two_pos, fun i θ => ?_⟩
      rw [hn]
      simp [paper]
    · refine .inr ⟨"1", "3", by decide +kernel, by decide +kernel, by decide +kernel, 1, 3, by simp [flt], by simp [flt], one_pos, three_pos, fun i θ => ?_⟩
      rw [hn]
      simp [paper]
  shape := by
    intro s hs ht b p e he
    have hn : s.name = "jes" := by
      simp only [card, List.mem_cons, List.not_mem_nil, or_false] at hs
      rcases hs with rfl | rfl
      · rfl
      · exact absurd ht (by decide +kernel)
    obtain ⟨rfl, ⟨_, rfl, rfl⟩ | ⟨h, _⟩⟩ := (entry_iff hs b p e).1 he
    swap
    · rw [hn] at h
      exact absurd h (by decide)
    rw [hn]
    refine ⟨1, _, _, by simp [flt], given_up, given_down, fun n hbn i hi => ⟨_, _, hh_vals ?_, hh_vals ?_, fun m hm θ => ?_⟩⟩
    · simp [paper] at hbn
      omega
    · simp [paper] at hbn
      omega
    · rw [names_eq, List.mem_singleton, hn] at hm
      subst hm
      rfl

/-- the calls of the writer -/
def ops : List (Op ℝ) := [.channel [Writer.Ex.ax 2] (some "b") false false, .data (Writer.Ex.hr [2, 3]) "b" none,
  .process (Writer.Ex.hr [1, 2]) "s" "b" true none, .process (Writer.Ex.hr [1, 2]) "q" "b" false none,
  .syst (.pair (Writer.Ex.hr [2, 3]) (Writer.Ex.hr [1, 1])) "jes" "s" "b" 1 true .none false false {},
  .normSyst "lum" ["s"] "b" [.num 2] false .average {}, .normSyst "lum" ["q"] "b" [.list [3, 1]] false .average {}]

theorem converted : (convert (fileEnv roots "125" card counting flt 0 1.01) card).bind (callOps .none) = .ok ops := by
  have n := describes.named
  have hb : "b" ∈ card.bins := by simp [card]
  have hs : "s" ∈ card.processes := by simp [card]
  have hq : "q" ∈ card.processes := by simp [card]
  have h1 : nominalCalls (fileEnv roots "125" card counting flt 0 1.01) card card.bins =
      .ok [.channel (hh [2, 3]) "b", .data (hh [2, 3]) "b", .process (hh [1, 2]) "s" "b" true, .process (hh [1, 2]) "q" "b" false] := by
    show nominalCalls _ _ ["b"] = _
    rw [nominalCalls, show Dict.get card.binMap "b" = .ok [("s", 5), ("q", 6)] from rfl, ok_bind]
    show (processCalls _ _ _ ["data_obs", "s", "q"]).bind _ = _
    simp only [processCalls, nominal_given n (.inl rfl) hb given_obs, nominal_given n (.inr hs) hb given_s, nominal_given n (.inr hq) hb given_q,
      ok_bind, ok_map, nominalCalls]
    rfl
  have h2 : rateParamCalls (fileEnv roots "125" card counting flt 0 1.01) card card.rateParams = .ok [] := rfl
  have h3 : systCalls (fileEnv roots "125" card counting flt 0 1.01) card card.systematics = .ok [.syst (some (hh [2, 3])) (some (hh [1, 1])) "jes" "s" "b" 1 true,
      .norm "lum" ["s"] "b" (.single 2) true, .norm "lum" ["q"] "b" (.pair 3 1) true] := by
    have e1 := shapeCall_given (count := counting) (zero := 0) (one := 1.01) (flt := flt) (e := "1") n (s := card.systematics[0]) (by simp [card]) hb hs given_up given_down (k := 1) (by simp [flt])
    have e2 := (normCall_given (env := fileEnv roots "125" card counting flt 0 1.01) (name := "lum") (p := "s") (b := "b") (e := "2")).1 (by decide +kernel) 2 (by simp [fileEnv, flt])
    have e3 := (normCall_given (env := fileEnv roots "125" card counting flt 0 1.01) (name := "lum") (p := "q") (b := "b") (e := "1/3")).2 "1" "3" 1 3 (by decide +kernel) (by decide +kernel) (by decide +kernel)
      (by simp [fileEnv, flt]) (by simp [fileEnv, flt])
    show systCalls _ _ [⟨"jes", "shape", none, [(("b", "s"), "1"), (("b", "q"), "-")]⟩, ⟨"lum", "lnN", none, [(("b", "s"), "2"), (("b", "q"), "1/3")]⟩] = _
    simp only [systCalls, effectCalls]
    rw [show shapeCall (fileEnv roots "125" card counting flt 0 1.01) card "jes" "shape" "s" "b" "1" = _ from e1, e2, e3]
    rfl
  rw [convert, h1, ok_bind, h2, ok_bind, h3]
  rfl

def viewC (t : Tensor ℝ) : Bool := t.procs == ["s", "q"] && t.systs == ["jes", "lum"]

open Writer.Ex in
theorem good : okB (write (writerCfg Yields.num close false) id (run (writerCfg Yields.num close false) ops)).2 viewC = true ∧
    allOkB (writerCfg Yields.num close false) {} ops = true := by
  simp only [allOkB, run, runOps, ops, step, addProcess, addData,
    Option.getD_none, hr_sumw2 _ 1 2 one_pos.le two_pos.le, hr_vars _ 2 3 two_pos.le three_pos.le]
  refine ⟨?_, ?_⟩ <;> decide +kernel

end ExU

/-- The hypotheses of `c106_card_unique` are met by the card of C105 without its rate parameter. -/
example : ∃ t d v₀, cardFile (writerCfg Yields.num Ex.close false) .none id Ex.roots "125" Ex.flt 0 1.01 ExU.card = .ok t ∧
    (FileFit.ofFile t .logNormal [3] true).asimov (FileFit.ofFile t .logNormal [3] true).x0 = .ok d ∧
    ∀ (x : Fin (FileFit.ofFile t .logNormal [3] true).n → ℝ),
      ExU.paper.sound (SatTest.Spec.requested [("s", 3)]) (strength t true (List.ofFn x)) (nuisance t (List.ofFn x)) →
      ∃ v, ((FileFit.ofFile t .logNormal [3] true).prepared (FileFit.ofFile t .logNormal [3] true).x0 d).loss x = .ok (some v) ∧ v₀ ≤ v ∧
        (v = v₀ → strength t true (List.ofFn x) "s" = 3) := by
  obtain ⟨h1, h2⟩ := ExU.good
  obtain ⟨t, ht, hv⟩ := Writer.Ex.okB_iff h1
  have hw : cardFile (writerCfg Yields.num Ex.close false) .none id Ex.roots "125" Ex.flt 0 1.01 ExU.card = .ok t := by
    have hc := ExU.converted
    obtain ⟨calls, hconv, hops⟩ := Datacard.bind_ok hc
    rw [cardFile, hconv, ok_bind, hops, ok_bind, Ex.run_ok h2, ok_bind]
    exact ht
  have hsig : t.signals = ["s"] := by
    obtain ⟨calls, hconv, hw⟩ := Datacard.bind_ok hw
    obtain ⟨ops, hops, hw⟩ := Datacard.bind_ok hw
    obtain ⟨s, hrun, hw⟩ := Datacard.bind_ok hw
    obtain ⟨F, hok⟩ := written ExU.describes hconv hops hrun hw
    obtain ⟨_, _, _, hp, _⟩ := FileFit.procs_split F hok (described ExU.describes hconv hops)
    exact List.perm_singleton.1 hp
  have hreq : SatTest.Spec.requested [("s", (3 : ℝ))] "s" = 3 := rfl
  obtain ⟨d, v₀, c1, -, c3⟩ := c106_card_unique Ex.close .none id (fun l => .refl l) Ex.roots "125" Ex.flt ExU.card ExU.paper ExU.describes t hw true [3]
    [("s", 3)] (by rw [hsig]; rfl) (.inl rfl) (fun c n hc i hi => by
      obtain ⟨rfl, rfl⟩ := Prod.mk.inj (List.mem_singleton.1 (show (c, n) ∈ [("b", 2)] from hc))
      have : ExU.paper.expected (SatTest.Spec.requested [("s", 3)]) (fun _ => 0) "b" i = (3 + 1) * [1, 2].getD i 0 := by
        simp [Analysis.expected, Analysis.varied, ExU.paper, paired, hreq]
        ring
      rw [this]
      match i, hi with
      | 0, _ => norm_num
      | 1, _ => norm_num) rfl (by simp [ExU.card]) (fun a ha p hp => by
      rcases List.mem_singleton.1 (show p ∈ ["s"] from hp) with rfl
      have := ha "b" 2 (List.mem_singleton.2 rfl) 0 (by norm_num)
      simpa [ExU.paper] using this)
  refine ⟨t, d, v₀, hw, c1, fun x hx => ?_⟩
  obtain ⟨v, e1, e2, e3⟩ := c3 x hx
  exact ⟨v, e1, e2, fun h => (e3.1 h).1 "s" (List.mem_singleton.2 rfl)⟩

end

end Verif.CardFile
